import Verif.Proof.PeersTrace
/-! # C40: the limit of connections and the known peers. C73: nobody is dialled again at once.

`run` is what becomes of a history of events: peers found, connections asked for, made and lost, peers banned, stops
and starts, in any order and at any time. -/

namespace Verif
open Net Peers Spec.Peering

/-- Nothing is read outside the known peers. Peer exchange, the only source of flags, has one for every peer
(Core/PexExtension.cpp:183-184, :201-202). -/
theorem C40_safe (h : List Ev) (hf : ∀ e ∈ h, Flagged e) : ∃ r, run h = .ok r := by
  obtain ⟨r, h1, _⟩ := runFrom_wf wf_init hf
  exact ⟨r, h1⟩

/-- Automatic connections stay within the limit: after any history, an event that is neither the wish of the user nor a
peer that connects to us leaves no more connections than there were, or no more than the limit it saw. -/
theorem C40_limit (h : List Ev) (e : Ev) (s s' : State) (o o' : List Out) (hr : run h = .ok (s, o)) (hf : ¬ free e)
    (he : step s e = .ok (s', o')) : s'.act.length ≤ s.act.length ∨ ∃ m, limitOf e = some m ∧ s'.act.length ≤ m := by
  have hw : Wf s := by
    have : ∀ (h : List Ev) (s0 : State) (r : State × List Out), Wf s0 → runFrom s0 h = .ok r → Wf r.1 := by
      intro h
      induction h with
      | nil => intro s0 r hw hr; simp only [runFrom] at hr; cases hr; exact hw
      | cons e h ih =>
        intro s0 r hw hr
        simp only [runFrom] at hr
        obtain ⟨a, h1, h2⟩ := bindR hr
        obtain ⟨b, h3, h4⟩ := bindR h2
        cases h4
        exact ih a.1 b (step_wf' hw h1) h3
    exact this h {} (s, o) wf_init hr
  exact step_count hw hf he

/-- With nothing but automatic connections there are never more than the limit. -/
theorem C40_limit_only (m : Nat) (h : List Ev) (hf : ∀ e ∈ h, ¬ free e) (hm : ∀ e ∈ h, ∀ n, limitOf e = some n → n ≤ m)
    (s : State) (o : List Out) (hr : run h = .ok (s, o)) : s.act.length ≤ m := by
  have : ∀ (h : List Ev) (s0 : State) (r : State × List Out), Wf s0 → s0.act.length ≤ m → (∀ e ∈ h, ¬ free e) →
      (∀ e ∈ h, ∀ n, limitOf e = some n → n ≤ m) → runFrom s0 h = .ok r → r.1.act.length ≤ m := by
    intro h
    induction h with
    | nil => intro s0 r _ hl _ _ hr; simp only [runFrom] at hr; cases hr; exact hl
    | cons e h ih =>
      intro s0 r hw hl hf hm hr
      simp only [runFrom] at hr
      obtain ⟨a, h1, h2⟩ := bindR hr
      obtain ⟨b, h3, h4⟩ := bindR h2
      cases h4
      refine ih a.1 b (step_wf' hw h1) ?_ (fun e he => hf e (by simp [he])) (fun e he => hm e (by simp [he])) h3
      rcases step_count hw (hf e (by simp)) h1 with h5 | ⟨n, h5, h6⟩
      · omega
      · have := hm e (by simp) n h5
        omega
  exact this h {} (s, o) wf_init (by simp) hf hm hr

/-- The limit is used: afterwards it is reached, or nobody is left who could be dialled now. -/
theorem C40_fill (h : List Ev) (s s' : State) (o o' : List Out) (hr : run h = .ok (s, o)) (hf : ∀ e ∈ h, Flagged e)
    (now max : Nat) (opens : Bool) (hc : s.connecting = true) (hrun : s.running = true)
    (he : step s (.next now max opens) = .ok (s', o')) :
    max ≤ s'.act.length ∨
      ∀ k ∈ s'.known, k.status = .disconnected → k.unwanted = false → k.last ≠ 0 ∧ now ≤ k.last + 30 := by
  obtain ⟨r, h1, hw⟩ := runFrom_wf wf_init hf
  have : r = (s, o) := by
    unfold run at hr
    rw [hr] at h1
    cases h1; rfl
  subst this
  rcases connectNext_fill hw hc hrun he with h2 | h2
  · exact .inl h2
  · right
    intro k hk hs hu
    have := h2 k hk
    simp only [ready, hs, hu, beq_self_eq_true, Bool.not_false, Bool.and_true, Bool.true_and, Bool.or_eq_false_iff,
      beq_eq_false_iff_ne, decide_eq_false_iff_not] at this
    exact ⟨this.1, by omega⟩

/-- Each connection refers to the known peer it is with. Partial: no IPv4 address that comes up has the port and the
bytes an IPv6 address begins with (`C40_right_violated`). -/
theorem C40_right_partial (h : List Ev) (hA : Apart (h.flatMap mentioned)) (s : State) (o : List Out)
    (hr : run h = .ok (s, o)) : ∀ c ∈ s.act, ∃ k, s.known[c.idx]? = some k ∧ Belongs k c :=
  (runFrom_right hA (fun e he a ha => List.mem_flatMap.mpr ⟨e, he, ha⟩) wf_init (right_init _) hr).conn

/-- A peer that counts as connecting or connected has a connection: none is forgotten in that state. -/
theorem C40_used (h : List Ev) (s : State) (o : List Out) (hr : run h = .ok (s, o)) (i : Nat) (k : Known)
    (hk : s.known[i]? = some k) (hs : k.status ≠ .disconnected) : ∃ c ∈ s.act, c.idx = i :=
  runFrom_used wf_init (by intro i k hk; simp at hk) hr i k hk hs

/-- A known peer has one connection at most, and then counts as connecting or connected. Partial: besides the addresses
of `C40_right_partial`, each connection gets a stream (`C40_single_violated`). -/
theorem C40_single_partial (h : List Ev) (hA : Apart (h.flatMap mentioned)) (ho : ∀ e ∈ h, Opens e) (s : State) (o : List Out)
    (hr : run h = .ok (s, o)) :
    s.act.Pairwise (fun c c' => c.idx ≠ c'.idx) ∧
      ∀ c ∈ s.act, ∃ k, s.known[c.idx]? = some k ∧ k.status ≠ .disconnected := by
  have := runFrom_single hA (fun e he a ha => List.mem_flatMap.mpr ⟨e, he, ha⟩) ho wf_init (right_init _)
    ⟨by simp, by simp, by simp⟩ hr
  exact ⟨this.apart, this.busy⟩

theorem dialled_ord (h : List Ev) (hA : Apart (h.flatMap mentioned)) (ho : Orderly [] h) (hc : Clock 0 h) (s : State)
    (o : List Out) (hr : run h = .ok (s, o)) : NeverAgain o ∧ Paced o := by
  obtain ⟨T, ht⟩ := runFrom_ord hA (by simp) (fun e he a ha => List.mem_flatMap.mpr ⟨e, he, ha⟩) ho hc wf_init
    (right_init _) ord_init hr
  exact ⟨by simpa using ht.never, by simpa using ht.paced⟩

/-- Nobody who was banned is dialled again. Partial: no peer comes up twice in a list (`C40_unwanted_twice_violated`)
and peers that connect to us were not heard of before (`C40_unwanted_violated`). -/
theorem C40_unwanted_partial (h : List Ev) (hA : Apart (h.flatMap mentioned)) (ho : Orderly [] h) (hc : Clock 0 h) (s : State)
    (o : List Out) (hr : run h = .ok (s, o)) : NeverAgain o := (dialled_ord h hA ho hc s o hr).1

/-- Nobody is dialled, unless somebody asks for it, within 30 seconds of having been dialled or having been lost.
Partial: as for `C40_unwanted_partial`. -/
theorem C73_paced_partial (h : List Ev) (hA : Apart (h.flatMap mentioned)) (ho : Orderly [] h) (hc : Clock 0 h) (s : State)
    (o : List Out) (hr : run h = .ok (s, o)) : Paced o := (dialled_ord h hA ho hc s o hr).2

/-- The addresses 32.1.13.184:6881 and [2001:db8::1]:6881. -/
def four : Addr := ⟨[32, 1, 13, 184] ++ List.replicate 12 0, 6881, false⟩
def six : Addr := ⟨[32, 1, 13, 184] ++ List.replicate 11 0 ++ [1], 6881, true⟩

/-- What the loop of `connectNext` shows. -/
theorem nextLoop_out {now : Nat} {opens : Bool} : ∀ {n c : Nat} {s : State} {r : State × List Out},
    nextLoop now opens n c s = .ok r → ∀ x ∈ r.2, ∃ a, x = .dial a now true
  | 0, c, s, r, h, x, hx => by simp only [nextLoop] at h; cases h; cases hx
  | n + 1, 0, s, r, h, x, hx => by simp only [nextLoop] at h; cases h; cases hx
  | n + 1, c + 1, s, r, h, x, hx => by
    simp only [nextLoop] at h
    split at h
    · cases h
    · split at h
      · obtain ⟨r', h1, h⟩ := bindR h
        cases h
        rcases List.mem_cons.1 hx with e | hx
        · exact ⟨_, e⟩
        · exact nextLoop_out h1 x hx
      · exact nextLoop_out h x hx

/-- Who shows what: connections are opened only while the torrent runs, and a peer is banned only when it is
disconnected as unwanted. -/
theorem C40_asked (s s' : State) (e : Ev) (o : List Out) (he : step s e = .ok (s', o)) :
    (∀ a now auto, .dial a now auto ∈ o → s.running = true) ∧ (∀ a, .ban a ∈ o → ∃ id, e = .disconnect id true) := by
  have conn : ∀ {a now opens}, connect s a now opens = .ok (s', o) →
      (∀ b t auto, .dial b t auto ∈ o → s.running = true) ∧ ∀ b, Out.ban b ∉ o := by
    intro a now opens h
    unfold connect at h
    split at h
    · cases h; simp
    next hc =>
      have hr : s.running = true := by
        simp only [Bool.or_eq_true, Bool.not_eq_true', not_or, Bool.not_eq_false] at hc; exact hc.1.2
      simp only at h
      split at h
      · cases h
      · split at h <;> cases h <;> simp [hr]
  have quietly : ∀ {r : Res State}, quiet r = .ok (s', o) → o = [] := by
    intro r h
    obtain ⟨_, _, h⟩ := bindR h
    cases h; rfl
  cases e with
  | start => cases he; simp
  | stop => rw [quietly he]; simp
  | startConnecting => cases he; simp
  | stopConnecting => cases he; simp
  | next now max opens =>
    simp only [step, connectNext] at he
    split at he
    · cases he; simp
    next hc =>
      have hr : s.running = true := by
        simp only [Bool.or_eq_true, Bool.not_eq_true', not_or, Bool.not_eq_false] at hc; exact hc.1.2
      refine ⟨fun _ _ _ _ => hr, fun a ha => ?_⟩
      obtain ⟨b, hb⟩ := nextLoop_out he _ ha
      cases hb
  | found first peers flags => rw [quietly he]; simp
  | connect a now opens => exact ⟨(conn he).1, fun b hb => absurd hb ((conn he).2 b)⟩
  | holepunch a now max opens =>
    simp only [step, holepunch] at he
    split at he
    · exact ⟨(conn he).1, fun b hb => absurd hb ((conn he).2 b)⟩
    · cases he; simp
  | incoming a => cases he; simp
  | disconnect id unwanted =>
    simp only [step, disconnect] at he
    split at he
    · cases he; simp
    · split at he
      next hu =>
        obtain ⟨_, _, he⟩ := bindR he
        cases he
        exact ⟨by simp, fun a _ => ⟨id, by rw [hu]⟩⟩
      · cases he; simp
  | handshake id => rw [quietly he]; simp
  | closed id now =>
    simp only [step, closed] at he
    split at he
    · cases he; simp
    · obtain ⟨_, _, he⟩ := bindR he
      cases he; simp

example : ∃ s' o, step { running := true } (.connect four 5 true) = .ok (s', o) ∧ .dial four 5 false ∈ o :=
  ⟨_, _, rfl, by decide⟩

/-- The connection to the IPv6 address, asked for by a peer, is taken for one to the IPv4 address. -/
theorem C40_right_violated :
    ∃ s o, run [.start, .found false [four] none, .holepunch six 100 50 true] = .ok (s, o) ∧
      (∃ c ∈ s.act, ∃ k, s.known[c.idx]? = some k ∧ ¬ Belongs k c) :=
  ⟨_, _, rfl, ⟨0, 0, six, true⟩, by decide, { addr := four, status := .connecting, last := 100, attempts := 1 }, rfl, by decide⟩

/-- Without uTP a holepunch message opens no stream, and the next one connects to the same peer once more. -/
theorem C40_single_violated :
    ∃ s o, run [.start, .holepunch four 100 50 false, .holepunch four 100 50 false] = .ok (s, o) ∧
      ¬ s.act.Pairwise (fun c c' => c.idx ≠ c'.idx) :=
  ⟨_, _, rfl, by decide⟩

/-- A peer that was banned connects to us from the same port, leaves, and is dialled again. -/
theorem C40_unwanted_violated :
    ∃ s o, run [.start, .startConnecting, .found false [four] none, .next 100 50 true, .handshake 0, .disconnect 0 true,
        .closed 0 110, .next 110 50 true, .incoming four, .closed 1 120, .next 200 50 true] = .ok (s, o) ∧ ¬ NeverAgain o :=
  ⟨_, _, rfl, fun h => h [.dial four 100 true, .ban four, .gone four 110, .gone four 120] four 200 true [] rfl four (by decide)
    (by decide)⟩

/-- A tracker names a peer twice. It is banned and dialled again. -/
theorem C40_unwanted_twice_violated :
    ∃ s o, run [.start, .startConnecting, .found false [four, four] none, .next 100 1 true, .disconnect 0 true, .closed 0 110,
        .next 110 1 true] = .ok (s, o) ∧ ¬ NeverAgain o :=
  ⟨_, _, rfl, fun h => h [.dial four 100 true, .ban four, .gone four 110] four 110 true [] rfl four (by decide) (by decide)⟩

/-- A tracker names a peer twice. It is dialled twice at the same time. -/
theorem C73_twice_violated :
    ∃ s o, run [.start, .startConnecting, .found false [four, four] none, .next 100 50 true] = .ok (s, o) ∧ ¬ Paced o :=
  ⟨_, _, rfl, fun h => absurd (h [.dial four 100 true] four 100 [] rfl four 100 (.inl ⟨true, by decide⟩) (by decide)) (by decide)⟩

/-- The hypotheses can be met, by a history that does something. -/
example :
    let h : List Ev := [.start, .startConnecting, .found false [⟨[1, 2, 3, 4] ++ List.replicate 12 0, 6881, false⟩, six] none,
      .next 100 1 true, .found true [⟨[1, 2, 3, 5] ++ List.replicate 12 0, 6881, false⟩] none, .next 100 2 true, .handshake 0,
      .disconnect 0 true, .closed 0 110, .next 110 2 true]
    Apart (h.flatMap mentioned) ∧ Orderly [] h ∧ Clock 0 h ∧ (∀ e ∈ h, Flagged e) ∧ (∀ e ∈ h, Opens e) ∧ (∀ e ∈ h, ¬ free e) ∧
      ∃ s o, run h = .ok (s, o) ∧ s.act.map Conn.idx = [1, 2] ∧ o.length = 5 := by
  refine ⟨?_, ?_, ?_, ?_, ?_, ?_, _, _, rfl, ?_, ?_⟩ <;>
    simp [Apart, Orderly, mentioned, Clock, time, Flagged, Opens, free, six, Same] <;> decide

end Verif
