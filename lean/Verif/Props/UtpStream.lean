import Verif.Proof.UtpDeliver
/-! C30, C31, C62: uTP streams. -/

namespace Verif
open Utp Spec

theorem utp_sent_start {q0 : Nat} {s : Stream} (h : Unsent q0 s) : SInv q0 [] [] s :=
  ⟨h.seq, by rw [h.sent]; exact .nil, .nil, by simp [Stream.idxs, h.sent], h.buffers, h.unacked, h.size.1, h.size.2, (fun _ h => by cases h), by rw [h.pos]; exact Nat.zero_le _⟩

theorem utp_run_recv {s0 : Nat} {ps : List (List UInt8)} (hne : ∀ p ∈ ps, p ≠ []) : ∀ (es : List Event) {arr : List Nat} {s s' : Stream} {d : Nat} {A B : List Stored} {ks : List Nat} {q0 : Nat}
    {cs : List (List UInt8)} {kk : List Nat}, RInv s0 ps (s.step ≠ .closed) arr s d A B ks → Open s → SInv q0 cs kk s → Faithful s0 ps es s → Stream.run es s = .ok s' →
    ∃ arr' d' A' B' ks', RInv s0 ps (s'.step ≠ .closed) arr' s' d' A' B' ks' ∧ (∀ k ∈ arr', k ∈ arr ∨ PartArrived s0 ps es k) ∧ (∀ k ∈ arr, k ∈ arr') ∧
      ∀ p, Event.packet p ∈ es → p.head.typ = 0 → p.data ≠ [] → ∃ k ∈ arr', Carries s0 ps p k
  | [], arr, s, s', d, A, B, ks, q0, cs, kk, h, ho, hs, hf, hr => by
    rw [Stream.run] at hr; cases hr
    exact ⟨arr, d, A, B, ks, h, fun _ h => Or.inl h, fun _ h => h, fun p hp => by cases hp⟩
  | e :: es, arr, s, s', d, A, B, ks, q0, cs, kk, h, ho, hs, hf, hr => by
    rw [Stream.run] at hr
    obtain ⟨s1, h1, hr⟩ := bind_ok_inv hr
    obtain ⟨l, b1, ⟨d1, A1, B1, k1, i1⟩, o1, _⟩ := next_recv hne h ho hs hf.1 h1
    obtain ⟨kk1, cs1, g1, _, _⟩ := next_sent hs ho h1
    obtain ⟨arr', d', A', B', ks', j1, j2, j3, j4⟩ := utp_run_recv hne es i1 o1 g1 (hf.2 s1 h1) hr
    refine ⟨arr', d', A', B', ks', j1, fun k hk => ?_, fun k hk => j3 k (List.mem_append_right _ hk), fun p hp ht hd => ?_⟩
    · rcases j2 k hk with hk | ⟨p, hp, hc⟩
      · rcases List.mem_append.mp hk with hk | hk
        · obtain ⟨p, hp, hc⟩ := b1.1 k hk
          exact Or.inr ⟨p, hp ▸ List.mem_cons_self, hc⟩
        · exact Or.inl hk
      · exact Or.inr ⟨p, List.mem_cons_of_mem _ hp, hc⟩
    · rcases List.mem_cons.mp hp with hp | hp
      · obtain ⟨k, hk, hc⟩ := b1.2 p hp.symm ht hd
        exact ⟨k, j3 k (List.mem_append_left _ hk), hc⟩
      · exact j4 p hp ht hd

theorem utp_recv_start {s0 : Nat} {ps : List (List UInt8)} {s : Stream} (h : Opened s0 s) : RInv s0 ps (s.step ≠ .closed) [] s 0 [] [] [] ∧ Open s := by
  refine ⟨⟨h.stored, Or.inl rfl, h.ack, Nat.zero_le _, by simp [delivered, h.taken, h.buffer], .nil, .nil, fun k hk => by omega, (fun k hk => by cases hk), fun _ _ => ⟨rfl, fun k hk => by cases hk⟩⟩, ?_⟩
  rcases h.step with h | h <;> (unfold Open; rw [h]; simp)

/-- C30: from an open stream on, whatever is lost, repeated or reordered and whatever else happens, the bytes
handed to the application and held ready for it are the first parts of the stream, in order, each once, and
all of them have arrived. (The first packet that opens a stream is the subject of `C30_first_violated`.) -/
theorem C30_prefix_partial {s0 q0 : Nat} {ps : List (List UInt8)} (hne : ∀ p ∈ ps, p ≠ []) {s s' : Stream} (ho : Opened s0 s) (hu : Unsent q0 s) {es : List Event}
    (hf : Faithful s0 ps es s) (hr : Stream.run es s = .ok s') :
    ∃ n, n ≤ ps.length ∧ s'.taken ++ s'.receiveBuffer = (ps.take n).flatten ∧ s'.taken <+: ps.flatten ∧ ∀ k, k < n → PartArrived s0 ps es k := by
  obtain ⟨h1, h2⟩ := utp_recv_start (ps := ps) ho
  obtain ⟨arr', d', A', B', ks', j1, j2, _, _⟩ := utp_run_recv hne es h1 h2 (utp_sent_start hu) hf hr
  refine ⟨d', j1.len, j1.out, ?_, fun k hk => ?_⟩
  · refine (List.prefix_append s'.taken s'.receiveBuffer).trans ?_
    have := j1.out
    unfold delivered at this
    rw [this]
    conv => rhs; rw [← List.take_append_drop d' ps, List.flatten_append]
    exact List.prefix_append _ _
  · rcases j2 k (j1.pre k hk) with h | h
    · cases h
    · exact h

/-- C62: while numbers do not pass 65535, what has arrived without a gap is delivered. -/
theorem C62_complete_partial {s0 q0 : Nat} {ps : List (List UInt8)} (hne : ∀ p ∈ ps, p ≠ []) {s s' : Stream} (ho : Opened s0 s) (hu : Unsent q0 s) {es : List Event}
    (hw : s0 + ps.length ≤ 65536) (hl : ps.length ≤ 32767) (hf : Faithful s0 ps es s) (hr : Stream.run es s = .ok s') (hc : s'.step ≠ .closed)
    {n : Nat} (hn : n ≤ ps.length) (ha : ∀ k, k < n → PartArrived s0 ps es k) : (ps.take n).flatten <+: s'.taken ++ s'.receiveBuffer := by
  obtain ⟨h1, h2⟩ := utp_recv_start (ps := ps) ho
  obtain ⟨arr', d', A', B', ks', j1, _, _, j4⟩ := utp_run_recv hne es h1 h2 (utp_sent_start hu) hf hr
  have hnd : n ≤ d' := by
    rcases Nat.lt_or_ge d' n with hlt | hge
    · exfalso
      obtain ⟨p, hp, c1, c2, c3⟩ := ha d' hlt
      obtain ⟨k, hk, _, e2, e3⟩ := j4 p hp c1 (hne _ (List.mem_of_getElem? c3))
      have hkl : k < ps.length := by
        rcases Nat.lt_or_ge k ps.length with hl | hl
        · exact hl
        · rw [List.getElem?_eq_none hl] at e3; cases e3
      have : k = d' := by omega
      subst this
      rcases (j1.full hc ⟨hw, hl⟩).2 k hk with h | h
      · omega
      · obtain ⟨x, _, hx⟩ := forall₂_mem' j1.holds h
        have := hx.lo
        omega
    · exact hge
  have := j1.out
  unfold delivered at this
  rw [this]
  have e : ps.take d' = ps.take n ++ (ps.take d').drop n :=
    (List.take_append_drop n (ps.take d')).symm.trans (by rw [List.take_take, Nat.min_eq_left hnd])
  rw [e, List.flatten_append]
  exact List.prefix_append _ _

theorem utp_run_sent {q0 : Nat} {sStart : Stream} : ∀ (es before : List Event) {s s' : Stream} {cs : List (List UInt8)} {ks : List Nat}, SInv q0 cs ks s → Open s → Stream.run before sStart = .ok s →
    (∀ k, k < cs.length → k ∈ ks ∨ ∃ es1 p es2 s1 c, before = es1 ++ .packet p :: es2 ∧ Stream.run es1 sStart = .ok s1 ∧ cs[k]? = some c ∧ Stores s1 ((q0 + k) % 65536) c ∧ Acknowledges p ((q0 + k) % 65536)) →
    (∀ e ∈ es, ¬PeerEnds e) → Stream.run es s = .ok s' →
    ∃ cs' ks', SInv q0 (cs ++ cs') ks' s' ∧ cs'.flatten ++ waiting s' = waiting s ++ writtenData es s ∧
      ∀ k, k < (cs ++ cs').length → k ∈ ks' ∨ ∃ es1 p es2 s1 c, before ++ es = es1 ++ .packet p :: es2 ∧ Stream.run es1 sStart = .ok s1 ∧ (cs ++ cs')[k]? = some c ∧ Stores s1 ((q0 + k) % 65536) c ∧
        Acknowledges p ((q0 + k) % 65536)
  | [], before, s, s', cs, ks, h, ho, hb, hg, hn, hr => by
    rw [Stream.run] at hr; cases hr
    refine ⟨[], ks, by simpa using h, by simp [writtenData], ?_⟩
    simpa using hg
  | e :: es, before, s, s', cs, ks, h, ho, hb, hg, hn, hr => by
    rw [Stream.run] at hr
    obtain ⟨s1, h1, hr⟩ := bind_ok_inv hr
    have hne := hn e List.mem_cons_self
    obtain ⟨k1, c1, g1, g2, g3⟩ := next_sent h ho h1
    obtain ⟨g3, g4⟩ := g3 hne
    have ho1 : Open s1 := utp_open ho h1
    have hb1 : Stream.run (before ++ [e]) sStart = .ok s1 := by rw [run_append, hb, Res.bind_ok, Stream.run, h1, Res.bind_ok, Stream.run]
    obtain ⟨c2, k2, i1, i2, i3⟩ := utp_run_sent es (before ++ [e]) g1 ho1 hb1 (by
      intro k hk
      by_cases hkc : k < cs.length
      · rcases hg k hkc with hk | ⟨es1, p, es2, s2, c, y1, y2, y3, y4, y5⟩
        · rcases g3 k hk with hk' | ⟨p, hp, ha⟩
          · exact Or.inl (List.mem_append_left _ hk')
          · right
            obtain ⟨x, hx, hK⟩ := forall₂_mem' h.kept hk
            obtain ⟨hd, c, f1, f2, f3, f4, f5, f6⟩ := hK.buf
            exact ⟨before, p, [], s, c, by rw [hp], hb, by rw [List.getElem?_append_left hkc]; exact f5, ⟨x, hx, hK.seq, hd, f1, f2, f3, f4.trans hK.seq, f6⟩, ha⟩
        · exact Or.inr ⟨es1, p, es2 ++ [e], s2, c, by rw [y1]; simp, y2, by rw [List.getElem?_append_left hkc]; exact y3, y4, y5⟩
      · refine Or.inl (List.mem_append_right _ ?_)
        rw [List.mem_range']
        simp only [List.length_append] at hk
        exact ⟨k - cs.length, by omega, by omega⟩) (fun x hx => hn x (List.mem_cons_of_mem _ hx)) hr
    refine ⟨c1 ++ c2, k2, by rw [← List.append_assoc]; exact i1, ?_, ?_⟩
    · rw [List.flatten_append, List.append_assoc, i2, ← List.append_assoc]
      have g4' : c1.flatten ++ waiting s1 = _ := g4
      rw [g4']
      simp only [writtenData, h1, List.append_assoc]
      rfl
    · rw [← List.append_assoc]
      intro k hk
      rcases i3 k hk with h | ⟨es1, p, es2, s2, c, y1, y2, y3, y4, y5⟩
      · exact Or.inl h
      · exact Or.inr ⟨es1, p, es2, s2, c, by rw [← y1]; simp, y2, y3, y4, y5⟩

theorem utp_kept_size {q0 : Nat} {cs : List (List UInt8)} {ks : List Nat} {s : Stream} (h : SInv q0 cs ks s) : s.unacked = keptSize s := by
  rw [h.inflight, keptSize]
  congr 1
  have : ∀ (ks : List Nat) (l : List Sent), List.Forall₂ (Kept q0 s.idSend s.buffers cs) ks l → (ks.map fun k => 20 + (cs.getD k []).length) = l.map fun e => (s.buffers.getD e.idx []).length := by
    intro ks l hf
    induction hf with
    | nil => rfl
    | cons hx _ ih =>
      obtain ⟨hd, c, f1, f2, f3, f4, f5, f6⟩ := hx.buf
      rw [List.map_cons, List.map_cons, ih, List.getD_eq_getElem?_getD, List.getD_eq_getElem?_getD, f5, f6]
      simp [bytes_length]
  exact this _ _ h.kept

/-- C31: in every history of an open stream in which the peer does not end or reset it, the parts sent and
the data waiting are the data written; the parts are numbered without gaps; each is kept with its content,
or some packet acknowledged it when it was kept; nothing else is kept; and the bytes in flight are the size of
the packets kept. -/
theorem C31_kept_partial {q0 : Nat} {s s' : Stream} (hu : Unsent q0 s) {es : List Event} (hn : ∀ e ∈ es, ¬PeerEnds e) (hr : Stream.run es s = .ok s') :
    ∃ cs : List (List UInt8), cs.flatten ++ waiting s' = writtenData es s ∧ s'.sequence = (q0 + cs.length) % 65536 ∧ (∀ c ∈ cs, c ≠ [] ∧ c.length ≤ 1452) ∧
      (∀ k c, cs[k]? = some c → Stores s' ((q0 + k) % 65536) c ∨
        ∃ es1 p es2 s1, es = es1 ++ .packet p :: es2 ∧ Stream.run es1 s = .ok s1 ∧ Stores s1 ((q0 + k) % 65536) c ∧ Acknowledges p ((q0 + k) % 65536)) ∧
      (∀ e ∈ s'.sentData, ∃ k c, cs[k]? = some c ∧ e.seq = (q0 + k) % 65536 ∧ Stores s' e.seq c) ∧
      s'.unacked = keptSize s' := by
  have ho : Open s := by rcases hu.step with h | h <;> (unfold Open; rw [h]; simp)
  obtain ⟨cs, ks, h1, h2, h3⟩ := utp_run_sent (sStart := s) es [] (utp_sent_start hu) ho rfl (fun k hk => by simp at hk) hn hr
  simp only [List.nil_append] at h1 h3
  have hw : waiting s = [] := by simp [waiting, hu.prepared]
  rw [hw, List.nil_append] at h2
  have st : ∀ x ∈ s'.sentData, ∀ k, Kept q0 s'.idSend s'.buffers cs k x → ∀ c, cs[k]? = some c → Stores s' ((q0 + k) % 65536) c := by
    intro x hx k hK c hc
    obtain ⟨hd, c', f1, f2, f3, f4, f5, f6⟩ := hK.buf
    rw [hc] at f5
    cases f5
    exact ⟨x, hx, hK.seq, hd, f1, f2, f3, f4.trans hK.seq, f6⟩
  refine ⟨cs, h2, h1.seq, h1.parts, fun k c hc => ?_, fun x hx => ?_, utp_kept_size h1⟩
  · have hk : k < cs.length := by
      rcases Nat.lt_or_ge k cs.length with hl | hl
      · exact hl
      · rw [List.getElem?_eq_none hl] at hc; cases hc
    rcases h3 k hk with hm | ⟨es1, p, es2, s1, c', y1, y2, y3, y4, y5⟩
    · obtain ⟨x, hx, hK⟩ := forall₂_mem' h1.kept hm
      exact Or.inl (st x hx k hK c hc)
    · rw [hc] at y3
      cases y3
      exact Or.inr ⟨es1, p, es2, s1, y1, y2, y4, y5⟩
  · obtain ⟨k, hk, hK⟩ := forall₂_mem h1.kept hx
    have hg := List.getElem?_eq_getElem hK.len
    exact ⟨k, _, hg, hK.seq, by rw [hK.seq]; exact st x hx k hK _ hg⟩

/-- C31: the bytes in flight are the size of the packets kept in every history, the end of the stream
included. -/
theorem C31_in_flight {q0 : Nat} {s s' : Stream} (hu : Unsent q0 s) {es : List Event} (hr : Stream.run es s = .ok s') : s'.unacked = keptSize s' := by
  have ho : Open s := by rcases hu.step with h | h <;> (unfold Open; rw [h]; simp)
  obtain ⟨cs, ks, h, _⟩ := run_sent es (utp_sent_start hu) ho hr
  exact utp_kept_size h

/-- C31: when the timer fires on a stream that waits for acks and still hears from its peer, the first packet kept goes out again, with
the same number and content. -/
theorem C31_timeout {q0 : Nat} {s0 s s' : Stream} (hu : Unsent q0 s0) {es : List Event} (hr0 : Stream.run es s0 = .ok s) {e : Sent} {l : List Sent} (he : s.sentData = e :: l)
    (ht : s.nextTimeout < s.clock) (hl : s.clock ≤ s.lastReceive + 30000000) (hs : s.step.num < 4) (hr : s.next .refresh = .ok s') :
    ∃ b w rest, s.buffers[e.idx]? = some b ∧ s'.wire = s.wire ++ w :: rest ∧ w.length = b.length ∧ w.take 4 = b.take 4 ∧ (w.drop 16).take 2 = (b.drop 16).take 2 ∧ w.drop 20 = b.drop 20 := by
  have ho : Open s0 := by rcases hu.step with h | h <;> (unfold Open; rw [h]; simp)
  obtain ⟨cs, ks, h, ho'⟩ := run_sent es (utp_sent_start hu) ho hr0
  have hun : s.unacked > 0 := by
    rw [utp_kept_size h, keptSize, he, List.map_cons, List.sum_cons]
    obtain ⟨k, _, hK⟩ := forall₂_mem h.kept (by rw [he]; exact List.mem_cons_self : e ∈ s.sentData)
    obtain ⟨hd, c, f1, f2, f3, f4, f5, f6⟩ := hK.buf
    rw [List.getD_eq_getElem?_getD, f6]
    simp [bytes_length]; omega
  simp only [Stream.next, Stream.refresh] at hr
  rw [if_pos ⟨ht, fun hc => by rw [hc] at hs; simp [Step.num] at hs⟩, if_neg (by omega), if_pos hun] at hr
  rw [he] at hr
  simp only at hr
  obtain ⟨s1, h1, hr⟩ := bind_ok_inv hr
  obtain ⟨t, _, hr⟩ := bind_ok_inv hr
  cases hr
  obtain ⟨b, rest, g1, g2⟩ := resend_first (p := { e with needResend := true }) (ps := l.map fun q => { q with needResend := true }) (by simp) rfl h1
  obtain ⟨k, _, hK⟩ := forall₂_mem h.kept (by rw [he]; exact List.mem_cons_self : e ∈ s.sentData)
  obtain ⟨hd, c, f1, f2, f3, f4, f5, f6⟩ := hK.buf
  refine ⟨b, _, rest, g1, g2, ?_⟩
  have hb : b = hd.bytes ++ c := by
    simp only at g1; rw [f6] at g1; cases g1; rfl
  subst hb
  rw [patch_bytes]
  simp [Header.bytes, be16, be32]

/-- For a stream of at most 32768 parts, `Faithful` says no more than that data packets are parts of it. -/
theorem utp_faithful {s0 : Nat} {ps : List (List UInt8)} (hl : ps.length ≤ 32768) : ∀ (es : List Event) (s : Stream),
    (∀ p, Event.packet p ∈ es → p.head.typ = 0 → p.data ≠ [] → ∃ k, Carries s0 ps p k) → Faithful s0 ps es s
  | [], _, _ => trivial
  | e :: es, s, h => by
    refine ⟨fun p he ht hd => ?_, fun s' _ => utp_faithful hl es s' fun p hp => h p (List.mem_cons_of_mem _ hp)⟩
    obtain ⟨k, hk⟩ := h p (he ▸ List.mem_cons_self) ht hd
    refine ⟨k, hk, fun d _ hd => ?_⟩
    have : k < ps.length := by
      rcases Nat.lt_or_ge k ps.length with hl | hl
      · exact hl
      · rw [Carries, List.getElem?_eq_none hl] at hk; cases hk.2.2
    omega

private def part (seq : Nat) (data : List UInt8) : Event := .packet ⟨{ typ := 0, seq := seq, ack := 99, wnd := 1048576 }, [], data⟩

private def openStream (ack : Nat) : Stream := { step := .connected, sequence := 100, ack := ack, lastAck := 99 }

-- parts in the order 1, 0, 0, 2
example : ∃ s', Stream.run [part 8 [2, 2], part 7 [1], part 7 [1], .finish (some 2), part 9 [3]] (openStream 6) = .ok s' ∧ s'.taken = [1, 2] ∧ s'.receiveBuffer = [2, 3] :=
  Res.exists_ok (by decide +kernel)

example : Faithful 7 [[1], [2, 2], [3]] [part 8 [2, 2], part 7 [1], part 7 [1], .finish (some 2), part 9 [3]] (openStream 6) ∧ Opened 7 (openStream 6) ∧ Unsent 100 (openStream 6) := by
  refine ⟨utp_faithful (by decide) _ _ fun p hp _ _ => ?_, ⟨Or.inr rfl, rfl, rfl, rfl, rfl⟩, ⟨Or.inr rfl, rfl, rfl, rfl, rfl, rfl, by decide, by decide⟩⟩
  simp only [part, List.mem_cons, Event.packet.injEq, List.not_mem_nil, or_false, reduceCtorEq, false_or] at hp
  rcases hp with rfl | rfl | rfl | rfl
  · exact ⟨1, rfl, rfl, rfl⟩
  · exact ⟨0, rfl, rfl, rfl⟩
  · exact ⟨0, rfl, rfl, rfl⟩
  · exact ⟨2, rfl, rfl, rfl⟩

/-- C30 is violated while a stream opens: if a later data packet comes before the answer to the syn, the stream
starts there, and the bytes delivered are no prefix of those sent. -/
theorem C30_first_violated : ∃ (s s' : Stream) (es : List Event) (ps : List (List UInt8)) (s0 : Nat), (Stream.init 5 50 0).connect = .ok s ∧
    (∀ e ∈ es, ∃ p k, e = .packet p ∧ Carries s0 ps p k) ∧ (∀ k, k < ps.length → PartArrived s0 ps es k) ∧ Stream.run es s = .ok s' ∧ ¬(s'.taken ++ s'.receiveBuffer <+: ps.flatten) := by
  obtain ⟨s', h0, h2⟩ := Res.exists_ok (r := (Stream.init 5 50 0).connect >>= Stream.run [part 101 [2], part 100 [1]]) (p := fun s' => s'.taken ++ s'.receiveBuffer = [2]) (by decide +kernel)
  obtain ⟨s, h1, h3⟩ := bind_ok_inv h0
  refine ⟨s, s', [part 101 [2], part 100 [1]], [[1], [2]], 100, h1, ?_, ?_, h3, by rw [h2]; decide⟩
  · intro e he
    simp only [List.mem_cons, List.not_mem_nil, or_false] at he
    rcases he with rfl | rfl
    · exact ⟨_, 1, rfl, rfl, rfl, rfl⟩
    · exact ⟨_, 0, rfl, rfl, rfl, rfl⟩
  · intro k hk
    match k, hk with
    | 0, _ => exact ⟨_, List.mem_cons_of_mem _ List.mem_cons_self, rfl, rfl, rfl⟩
    | 1, _ => exact ⟨_, List.mem_cons_self, rfl, rfl, rfl⟩

/-- C62 is violated where numbers pass 65535: a packet with number 0 that comes early is never delivered from
the store, and everything stored behind it waits with it. -/
theorem C62_wrap_violated : ∃ (s s' : Stream) (es : List Event) (ps : List (List UInt8)) (s0 : Nat), Opened s0 s ∧ (∀ e ∈ es, ∃ p k, e = .packet p ∧ Carries s0 ps p k) ∧
    (∀ k, k < ps.length → PartArrived s0 ps es k) ∧ Stream.run es s = .ok s' ∧ s'.step = .connected ∧ ps.flatten = [1, 2, 3] ∧ s'.taken ++ s'.receiveBuffer = [1] := by
  obtain ⟨s', h1, h2, h3⟩ := Res.exists_ok (r := Stream.run [part 1 [3], part 0 [2], part 65535 [1]] (openStream 65534)) (p := fun s' => s'.step = .connected ∧ s'.taken ++ s'.receiveBuffer = [1])
    (by decide +kernel)
  refine ⟨openStream 65534, s', [part 1 [3], part 0 [2], part 65535 [1]], [[1], [2], [3]], 65535, ⟨Or.inr rfl, rfl, rfl, rfl, rfl⟩, ?_, ?_, h1, h2, rfl, h3⟩
  · intro e he
    simp only [List.mem_cons, List.not_mem_nil, or_false] at he
    rcases he with rfl | rfl | rfl
    · exact ⟨_, 2, rfl, rfl, rfl, rfl⟩
    · exact ⟨_, 1, rfl, rfl, rfl, rfl⟩
    · exact ⟨_, 0, rfl, rfl, rfl, rfl⟩
  · intro k hk
    match k, hk with
    | 0, _ => exact ⟨_, List.mem_cons_of_mem _ (List.mem_cons_of_mem _ List.mem_cons_self), rfl, rfl, rfl⟩
    | 1, _ => exact ⟨_, List.mem_cons_of_mem _ List.mem_cons_self, rfl, rfl, rfl⟩
    | 2, _ => exact ⟨_, List.mem_cons_self, rfl, rfl, rfl⟩

private def dupStream (m n : Nat) : Stream :=
  { openStream 9 with receivedData := [⟨0, 11⟩], buffers := List.replicate m [1], received := true, bytesSize := n, nextTimeout := 500000 }

private theorem replicate_used (m : Nat) : (List.replicate m [(1 : UInt8)]).findIdx? (· == []) = none := by
  rw [List.findIdx?_eq_none_iff]
  intro x hx
  rw [List.eq_of_mem_replicate hx]; rfl

private theorem dup_next (m n : Nat) : (dupStream m n).next (part 11 [1]) = if m ≥ 65536 then .diverge else .ok (dupStream (m + 1) (n + 1)) := by
  have hc : createBuffer (List.replicate m [(1 : UInt8)]) [1] = if m ≥ 65536 then .diverge else .ok (List.replicate (m + 1) [1], m) := by
    unfold createBuffer
    rw [replicate_used]
    simp only [List.length_replicate]
    rw [List.replicate_succ']
  have hu : Stream.updateState { dupStream m n with bytesSize := n + 1 } ⟨{ typ := 0, seq := 11, ack := 99, wnd := 1048576 }, [], [1]⟩ = .ok (some { dupStream m n with bytesSize := n + 1 }) := by
    simp [Stream.updateState, dupStream, openStream, idLower, Stream.ackSent, ackLoop, Stream.now32, Stream.setConnected, Step.num, Stream.handleExts, Stream.flushSend, Stream.flushResend, Stream.flushLoop, Stream.schedule, Stream.packetTimeout]
  have hs : Stream.store { dupStream m n with bytesSize := n + 1 } 11 [1] = if m ≥ 65536 then .diverge else .ok (dupStream (m + 1) (n + 1)) := by
    unfold Stream.store
    show (createBuffer (List.replicate m [(1 : UInt8)]) [1] >>= _) = _
    rw [hc]
    split <;> rfl
  show Stream.handleData { dupStream m n with bytesSize := n + 1 } ⟨{ typ := 0, seq := 11, ack := 99, wnd := 1048576 }, [], [1]⟩ = _
  unfold Stream.handleData
  rw [if_neg (by simp), hu, Res.bind_ok]
  simp only
  rw [if_neg (by simp [dupStream, openStream]), if_neg (by simp [dupStream, openStream, inc16]), if_pos (by simp [dupStream, openStream, idHigher]), hs]
  split <;> rfl

private theorem dup_run : ∀ (j m n : Nat), m + j = 65536 → Stream.run (List.replicate (j + 1) (part 11 [1])) (dupStream m n) = .diverge
  | 0, m, n, h => by
    rw [List.replicate_succ, Stream.run, dup_next, if_pos (by omega)]; rfl
  | j + 1, m, n, h => by
    rw [List.replicate_succ, Stream.run, dup_next, if_neg (by omega), Res.bind_ok]
    exact dup_run j (m + 1) (n + 1) (by omega)

/-- C62 is violated by repeated packets: each copy of an early packet takes a buffer for good, and with 65536 of
them in use the search for a free one never ends. -/
theorem C62_duplicates_violated : ∃ (s : Stream) (p : Packet) (ps : List (List UInt8)), Opened 10 s ∧ Carries 10 ps p 1 ∧ Stream.run (List.replicate 65537 (.packet p)) s = .diverge := by
  refine ⟨openStream 9, ⟨{ typ := 0, seq := 11, ack := 99, wnd := 1048576 }, [], [1]⟩, [[7], [1]], ⟨Or.inr rfl, rfl, rfl, rfl, rfl⟩, ⟨rfl, rfl, rfl⟩, ?_⟩
  have h1 : (openStream 9).next (part 11 [1]) = .ok (dupStream 1 1) := by
    have hu : Stream.updateState { openStream 9 with bytesSize := 1 } ⟨{ typ := 0, seq := 11, ack := 99, wnd := 1048576 }, [], [1]⟩ = .ok (some { openStream 9 with bytesSize := 1, nextTimeout := 500000 }) := by
      simp [Stream.updateState, dupStream, openStream, idLower, Stream.ackSent, ackLoop, Stream.now32, Stream.setConnected, Step.num, Stream.handleExts, Stream.flushSend, Stream.flushResend, Stream.flushLoop, Stream.schedule, Stream.packetTimeout]
    show Stream.handleData { openStream 9 with bytesSize := 1 } ⟨{ typ := 0, seq := 11, ack := 99, wnd := 1048576 }, [], [1]⟩ = _
    unfold Stream.handleData
    rw [if_neg (by simp), hu, Res.bind_ok]
    simp [openStream, inc16, idHigher, Stream.store, createBuffer, insertStored, Stream.dataEnd, dupStream]
  have h2 : (65537 : Nat) = 65535 + 1 + 1 := by omega
  rw [h2]
  change Stream.run (List.replicate (65535 + 1 + 1) (part 11 [1])) (openStream 9) = _
  rw [List.replicate_succ, Stream.run, h1, Res.bind_ok]
  exact dup_run 65535 1 1 (by omega)

/-- C31 is violated when the peer ends its side: everything kept and waiting is thrown away although nothing was
acknowledged, and the stream is still open. -/
theorem C31_fin_violated : ∃ (s s' : Stream) (es : List Event), Unsent 100 s ∧ Stream.run es s = .ok s' ∧ s'.step = .closing ∧ writtenData es s = [1, 2, 3] ∧
    (∀ p, .packet p ∈ es → ¬Acknowledges p 100) ∧ s'.sentData = [] ∧ waiting s' = [] := by
  obtain ⟨s', h1, h2⟩ := Res.exists_ok (r := Stream.run [.write [1, 2, 3] false, .packet ⟨{ typ := 1, seq := 20, ack := 99 }, [], []⟩] (openStream 9))
    (p := fun s' => s'.step = .closing ∧ writtenData [.write [1, 2, 3] false, .packet ⟨{ typ := 1, seq := 20, ack := 99 }, [], []⟩] (openStream 9) = [1, 2, 3] ∧ s'.sentData = [] ∧ waiting s' = [])
    (by decide +kernel)
  refine ⟨openStream 9, s', _, ⟨Or.inr rfl, rfl, rfl, rfl, rfl, rfl, by decide, by decide⟩, h1, h2.1, h2.2.1, ?_, h2.2.2.1, h2.2.2.2⟩
  intro p hp
  simp only [List.mem_cons, reduceCtorEq, Event.packet.injEq, List.not_mem_nil, or_false, false_or] at hp
  subst hp
  rintro ⟨h | h, _⟩ <;> cases h

-- three parts, the second acknowledged by a selective ack
example : ∃ s', Stream.run [.write (List.replicate 2000 7) false, .packet ⟨{ typ := 2, seq := 10, ack := 99, ext := 1, wnd := 1048576 }, [(1, [1])], []⟩] (openStream 9) = .ok s' ∧
    s'.sentData.map (·.seq) = [100, 102] ∧ s'.unacked = 1034 + 430 := Res.exists_ok (by decide +kernel)

example : Acknowledges ⟨{ typ := 2, seq := 10, ack := 99, ext := 1 }, [(1, [1])], []⟩ 101 ∧ ¬Acknowledges ⟨{ typ := 2, seq := 10, ack := 99, ext := 1 }, [], []⟩ 101 := by
  refine ⟨⟨Or.inr rfl, Or.inr ⟨(1, [1]), by simp, rfl, 0, 0, 1, rfl, by decide, by decide, rfl⟩⟩, ?_⟩
  rintro ⟨_, h | ⟨e, he, _⟩⟩
  · simp at h
  · cases he

end Verif
