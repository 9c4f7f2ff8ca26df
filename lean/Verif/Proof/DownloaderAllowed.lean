import Verif.Proof.DownloaderVerify
/-! With whom the downloader speaks. -/

namespace Verif.Downloader
open Verif Layout Spec.Download

/-- No connection becomes established or lets us ask. -/
def Keep (s s' : St) : Prop :=
  ∀ p peer', s'.peers.get p = some peer' → ∃ peer, s.peers.get p = some peer ∧
    (peer'.choking = false → peer.choking = false) ∧ (peer'.action = .established → peer.action = .established)

theorem Keep.of_eq {s s' : St} (h : s'.peers = s.peers) : Keep s s' := by
  intro p peer hp
  rw [h] at hp
  exact ⟨peer, hp, id, id⟩

theorem Keep.trans {a b c : St} (h : Keep a b) (h' : Keep b c) : Keep a c := by
  intro p peer hp
  obtain ⟨q, hq, h1, h2⟩ := h' p peer hp
  obtain ⟨r, hr, h3, h4⟩ := h p q hq
  exact ⟨r, hr, fun x => h3 (h1 x), fun x => h4 (h2 x)⟩

/-- Asked is who lets us; announced is to who is there. -/
def Talk (s : St) (as : List Act) : Prop :=
  (∀ p b, .request p b ∈ as → ∃ peer, s.peers.get p = some peer ∧ peer.action = .established ∧ peer.choking = false) ∧
  (∀ p i, .have p i ∈ as → ∃ peer, s.peers.get p = some peer ∧ peer.action = .established)

/-- Who was left is no longer there. -/
def Left (s' : St) (as : List Act) : Prop := ∀ p, leaves as p → ∀ peer, s'.peers.get p = some peer → peer.action ≠ .established

structure Move (s s' : St) (as : List Act) : Prop where
  keep : Keep s s'
  talk : Talk s as
  left : Left s' as

theorem Move.nil {s s' : St} (h : Keep s s') : Move s s' [] :=
  ⟨h, ⟨by simp, by simp⟩, by simp [Left, leaves]⟩

theorem Move.append {a b c : St} {as bs : List Act} (h : Move a b as) (h' : Move b c bs) : Move a c (as ++ bs) := by
  refine ⟨h.keep.trans h'.keep, ⟨?_, ?_⟩, ?_⟩
  · intro p x hm
    rcases List.mem_append.1 hm with hm | hm
    · exact h.talk.1 p x hm
    · obtain ⟨q, hq, h1, h2⟩ := h'.talk.1 p x hm
      obtain ⟨r, hr, h3, h4⟩ := h.keep p q hq
      exact ⟨r, hr, h4 h1, h3 h2⟩
  · intro p x hm
    rcases List.mem_append.1 hm with hm | hm
    · exact h.talk.2 p x hm
    · obtain ⟨q, hq, h1⟩ := h'.talk.2 p x hm
      obtain ⟨r, hr, h3, h4⟩ := h.keep p q hq
      exact ⟨r, hr, h4 h1⟩
  · intro p hl peer hp he
    have : leaves as p ∨ leaves bs p := by
      unfold leaves at hl ⊢
      simp only [List.mem_append] at hl
      tauto
    rcases this with hl | hl
    · obtain ⟨q, hq, h1, h2⟩ := h'.keep p peer hp
      exact h.left p hl q hq (h2 he)
    · exact h'.left p hl peer hp he

theorem Move.from {s t s' : St} {as : List Act} (h : Move t s' as) (ht : t.peers = s.peers) : Move s s' as := by
  have := (Move.nil (Keep.of_eq ht)).append h
  simpa using this

theorem evaluate_move {s s' : St} {p : Nat} {as : List Act} (hI : Inv s) (h : evaluate s p = .ok (s', as)) : Move s s' as := by
  cases hi : s.infos.get p with
  | none =>
    simp only [evaluate, hi, Res.ok.injEq, Prod.mk.injEq] at h
    rw [← h.1, ← h.2]; exact Move.nil (Keep.of_eq rfl)
  | some info =>
    obtain ⟨hc, ht⟩ := hI.cur p info hi
    obtain ⟨e1, e2, e3, e4, e5, e6, e7, e8, e9, e10, e11, peer, info', hp, -, ⟨peer', q1, q2, q3, q4⟩, -, -, -, -, -, -, xs, o, hs, f, -, -, hx⟩ :=
      evaluate_spec hI.base hi hc ht h
    refine ⟨?_, ⟨?_, ?_⟩, ?_⟩
    · intro x y hy
      rw [q1] at hy
      by_cases e : x = p
      · rw [if_pos e, Option.some.injEq] at hy
        subst hy
        rw [e]
        exact ⟨peer, hp, by rw [q4]; exact id, by rw [q3]; exact id⟩
      · rw [if_neg e] at hy
        exact ⟨y, hy, id, id⟩
    · intro x b hm
      rcases f with f | ⟨-, f⟩
      · rw [f] at hm
        unfold asks at hm
        split at hm
        · next ha =>
          obtain ⟨z, hz, e⟩ := List.mem_map.1 hm
          simp only [Act.request.injEq] at e
          rw [← e.1]
          refine ⟨peer, hp, ha, hx ?_⟩
          intro hxs
          rw [hs.out, hxs] at hz
          simp at hz
        · simp at hm
      · rw [f] at hm; simp at hm
    · intro x i hm
      rcases f with f | ⟨-, f⟩
      · rw [f] at hm; unfold asks at hm; split at hm <;> simp at hm
      · rw [f] at hm; simp at hm
    · intro x hl
      exfalso
      rcases f with f | ⟨-, f⟩
      · rw [f] at hl; unfold leaves asks at hl; split at hl <;> simp at hl
      · rw [f] at hl; simp [leaves] at hl

theorem evaluateAll_move (ps : List Nat) : ∀ {s s' : St} {as : List Act}, Inv s → evaluateAll ps s = .ok (s', as) →
    Move s s' as := by
  induction ps with
  | nil =>
    intro s s' as _ h
    simp only [evaluateAll, Res.ok.injEq, Prod.mk.injEq] at h
    rw [← h.1, ← h.2]; exact Move.nil (Keep.of_eq rfl)
  | cons p ps ih =>
    intro s s' as hI h
    unfold evaluateAll at h
    obtain ⟨t, ht, h⟩ := bindOk h
    obtain ⟨u, hu, h⟩ := bindOk h
    simp only [Res.pure_eq, Res.ok.injEq, Prod.mk.injEq] at h
    have h1 := evaluate_move hI (s' := t.1) (as := t.2) ht
    have hI1 := (evaluate_trans hI (s' := t.1) (as := t.2) ht).1.inv
    have h2 := ih hI1 (s' := u.1) (as := u.2) hu
    rw [← h.1, ← h.2]; exact h1.append h2

theorem takeBlock_move {s s' : St} {p group : Nat} {b : BlockInfo} {as : List Act}
    (h : takeBlock s p group b = .ok (s', as)) : Move s s' as := by
  unfold takeBlock at h
  cases hq : s.requests.get b.index with
  | none =>
    simp only [hq, Res.ok.injEq, Prod.mk.injEq] at h
    rw [← h.1, ← h.2]; exact Move.nil (Keep.of_eq rfl)
  | some q =>
    simp only [hq] at h
    split at h
    · split at h
      · obtain ⟨m, -, h⟩ := bindOk h
        obtain ⟨prog, -, h⟩ := bindOk h
        simp only [Res.pure_eq, Res.ok.injEq, Prod.mk.injEq] at h
        rw [← h.1, ← h.2]
        exact ⟨Keep.of_eq rfl, ⟨by simp, by simp⟩, by simp [Left, leaves]⟩
      · simp only [Res.ok.injEq, Prod.mk.injEq] at h
        rw [← h.1, ← h.2]
        exact ⟨Keep.of_eq rfl, ⟨by simp, by simp⟩, by simp [Left, leaves]⟩
    · simp only [Res.ok.injEq, Prod.mk.injEq] at h
      rw [← h.1, ← h.2]; exact Move.nil (Keep.of_eq rfl)

theorem messageReceived_move {t s' : St} {p : Nat} {peer : Peer} {m : Msg} {as : List Act} (hI1 : Inv t) (hp : t.peers.get p = some peer)
    (h : messageReceived t p peer m = .ok (s', as)) : Move t s' as := by
  unfold messageReceived at h
  obtain ⟨-, -, h⟩ := bindOk h
  have hpure : (pure (t, []) : Res (St × List Act)) = .ok (s', as) → Move t s' as := by
    intro h
    simp only [Res.pure_eq, Res.ok.injEq, Prod.mk.injEq] at h
    rw [← h.1, ← h.2]; exact Move.nil (Keep.of_eq rfl)
  split at h
  · split at h
    · simp only [Res.pure_eq, Res.ok.injEq, Prod.mk.injEq] at h
      rw [← h.1, ← h.2]
      refine ⟨?_, ⟨by simp, by simp⟩, ?_⟩
      · intro x y hy
        rw [Map.get_put] at hy
        by_cases e : x = p
        · rw [if_pos e, Option.some.injEq] at hy
          subst hy
          rw [e]
          exact ⟨peer, hp, id, by simp⟩
        · rw [if_neg e] at hy
          exact ⟨y, hy, id, id⟩
      · intro x hl y hy
        have hx : x = p := by simpa [leaves] using hl
        rw [Map.get_put, if_pos hx, Option.some.injEq] at hy
        subst hy
        simp
    · exact hpure h
  · have htouch : evaluate { t with infos := touch t.infos p } p = .ok (s', as) → Move t s' as := by
      intro he
      have hI2 : Inv { t with infos := touch t.infos p } := (touch_quiet t p).inv hI1
      exact (evaluate_move hI2 he).from rfl
    cases m with
    | choke => exact hpure h
    | other => exact hpure h
    | unchoke =>
      simp only [unchokePeer] at h
      cases hi : t.infos.get p with
      | none => simp only [hi] at h; exact hpure h
      | some info =>
        simp only [hi] at h
        exact (evaluate_move (unchoke_inv hI1 hi) h).from rfl
    | «have» idx =>
      simp only at h
      obtain ⟨w, -, h⟩ := bindOk h
      split at h
      · exact htouch h
      · exact hpure h
    | bitfield d =>
      simp only at h
      obtain ⟨w, -, h⟩ := bindOk h
      split at h
      · exact htouch h
      · exact hpure h
    | piece b delta =>
      simp only [pieceBlockReceived] at h
      cases hi : t.infos.get p with
      | none => simp only [hi] at h; exact hpure h
      | some info =>
        simp only [hi] at h
        obtain ⟨⟨info', asked⟩, ha, h⟩ := bindOk h
        have hI2 := answer_inv hI1 hi ha
        simp only at h
        split at h
        · obtain ⟨u, hu, h⟩ := bindOk h
          obtain ⟨w, hw, h⟩ := bindOk h
          simp only [Res.pure_eq, Res.ok.injEq, Prod.mk.injEq] at h
          have h1 := takeBlock_move (s' := u.1) (as := u.2) hu
          have hI3 := (takeBlock_trans hI2 (s' := u.1) (as := u.2) hu).inv
          have h2 := evaluate_move hI3 (s' := w.1) (as := w.2) hw
          rw [← h.1, ← h.2]
          exact (h1.append h2).from rfl
        · simp only [Res.pure_eq, Res.ok.injEq, Prod.mk.injEq] at h
          rw [← h.1, ← h.2]; exact Move.nil (Keep.of_eq rfl)

theorem dropLoop_move (l : List Nat) : ∀ {s s' : St} {as : List Act}, dropLoop s l = .ok (s', as) → Move s s' as := by
  induction l with
  | nil =>
    intro s s' as h
    simp only [dropLoop, Res.ok.injEq, Prod.mk.injEq] at h
    rw [← h.1, ← h.2]; exact Move.nil (Keep.of_eq rfl)
  | cons x l ih =>
    intro s s' as h
    unfold dropLoop at h
    obtain ⟨m, hm, h⟩ := bindOk h
    split at h
    · exact ih h
    · obtain ⟨t, ht, h⟩ := bindOk h
      simp only [Res.pure_eq, Res.ok.injEq, Prod.mk.injEq] at h
      have h1 := (ih (s' := t.1) (as := t.2) ht).from (s := s) rfl
      rw [← h.1, ← h.2]
      have h0 : Move s s [.dropped x] := ⟨Keep.of_eq rfl, ⟨by simp, by simp⟩, by simp [Left, leaves]⟩
      exact h0.append h1

theorem refresh_move {s s' : St} {order : List (Nat × Nat)} {as : List Act} (hI : Inv s)
    (h : refreshSelection s order = .ok (s', as)) : Move s s' as := by
  unfold refreshSelection at h
  have hq : Quiet s { s with sorted := order } := Quiet.of_eq rfl rfl rfl rfl
  have hI1 := hq.inv hI
  obtain ⟨t, ht, h⟩ := bindOk h
  have h1 := (dropLoop_move _ (s' := t.1) (as := t.2) ht).from (s := s) rfl
  have hI2 := (dropLoop_trans _ hI1 (s' := t.1) (as := t.2) ht).1.inv
  split at h
  · simp only [Res.pure_eq, Res.ok.injEq] at h
    rw [h] at h1; exact h1
  · obtain ⟨u, hu, h⟩ := bindOk h
    simp only [Res.pure_eq, Res.ok.injEq, Prod.mk.injEq] at h
    rw [← h.1, ← h.2]
    exact h1.append (evaluateAll_move _ hI2 (s' := u.1) (as := u.2) hu)

theorem closePeer_keep (m : Map Peer) (p x : Nat) (peer' : Peer) (h : (closePeer m p).get x = some peer') :
    ∃ peer, m.get x = some peer ∧ peer'.choking = peer.choking ∧ (peer'.action = .established → peer.action = .established) ∧
      (x = p → peer'.action ≠ .established) := by
  unfold closePeer at h
  split at h
  · next peer hp =>
    rw [Map.get_put] at h
    by_cases e : x = p
    · rw [if_pos e, Option.some.injEq] at h
      subst h
      rw [e]
      exact ⟨peer, hp, rfl, by simp, by simp⟩
    · rw [if_neg e] at h
      exact ⟨peer', h, rfl, id, fun e' => absurd e' e⟩
  · next hp =>
    refine ⟨peer', h, rfl, id, fun e => ?_⟩
    rw [e, hp] at h
    simp at h

theorem refreshSource_move (c : Check) (n : Nat) (s : St) (p : Nat) : Move s (refreshSource c n s p).1 (refreshSource c n s p).2 := by
  unfold refreshSource
  split
  · exact Move.nil (Keep.of_eq rfl)
  · split
    · exact Move.nil (Keep.of_eq rfl)
    · exact Move.nil (Keep.of_eq rfl)
    · simp only
      split
      · refine ⟨?_, ⟨by simp, by simp⟩, ?_⟩
        · intro x y hy
          obtain ⟨q, hq, h1, h2, -⟩ := closePeer_keep _ _ _ _ hy
          exact ⟨q, hq, by rw [h1]; exact id, h2⟩
        · intro x hl y hy
          have hx : x = p := by simpa [leaves] using hl
          obtain ⟨q, hq, h1, h2, h3⟩ := closePeer_keep _ _ _ _ hy
          exact h3 hx
      · exact Move.nil (Keep.of_eq rfl)

theorem refreshSources_move (c : Check) (n : Nat) (l : List Nat) : ∀ (s : St),
    Move s (refreshSources c n l s).1 (refreshSources c n l s).2 := by
  induction l with
  | nil => intro s; exact Move.nil (Keep.of_eq rfl)
  | cons p l ih => intro s; exact (refreshSource_move c n s p).append (ih _)

theorem pieceChecked_move {s s' : St} {idx : Nat} {c : Check} {q : Req} {as : List Act}
    (h : pieceChecked s idx c q = .ok (s', as)) : Move s s' as := by
  unfold pieceChecked at h
  by_cases e : c = .success
  · simp only [e, if_true, Res.pure_eq, Res.bind_ok, Res.ok.injEq, Prod.mk.injEq] at h
    rw [← h.1, ← h.2]
    have h1 := refreshSources_move .success q.sources.length q.sources
      { s with checking := sub32 s.checking 1, fresh := s.fresh ++ [idx] }
    have h2 := (h1.from (s := s) rfl).append (Move.nil (s := _) (s' := _) (Keep.of_eq rfl))
    rw [List.append_nil] at h2
    exact ⟨h2.keep, h2.talk, h2.left⟩
  · simp only [e, if_false] at h
    obtain ⟨prog, -, h⟩ := bindOk h
    simp only [Res.pure_eq, Res.ok.injEq, Prod.mk.injEq] at h
    rw [← h.1, ← h.2]
    refine Move.append (Move.from (s := s) (refreshSources_move c q.sources.length q.sources _) rfl) ?_
    by_cases he : c = .error
    · rw [if_pos he]
      exact ⟨Keep.of_eq rfl, ⟨by simp, by simp⟩, by simp [Left, leaves]⟩
    · rw [if_neg he]
      exact Move.nil (Keep.of_eq rfl)

theorem closeAll_keep (ps : List Nat) : ∀ (m : Map Peer) (x : Nat) (peer' : Peer), (ps.foldl closePeer m).get x = some peer' →
    ∃ peer, m.get x = some peer ∧ peer'.choking = peer.choking ∧ (peer'.action = .established → peer.action = .established) ∧
      (x ∈ ps → peer'.action ≠ .established) := by
  induction ps with
  | nil => intro m x peer' h; exact ⟨peer', h, rfl, id, by simp⟩
  | cons p ps ih =>
    intro m x peer' h
    obtain ⟨q, hq, h1, h2, h3⟩ := ih _ x peer' h
    obtain ⟨r, hr, h4, h5, h6⟩ := closePeer_keep _ _ _ _ hq
    refine ⟨r, hr, h1.trans h4, fun he => h5 (h2 he), ?_⟩
    intro hx he
    rcases List.mem_cons.1 hx with hx | hx
    · exact h6 hx (h2 he)
    · exact h3 hx he

/-- What is known of the connections from the history. -/
def Known (s : St) (f g : Nat → Bool) : Prop :=
  ∀ p peer, s.peers.get p = some peer → (peer.choking = false → f p = true) ∧ (peer.action = .established → g p = true)

theorem Move.known {s s' : St} {as : List Act} {f g : Nat → Bool} (h : Move s s' as) (hk : Known s f g) :
    Known s' f (fun p => g p && !decide (leaves as p)) ∧ (∀ p b, .request p b ∈ as → f p = true ∧ g p = true) ∧
      ∀ p i, .have p i ∈ as → g p = true := by
  refine ⟨?_, ?_, ?_⟩
  · intro p peer hp
    obtain ⟨q, hq, h1, h2⟩ := h.keep p peer hp
    refine ⟨fun hc => (hk p q hq).1 (h1 hc), fun he => ?_⟩
    have hl : ¬ leaves as p := fun hl => h.left p hl peer hp he
    simp [(hk p q hq).2 (h2 he), hl]
  · intro p b hm
    obtain ⟨q, hq, h1, h2⟩ := h.talk.1 p b hm
    exact ⟨(hk p q hq).1 h2, (hk p q hq).2 h1⟩
  · intro p b hm
    obtain ⟨q, hq, h1⟩ := h.talk.2 p b hm
    exact (hk p q hq).2 h1

/-- What a message says about choking. -/
def chokes (c : Bool) : Msg → Bool
  | .choke => true
  | .unchoke => false
  | _ => c

theorem receive_keep {peer peer' : Peer} {m : Msg} (h : receive peer m = .ok peer') :
    peer'.action = peer.action ∧ peer'.choking = chokes peer.choking m := by
  unfold receive at h
  cases m with
  | choke => simp only [Res.ok.injEq] at h; rw [← h]; exact ⟨rfl, rfl⟩
  | unchoke => simp only [Res.ok.injEq] at h; rw [← h]; exact ⟨rfl, rfl⟩
  | «have» i =>
    obtain ⟨pp, -, h⟩ := bindOk h
    simp only [Res.pure_eq, Res.ok.injEq] at h; rw [← h]; exact ⟨rfl, rfl⟩
  | bitfield d =>
    obtain ⟨pp, -, h⟩ := bindOk h
    simp only [Res.pure_eq, Res.ok.injEq] at h; rw [← h]; exact ⟨rfl, rfl⟩
  | piece b d => simp only [Res.ok.injEq] at h; rw [← h]; exact ⟨rfl, rfl⟩
  | other => simp only [Res.ok.injEq] at h; rw [← h]; exact ⟨rfl, rfl⟩

theorem Known.message {s : St} {p : Nat} {peer peer' : Peer} {m : Msg} {f g : Nat → Bool} (hk : Known s f g)
    (hp : s.peers.get p = some peer) (h : receive peer m = .ok peer') :
    Known { s with peers := s.peers.put p peer' } (heardEv f (.message p m)) g := by
  obtain ⟨h1, h2⟩ := receive_keep h
  intro x y hy
  rw [Map.get_put] at hy
  by_cases e : x = p
  · subst e
    rw [if_pos rfl, Option.some.injEq] at hy
    subst hy
    refine ⟨fun hc => ?_, fun he => (hk x peer hp).2 (by rw [← h1]; exact he)⟩
    rw [h2] at hc
    cases m <;> simp_all [heardEv, chokes]
    all_goals exact (hk x peer hp).1 hc
  · rw [if_neg e] at hy
    refine ⟨fun hc => ?_, (hk x y hy).2⟩
    have := (hk x y hy).1 hc
    cases m <;> simp_all [heardEv]

/-- What a step does to what is known. -/
def Allowed (s' : St) (f g : Nat → Bool) (as : List Act) : Prop :=
  Known s' f (fun p => g p && !decide (leaves as p)) ∧ (∀ p b, .request p b ∈ as → f p = true ∧ g p = true) ∧
      ∀ p i, .have p i ∈ as → g p = true

theorem step_allowed {sha : List UInt8 → List UInt8} {hashes : List (List UInt8)} {s s' : St} {e : Ev} {as : List Act} {f g : Nat → Bool}
    (hI : Inv s) (hk : Known s f g) (h : step sha hashes s e = .ok (s', as)) : Allowed s' (heardEv f e) (joinedEv g e) as := by
  cases e with
  | connect p =>
    simp only [step, Res.ok.injEq, Prod.mk.injEq] at h
    rw [← h.1, ← h.2]
    refine ⟨?_, by simp, by simp⟩
    intro x y hy
    split at hy
    · simpa [leaves, heardEv, joinedEv] using hk x y hy
    · simp only at hy
      rw [Map.get_put] at hy
      by_cases e : x = p
      · rw [if_pos e, Option.some.injEq] at hy
        subst hy
        simp
      · rw [if_neg e] at hy
        simpa [leaves, heardEv, joinedEv] using hk x y hy
  | handshake p =>
    have hkey : ∀ peer' : Peer, ∀ peer, s.peers.get p = some peer → peer'.choking = peer.choking →
        Known { s with peers := s.peers.put p peer' } f (joinedEv g (.handshake p)) := by
      intro peer' peer hp hc x y hy
      rw [Map.get_put] at hy
      by_cases e : x = p
      · rw [if_pos e, Option.some.injEq] at hy
        subst hy
        rw [e]
        exact ⟨fun hc' => (hk p peer hp).1 (by rw [← hc]; exact hc'), by simp [joinedEv]⟩
      · rw [if_neg e] at hy
        simpa [joinedEv, e] using hk x y hy
    have hsame : Known s f (joinedEv g (.handshake p)) := by
      intro x y hy
      refine ⟨(hk x y hy).1, fun he => ?_⟩
      have := (hk x y hy).2 he
      simp [joinedEv, this]
    simp only [step, handshake] at h
    cases hp : s.peers.get p with
    | none =>
      simp only [hp, Res.ok.injEq, Prod.mk.injEq] at h; rw [← h.1, ← h.2]
      exact (Move.nil (Keep.of_eq rfl)).known hsame
    | some peer =>
      simp only [hp] at h
      split at h
      · split at h
        · obtain ⟨d, -, h⟩ := bindOk h
          simp only [Res.pure_eq, Res.ok.injEq, Prod.mk.injEq] at h
          rw [← h.1, ← h.2]
          have h0 : ∀ t : St, Move t t [.bitfield p d] := fun t => ⟨Keep.of_eq rfl, ⟨by simp, by simp⟩, by simp [Left, leaves]⟩
          exact (h0 _).known (hkey _ peer hp rfl)
        · simp only [Res.pure_eq, Res.ok.injEq, Prod.mk.injEq] at h
          rw [← h.1, ← h.2]
          exact (Move.nil (Keep.of_eq rfl)).known (hkey _ peer hp rfl)
      · simp only [Res.ok.injEq, Prod.mk.injEq] at h; rw [← h.1, ← h.2]
        exact (Move.nil (Keep.of_eq rfl)).known hsame
  | message p m =>
    simp only [step, message] at h
    have hj : joinedEv g (.message p m) = g := rfl
    rw [hj]
    cases hp : s.peers.get p with
    | none =>
      simp only [hp, Res.ok.injEq, Prod.mk.injEq] at h
      rw [← h.1, ← h.2]
      refine (Move.nil (Keep.of_eq rfl)).known ?_
      intro x y hy
      refine ⟨fun hc => ?_, (hk x y hy).2⟩
      have hx : x ≠ p := fun e => by rw [e, hp] at hy; simp at hy
      have := (hk x y hy).1 hc
      cases m <;> simp_all [heardEv]
    | some peer =>
      simp only [hp] at h
      obtain ⟨peer', hr, h⟩ := bindOk h
      have hk1 := hk.message hp hr
      have hq1 : Quiet s { s with peers := s.peers.put p peer' } := Quiet.of_eq rfl rfl rfl rfl
      have hI1 := hq1.inv hI
      split at h
      · exact (messageReceived_move hI1 (by simp [Map.get_put]) h).known hk1
      · simp only [Res.pure_eq, Res.ok.injEq, Prod.mk.injEq] at h
        rw [← h.1, ← h.2]
        exact (Move.nil (Keep.of_eq rfl)).known hk1
  | closed p =>
    simp only [step, Res.ok.injEq, Prod.mk.injEq] at h
    rw [← h.1, ← h.2]
    refine ⟨?_, by simp, by simp⟩
    intro x y hy
    simp only at hy
    rw [Map.get_del] at hy
    by_cases e : x = p
    · rw [if_pos e] at hy; simp at hy
    · rw [if_neg e] at hy
      simpa [leaves, heardEv, joinedEv, e] using hk x y hy
  | check k data =>
    have : Move s s' as := by
      simp only [step, check] at h
      split at h
      · simp only [Res.ok.injEq, Prod.mk.injEq] at h; rw [← h.1, ← h.2]; exact Move.nil (Keep.of_eq rfl)
      · obtain ⟨hash, -, h⟩ := bindOk h
        exact (pieceChecked_move h).from rfl
    exact this.known hk
  | finish =>
    have : Move s s' as := by
      simp only [step, finish] at h
      split at h
      · simp only [Res.ok.injEq, Prod.mk.injEq] at h; rw [← h.1, ← h.2]; exact Move.nil (Keep.of_eq rfl)
      · simp only [Res.ok.injEq, Prod.mk.injEq] at h
        rw [← h.1, ← h.2]
        refine ⟨?_, ⟨by simp, by simp⟩, ?_⟩
        · intro x y hy
          obtain ⟨q, hq, h1, h2, -⟩ := closeAll_keep _ _ _ _ hy
          exact ⟨q, hq, by rw [h1]; exact id, h2⟩
        · intro x hl y hy
          obtain ⟨q, hq, h1, h2, h3⟩ := closeAll_keep _ _ _ _ hy
          apply h3
          rcases hl with hl | hl
          · simp at hl
          · rcases List.mem_append.1 hl with hl | hl
            · obtain ⟨z, hz, e⟩ := List.mem_map.1 hl
              simp only [Act.close.injEq] at e
              rw [← e]; exact hz
            · simp at hl
    exact this.known hk
  | select idx v =>
    simp only [step] at h
    obtain ⟨t, ht, h⟩ := bindOk h
    simp only [Res.pure_eq, Res.ok.injEq, Prod.mk.injEq] at h
    obtain ⟨f, -, e, -⟩ := select_spec ht
    rw [← h.1, ← h.2, e]
    exact (Move.nil (Keep.of_eq rfl)).known hk
  | setPriority idx pr =>
    simp only [step, Res.ok.injEq, Prod.mk.injEq] at h
    rw [← h.1, ← h.2]; exact (Move.nil (Keep.of_eq rfl)).known hk
  | refresh order =>
    simp only [step] at h
    split at h
    · exact (refresh_move hI h).known hk
    · simp only [Res.ok.injEq, Prod.mk.injEq] at h; rw [← h.1, ← h.2]; exact (Move.nil (Keep.of_eq rfl)).known hk
  | selectFile idx v order =>
    simp only [step] at h
    obtain ⟨t, ht, h⟩ := bindOk h
    obtain ⟨fs, -, e, hf⟩ := select_spec ht
    have hq : Quiet s t := by rw [e]; exact Quiet.of_eq rfl rfl hf rfl
    have hfr : t.peers = s.peers := by rw [e]
    split at h
    · split at h
      · exact ((refresh_move (hq.inv hI) h).from hfr).known hk
      · simp only [Res.pure_eq, Res.ok.injEq, Prod.mk.injEq] at h; rw [← h.1, ← h.2]; exact (Move.nil (Keep.of_eq rfl)).known hk
    · simp only [Res.pure_eq, Res.ok.injEq, Prod.mk.injEq] at h; rw [← h.1, ← h.2]; exact (Move.nil (Keep.of_eq hfr)).known hk
  | sort order =>
    simp only [step, Res.ok.injEq, Prod.mk.injEq] at h
    rw [← h.1, ← h.2]
    have : Move s (if order.isPerm s.sorted then { s with sorted := order } else s) [] := by
      split <;> exact Move.nil (Keep.of_eq rfl)
    exact this.known hk
  | tick =>
    simp only [step] at h
    have : Move s s' as := by
      split at h
      · simp only [Res.ok.injEq, Prod.mk.injEq] at h
        rw [← h.1, ← h.2]
        refine ⟨Keep.of_eq rfl, ⟨?_, ?_⟩, ?_⟩
        · intro x b hm
          unfold announce at hm
          obtain ⟨y, -, hm⟩ := List.mem_flatMap.1 hm
          obtain ⟨z, -, e⟩ := List.mem_map.1 hm
          simp at e
        · intro x i hm
          unfold announce at hm
          obtain ⟨y, hy, hm⟩ := List.mem_flatMap.1 hm
          obtain ⟨z, hz, e⟩ := List.mem_map.1 hm
          simp only [Act.have.injEq] at e
          rw [← e.1]
          have := (List.mem_filter.1 hy).2
          simpa using this
        · intro x hl
          exfalso
          unfold leaves announce at hl
          simp at hl
      · simp only [Res.ok.injEq, Prod.mk.injEq] at h
        rw [← h.1, ← h.2]; exact Move.nil (Keep.of_eq rfl)
    exact this.known hk
  | start order =>
    simp only [step] at h
    split at h
    · simp only [Res.ok.injEq, Prod.mk.injEq] at h; rw [← h.1, ← h.2]; exact (Move.nil (Keep.of_eq rfl)).known hk
    · have hq : Quiet s { s with running := true } := Quiet.of_eq rfl rfl rfl rfl
      exact ((refresh_move (hq.inv hI) h).from rfl).known hk
  | stop =>
    simp only [step, Res.ok.injEq, Prod.mk.injEq] at h
    rw [← h.1, ← h.2]
    refine ⟨?_, by simp, by simp⟩
    intro x y hy
    simp [stop, Map.get] at hy

theorem run_allowed {sha : List UInt8 → List UInt8} {hashes : List (List UInt8)} {s0 : St} (hf : Fresh s0) (hk : KeptOk s0)
    (es : List Ev) : ∀ {s : St} {h : History}, run sha hashes s0 es = .ok (s, h) →
      Inv s ∧ Known s (unchoked es) (joined h) := by
  induction es using List.reverseRecOn with
  | nil =>
    intro s h hr
    simp only [run, Res.ok.injEq, Prod.mk.injEq] at hr
    obtain ⟨rfl, rfl⟩ := hr
    refine ⟨(inv_fresh hf hk).1, ?_⟩
    intro p peer hp
    rw [hf.2.2.1] at hp
    simp [Map.get] at hp
  | append_singleton es e ih =>
    intro s h hr
    obtain ⟨s1, h1, as, r1, r2, rfl⟩ := run_concat es e hr
    obtain ⟨hI, hv⟩ := ih r1
    refine ⟨(step_ok hI r2).inv, ?_⟩
    have := (step_allowed hI hv r2).1
    unfold unchoked joined
    rw [List.foldl_append, List.foldl_append]
    exact this

end Verif.Downloader
