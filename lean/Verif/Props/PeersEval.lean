import Verif.Proof.PeersEval
/-! C96: which connections are closed when there are too many.

`closed su sd now limit peers` are the connections closed when the connections `peers` are looked at, in the second `now`, with `limit`
connections allowed; `su` and `sd` are the two sorts. -/

namespace Verif
open PeersEval Spec.PeersEval

theorem closed_mem {su sd : List PeersEval.Peer → List PeersEval.Peer} (hd : Sorts More sd) {now limit : Nat} {l : List PeersEval.Peer}
    {p : PeersEval.Peer} (hp : p ∈ PeersEval.closed su sd now limit l) :
    limit < l.length ∧ (p ∈ candidates su (l.foldl (look now) {}) ∨
      candidates su (l.foldl (look now) {}) = [] ∧ (l.foldl (look now) {}).slowest = some p ∧ PeersEval.closed su sd now limit l = [p]) := by
  unfold PeersEval.closed at hp ⊢
  split at hp
  · next h =>
    refine ⟨h, ?_⟩
    dsimp only at hp ⊢
    rw [if_pos h]
    split at hp
    · left
      exact (hd _).1.mem_iff.1 (List.mem_of_mem_take hp)
    · next h5 =>
      split at hp
      · next he =>
        right
        have he' : candidates su (l.foldl (look now) {}) = [] := by simpa using he
        have hs : (l.foldl (look now) {}).slowest = some p := by
          cases hs : (l.foldl (look now) {}).slowest with
          | none => rw [hs] at hp; simp at hp
          | some q => rw [hs] at hp; simp at hp; rw [hp]
        refine ⟨he', hs, ?_⟩
        rw [if_neg h5, if_pos he, hs]; rfl
      · exact Or.inl hp
  · simp at hp

/-- C96 (partial, see `C96_below_violated`): connections are closed only if there are more than allowed, at most five, each once, and only
ones made at least ten seconds ago. -/
theorem C96_few_partial (su sd : List PeersEval.Peer → List PeersEval.Peer) (hu : Sorts Better su) (hd : Sorts More sd) (now limit : Nat)
    (h20 : 20 ≤ now) (hn : now < 18446744073709551616) (l : List PeersEval.Peer) (hl : l.Nodup) :
    (PeersEval.closed su sd now limit l ≠ [] → limit < l.length) ∧ (PeersEval.closed su sd now limit l).length ≤ 5 ∧
    (PeersEval.closed su sd now limit l).Nodup ∧ ∀ p ∈ PeersEval.closed su sd now limit l, p ∈ l ∧ Old now p := by
  obtain ⟨A, B, c1, c2, c3, c4, c5⟩ := candidates_spec hu h20 hn l
  obtain ⟨-, -, f3, -⟩ := found_eq h20 hn l {}
  have hcn : (candidates su (l.foldl (look now) {})).Nodup := by
    have h1 : (A ++ B).Nodup := c2.nodup_iff.2 (hl.sublist List.filter_sublist)
    rw [c1]
    refine List.nodup_append.2 ⟨hl.sublist List.filter_sublist, (List.nodup_append.1 h1).1, ?_⟩
    intro a ha b hb e
    subst e
    have h2 := (List.mem_filter.1 ha).2
    have h3 := (List.mem_filter.1 (c2.mem_iff.1 (List.mem_append_left _ hb))).2
    unfold IsIdle at h2
    unfold IsUpload at h3
    simp_all
  have hcm : ∀ p ∈ candidates su (l.foldl (look now) {}), p ∈ l ∧ Old now p := by
    intro p hp
    rw [c1] at hp
    rcases List.mem_append.1 hp with hp | hp
    · have := List.mem_filter.1 hp
      unfold IsIdle at this
      simp only [Bool.and_eq_true, decide_eq_true_eq] at this
      exact ⟨this.1, this.2.1.1⟩
    · have := List.mem_filter.1 (c2.mem_iff.1 (List.mem_append_left _ hp))
      unfold IsUpload at this
      simp only [Bool.and_eq_true, decide_eq_true_eq] at this
      exact ⟨this.1, this.2.1.1⟩
  refine ⟨?_, ?_, ?_, ?_⟩
  · intro hne
    obtain ⟨p, hp⟩ := List.exists_mem_of_ne_nil _ hne
    exact (closed_mem hd hp).1
  · unfold PeersEval.closed
    split
    · dsimp only
      split
      · rw [List.length_take]; omega
      · split
        · cases (l.foldl (look now) {}).slowest <;> simp
        · omega
    · simp
  · unfold PeersEval.closed
    split
    · dsimp only
      split
      · exact ((hd _).1.nodup_iff.2 hcn).sublist (List.take_sublist _ _)
      · split
        · cases (l.foldl (look now) {}).slowest <;> simp
        · exact hcn
    · simp
  · intro p hp
    rcases (closed_mem hd hp).2 with h | ⟨-, h, -⟩
    · exact hcm p h
    · rcases (f3 p h).1 with h | ⟨h1, h2⟩
      · simp at h
      · unfold IsActive at h2
        simp only [Bool.and_eq_true, decide_eq_true_eq] at h2
        exact ⟨h1, h2.1⟩

/-- C96 (partial as above): a connection on which something came in the last twenty seconds is closed only alone, and only if there is no idle
one to close: all others that are old enough are no slower, or are idle uploads, of which there are at most five. -/
theorem C96_active_partial (su sd : List PeersEval.Peer → List PeersEval.Peer) (hu : Sorts Better su) (hd : Sorts More sd) (now limit : Nat)
    (h20 : 20 ≤ now) (hn : now < 18446744073709551616) (l : List PeersEval.Peer) (p : PeersEval.Peer)
    (hp : p ∈ PeersEval.closed su sd now limit l) (hi : ¬ Idle now p) :
    PeersEval.closed su sd now limit l = [p] ∧
    (∀ q ∈ l, Old now q → ¬ Idle now q →
      p.downloadSpeed < q.downloadSpeed ∨ p.downloadSpeed = q.downloadSpeed ∧ p.downloaded ≤ q.downloaded) ∧
    (∀ q ∈ l, Old now q → Idle now q → q.interested = true) ∧
    (l.filter fun q => Old now q ∧ Idle now q).length ≤ 5 := by
  obtain ⟨A, B, c1, c2, c3, c4, c5⟩ := candidates_spec hu h20 hn l
  obtain ⟨-, -, f3, -⟩ := found_eq h20 hn l {}
  rcases (closed_mem hd hp).2 with h | ⟨h1, h2, h3⟩
  · exfalso
    apply hi
    rw [c1] at h
    rcases List.mem_append.1 h with h | h
    · have := (List.mem_filter.1 h).2
      unfold IsIdle at this
      simp only [Bool.and_eq_true, decide_eq_true_eq] at this
      exact this.1.2
    · have := (List.mem_filter.1 (c2.mem_iff.1 (List.mem_append_left _ h))).2
      unfold IsUpload at this
      simp only [Bool.and_eq_true, decide_eq_true_eq] at this
      exact this.1.2
  · rw [c1] at h1
    obtain ⟨e1, e2⟩ := List.append_eq_nil_iff.1 h1
    have hint : ∀ q ∈ l, Old now q → Idle now q → q.interested = true := by
      intro q hq ho hid
      have := List.filter_eq_nil_iff.1 e1 q hq
      unfold IsIdle at this
      simpa [ho, hid] using this
    refine ⟨h3, ?_, hint, ?_⟩
    · intro q hq ho hna
      exact (f3 p h2).2.2 q hq (by unfold IsActive; simp [ho, hna])
    · refine Nat.le_trans (Nat.le_of_eq ?_) (c4 e2)
      congr 1
      apply List.filter_congr
      intro q hq
      unfold IsUpload
      by_cases ho : Old now q <;> by_cases hid : Idle now q <;> simp [ho, hid]
      exact hint q hq ho hid

/-- C96 (partial as above): if an idle connection to a peer that wants data from us is closed, there are five other such connections that stay and are not worse
uploads. -/
theorem C96_uploads_partial (su sd : List PeersEval.Peer → List PeersEval.Peer) (hu : Sorts Better su) (hd : Sorts More sd) (now limit : Nat)
    (h20 : 20 ≤ now) (hn : now < 18446744073709551616) (l : List PeersEval.Peer) (hl : l.Nodup) (p : PeersEval.Peer)
    (hp : p ∈ PeersEval.closed su sd now limit l) (hi : Idle now p) (hint : p.interested = true) :
    ∃ K : List PeersEval.Peer, K.length = 5 ∧ K.Nodup ∧ ∀ q ∈ K, q ∈ l ∧ Old now q ∧ Idle now q ∧ q.interested = true ∧
      q ∉ PeersEval.closed su sd now limit l ∧ ¬ Better q p := by
  obtain ⟨A, B, c1, c2, c3, c4, c5⟩ := candidates_spec hu h20 hn l
  obtain ⟨-, -, f3, -⟩ := found_eq h20 hn l {}
  have hab : (A ++ B).Nodup := c2.nodup_iff.2 (hl.sublist List.filter_sublist)
  have hnotc : ∀ q ∈ B, q ∉ candidates su (l.foldl (look now) {}) := by
    intro q hq hc
    rw [c1] at hc
    rcases List.mem_append.1 hc with hc | hc
    · have h1 := (List.mem_filter.1 hc).2
      have h2 := (List.mem_filter.1 (c2.mem_iff.1 (List.mem_append_right _ hq))).2
      unfold IsIdle at h1
      unfold IsUpload at h2
      simp_all
    · exact (List.nodup_append.1 hab).2.2 q hc q hq rfl
  have hpA : p ∈ A := by
    rcases (closed_mem hd hp).2 with h | ⟨-, h, -⟩
    · rw [c1] at h
      rcases List.mem_append.1 h with h | h
      · have := (List.mem_filter.1 h).2
        unfold IsIdle at this
        simp [hint] at this
      · exact h
    · rcases (f3 p h).1 with h | ⟨-, h2⟩
      · simp at h
      · unfold IsActive at h2
        simp [hi] at h2
  have hne : candidates su (l.foldl (look now) {}) ≠ [] := by
    rw [c1]; intro h0
    rw [(List.append_eq_nil_iff.1 h0).2] at hpA
    simp at hpA
  refine ⟨B, ?_, (List.nodup_append.1 hab).2.1, ?_⟩
  · rcases c3 with c3 | c3
    · rw [c3] at hpA; simp at hpA
    · exact c3
  · intro q hq
    have h1 := List.mem_filter.1 (c2.mem_iff.1 (List.mem_append_right _ hq))
    have h2 := h1.2
    unfold IsUpload at h2
    simp only [Bool.and_eq_true, decide_eq_true_eq] at h2
    refine ⟨h1.1, h2.1.1, h2.1.2, h2.2, ?_, c5 p hpA q hq⟩
    intro hc
    rcases (closed_mem hd hc).2 with h | ⟨h, -⟩
    · exact hnotc q hq h
    · exact hne h

/-- C96 (partial as above): of an idle connection that is closed not more came than of one that stays though it is idle and its peer wants nothing. -/
theorem C96_least_partial (su sd : List PeersEval.Peer → List PeersEval.Peer) (hu : Sorts Better su) (hd : Sorts More sd) (now limit : Nat)
    (h20 : 20 ≤ now) (hn : now < 18446744073709551616) (l : List PeersEval.Peer) (hlim : limit < l.length) (p q : PeersEval.Peer)
    (hp : p ∈ PeersEval.closed su sd now limit l) (hq : q ∈ l) (ho : Old now q) (hi : Idle now q) (hint : q.interested = false)
    (hs : q ∉ PeersEval.closed su sd now limit l) : p.downloaded ≤ q.downloaded := by
  obtain ⟨A, B, c1, c2, c3, c4, c5⟩ := candidates_spec hu h20 hn l
  have hc : q ∈ candidates su (l.foldl (look now) {}) := by
    rw [c1]
    apply List.mem_append_left
    rw [List.mem_filter]
    exact ⟨hq, by unfold IsIdle; simp [ho, hi, hint]⟩
  unfold PeersEval.closed at hp hs
  rw [if_pos hlim] at hp hs
  dsimp only at hp hs
  split at hp
  · next h5 =>
    rw [if_pos h5] at hs
    obtain ⟨h1, h2⟩ := hd (candidates su (l.foldl (look now) {}))
    have hq' : q ∈ (sd (candidates su (l.foldl (look now) {}))).drop 5 := by
      have := h1.mem_iff.2 hc
      rw [← List.take_append_drop 5 (sd _)] at this
      rcases List.mem_append.1 this with h | h
      · exact absurd h hs
      · exact h
    rw [← List.take_append_drop 5 (sd _)] at h2
    have := (List.pairwise_append.1 h2).2.2 p hp q hq'
    unfold More at this; omega
  · next h5 =>
    rw [if_neg h5] at hs
    split at hs
    · next he =>
      have : candidates su (l.foldl (look now) {}) = [] := by simpa using he
      rw [this] at hc; simp at hc
    · exact absurd hc hs

/-- C96 (partial as above): if there are more connections than allowed, one is closed, unless all are new or among five idle uploads. -/
theorem C96_some_partial (su sd : List PeersEval.Peer → List PeersEval.Peer) (hu : Sorts Better su) (hd : Sorts More sd) (now limit : Nat)
    (h20 : 20 ≤ now) (hn : now < 18446744073709551616) (l : List PeersEval.Peer) (hlim : limit < l.length)
    (h : (∃ q ∈ l, Old now q ∧ (¬ Idle now q ∨ q.interested = false)) ∨ 5 < (l.filter fun q => Old now q ∧ Idle now q).length) :
    PeersEval.closed su sd now limit l ≠ [] := by
  obtain ⟨A, B, c1, c2, c3, c4, c5⟩ := candidates_spec hu h20 hn l
  obtain ⟨-, -, f3, f4⟩ := found_eq h20 hn l {}
  unfold PeersEval.closed
  rw [if_pos hlim]
  dsimp only
  split
  · next h5 =>
    intro h0
    have := congrArg List.length h0
    rw [List.length_take, (hd _).1.length_eq, List.length_nil] at this
    omega
  · split
    · next he =>
      have he' : candidates su (l.foldl (look now) {}) = [] := by simpa using he
      rw [c1] at he'
      obtain ⟨e1, e2⟩ := List.append_eq_nil_iff.1 he'
      have hint : ∀ q ∈ l, Old now q → Idle now q → q.interested = true := by
        intro q hq ho hid
        have := List.filter_eq_nil_iff.1 e1 q hq
        unfold IsIdle at this
        simpa [ho, hid] using this
      intro h0
      have hn0 : (l.foldl (look now) {}).slowest = none := by
        cases hs : (l.foldl (look now) {}).slowest with
        | none => rfl
        | some x => rw [hs] at h0; simp at h0
      rcases h with ⟨q, hq, ho, hq2⟩ | h
      · by_cases hid : Idle now q
        · rcases hq2 with hq2 | hq2
          · exact hq2 hid
          · have := hint q hq ho hid
            rw [hq2] at this; simp at this
        · have := (f4 hn0).2 q hq
          unfold IsActive at this
          simp [ho, hid] at this
      · have h5 := c4 e2
        have : (l.filter fun q => Old now q ∧ Idle now q) = l.filter (IsUpload now) := by
          apply List.filter_congr
          intro q hq
          unfold IsUpload
          by_cases ho : Old now q <;> by_cases hid : Idle now q <;> simp [ho, hid]
          exact hint q hq ho hid
        rw [this] at h
        omega
    · next he => simpa using he

/-- C96 (partial as above): connections are looked at with the first call, and with every sixth. -/
theorem C96_every_partial (n : Nat) : (countDown (counted n 0)).2 = true ↔ n % 6 = 0 := by
  have h : ∀ n c, c ≤ 5 → counted n c = (c + 5 * n) % 6 := by
    intro n
    induction n with
    | zero => intro c hc; simp [counted]; omega
    | succ n ih =>
      intro c hc
      unfold counted countDown
      by_cases h0 : c > 0
      · rw [if_pos h0]
        simp only
        rw [ih _ (by omega)]; omega
      · rw [if_neg h0]
        simp only
        rw [ih _ (by omega)]; omega
  rw [h n 0 (by omega)]
  unfold countDown
  split <;> simp <;> omega

/-- A connection for the examples. -/
def PeersEval.mk (id time : Nat) (interested : Bool) (speed got up : Nat) : PeersEval.Peer := ⟨id, 100, time, interested, speed, got, up, up⟩

/-! Non-vacuity: sorts exist, and each kind of connection is closed. -/
example : Sorts More (fun l => l.mergeSort fun a b => decide (a.downloaded ≤ b.downloaded)) := by
  intro l
  refine ⟨List.mergeSort_perm _ _, ?_⟩
  have := List.pairwise_mergeSort (le := fun a b : PeersEval.Peer => decide (a.downloaded ≤ b.downloaded))
    (by intro a b c; simp only [decide_eq_true_eq]; omega) (by intro a b; simp only [Bool.or_eq_true, decide_eq_true_eq]; omega) l
  exact this.imp (fun h => by unfold More; simp only [decide_eq_true_eq] at h; omega)

example : PeersEval.closed id id 1000 1 [PeersEval.mk 1 990 false 7 0 0, PeersEval.mk 2 990 false 5 0 0] = [PeersEval.mk 2 990 false 5 0 0] ∧
    PeersEval.closed id id 1000 1 [PeersEval.mk 1 990 false 7 0 0, PeersEval.mk 2 900 false 5 0 0] = [PeersEval.mk 2 900 false 5 0 0] ∧
    PeersEval.closed id id 1000 1 ((List.range 7).map fun k => PeersEval.mk k 900 true 0 0 k) =
      [PeersEval.mk 0 900 true 0 0 0, PeersEval.mk 1 900 true 0 0 1] := by
  decide +kernel

/-- C96 fails: with one connection more than allowed five are closed, though then fewer remain than allowed; whatever the sorts do. -/
theorem C96_below_violated (su sd : List PeersEval.Peer → List PeersEval.Peer) (_hu : Sorts Better su) (hd : Sorts More sd) :
    (PeersEval.closed su sd 1000 5 ((List.range 6).map fun k => PeersEval.mk k 900 false 0 k 0)).length = 5 := by
  have h1 : (((List.range 6).map fun k => PeersEval.mk k 900 false 0 k 0).foldl (look 1000) {}).idlePeers =
      (List.range 6).map fun k => PeersEval.mk k 900 false 0 k 0 := by decide +kernel
  have h2 : (((List.range 6).map fun k => PeersEval.mk k 900 false 0 k 0).foldl (look 1000) {}).idleUploads = [] := by decide +kernel
  have hc : candidates su (((List.range 6).map fun k => PeersEval.mk k 900 false 0 k 0).foldl (look 1000) {}) =
      (List.range 6).map fun k => PeersEval.mk k 900 false 0 k 0 := by
    unfold candidates
    rw [h1, h2]
    simp
  unfold PeersEval.closed
  rw [if_pos (by simp)]
  dsimp only
  rw [hc, if_pos (by simp), List.length_take, (hd _).1.length_eq]
  simp

end Verif
