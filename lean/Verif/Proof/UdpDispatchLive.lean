import Verif.Proof.UdpDispatch
import Verif.Spec.UdpDispatch

namespace Verif.UdpDispatch
open Verif Spec

/-- Something will still happen to every waiting request: its timer runs, has expired, or is being handled. -/
def Tok (s : State) : Prop := ∀ i ∈ s.live, (s.info i).armed = true ∨ (s.info i).client ∈ s.fired ∨ some i ∈ s.looked

theorem find_client {f : Nat → Info} {c : Nat} : ∀ {l : List Nat}, l.Pairwise (fun i j => (f i).client ≠ (f j).client) → ∀ {i : Nat}, i ∈ l → (f i).client = c →
    (l.find? fun i => (f i).client == c) = some i
  | [], _, i, hi, _ => by cases hi
  | a :: l, hp, i, hi, hc => by
    rw [List.pairwise_cons] at hp
    rcases List.mem_cons.mp hi with rfl | hi
    · simp [List.find?_cons, hc]
    · have : (f a).client ≠ c := fun h => hp.1 i hi (h.trans hc.symm)
      rw [List.find?_cons]
      simp only [beq_eq_false_iff_ne.mpr this]
      exact find_client hp.2 hi hc

theorem close_tok {s s' : State} (h : Inv s) (hj : s.job = none) {c : Nat} (hs : onUdpClose s c = .ok s')
    (ht : ∀ i ∈ s.live, (s.info i).client ≠ c → (s.info i).armed = true ∨ (s.info i).client ∈ s.fired ∨ some i ∈ s.looked) : Tok s' := by
  rw [close_eq h hj] at hs
  cases hs
  intro i hi
  simp only [State.live, State.found, hj, List.append_nil, List.mem_filter, bne_iff_ne, ne_eq] at hi
  have := ht i (by simp [State.live, hi.1]) hi.2
  have hn : i ∉ s.pending.filter (fun i => (s.info i).client == c) := fun hx => hi.2 (by simpa using (List.mem_filter.mp hx).2)
  simpa only [hn, if_false] using this

theorem step_tok {s s' : State} (h : Inv s) (ht : Tok s) {e : Ev} (hs : step s e = some (.ok s'))
    (hc : s.pending.Pairwise fun i j => (s.info i).client ≠ (s.info j).client)
    (hl : ∀ c, e = .lookup c → ∀ i ∈ s.found, (s.info i).client ≠ c) : Tok s' := by
  cases e with
  | send c =>
    simp only [step, Res.pure_eq] at hs
    cases hs
    intro i hi
    by_cases he : i = s.next
    · subst he; simp [set]
    · simp only [set, he, if_false]
      refine ht i ?_
      simp only [State.live, State.found, List.mem_append, List.mem_singleton] at hi ⊢
      tauto
  | receive p =>
    simp only [step] at hs
    split at hs
    · cases hs
      intro i hi
      refine ht i ?_
      simp only [State.live, State.found, List.mem_append, List.mem_filter] at hi ⊢
      tauto
    · cases hs
  | ask t =>
    simp only [step] at hs
    split at hs
    · rename_i n i is hj
      have hi : i ∈ s.live := by simp [State.live, State.found, hj]
      split at hs
      · rw [reset, if_pos (h.timer hi).2, Res.bind_ok] at hs
        cases hs
        have hno : i ∉ s.pending ++ is := by
          have := h.nodup
          simp only [State.live, State.found, hj] at this
          have := (List.nodup_append.mp this).1
          rw [List.perm_middle.nodup_iff, List.nodup_cons] at this
          exact this.1
        intro k hk
        have hki : k ≠ i := by rintro rfl; exact hno hk
        simp only [set, hki, if_false]
        refine ht k ?_
        simp only [State.live, State.found, hj, List.mem_append, List.mem_cons] at hk ⊢
        tauto
      · cases hs
        intro k hk
        refine ht k ?_
        simp only [State.live, State.found, hj, List.mem_append, List.mem_cons, List.not_mem_nil] at hk ⊢
        tauto
    · rename_i n i is hj
      cases hs
      intro k hk
      refine ht k ?_
      simp only [State.live, State.found, hj, List.mem_append, List.mem_cons, List.not_mem_nil] at hk ⊢
      tauto
    · cases hs
  | done =>
    simp only [step] at hs
    split at hs
    · rename_i hj
      cases hs
      intro k hk
      refine ht k ?_
      simp only [State.live, State.found, hj] at hk ⊢
      exact hk
    · cases hs
  | close c =>
    simp only [step] at hs
    split at hs
    · rename_i hj
      rw [Option.isNone_iff_eq_none] at hj
      injection hs with hs
      exact close_tok h hj hs fun i hi _ => ht i hi
    · cases hs
  | fire j =>
    simp only [step] at hs
    split at hs
    · cases hs
      intro i hi
      have := ht i hi
      by_cases he : i = j
      · subst he; simp [set]
      · simp only [set, he, if_false, List.mem_append]
        tauto
    · cases hs
  | lookup c =>
    simp only [step] at hs
    split at hs
    · cases hs
      intro i hi
      rcases ht i hi with h1 | h1 | h1
      · exact .inl h1
      · by_cases he : (s.info i).client = c
        · have hp : i ∈ s.pending := by
            rcases List.mem_append.mp hi with hi | hi
            · exact hi
            · exact absurd he (hl c rfl i hi)
          refine .inr (.inr ?_)
          simp [find_client hc hp he]
        · exact .inr (.inl ((List.mem_erase_of_ne he).mpr h1))
      · exact .inr (.inr (List.mem_append_left _ h1))
    · cases hs
  | act x =>
    simp only [step] at hs
    split at hs
    · rename_i hx
      obtain ⟨hx, hj⟩ := hx
      rw [Option.isNone_iff_eq_none] at hj
      have h' : Inv { s with looked := s.looked.erase x } :=
        ⟨h.all, h.info, fun i hi => h.looked i (List.mem_of_mem_erase hi), h.retried, h.taken, h.job⟩
      have key : ∀ i ∈ s.live, some i ≠ x → (s.info i).armed = true ∨ (s.info i).client ∈ s.fired ∨ some i ∈ s.looked.erase x := by
        intro i hi hne
        rcases ht i hi with h1 | h1 | h1
        · exact .inl h1
        · exact .inr (.inl h1)
        · exact .inr (.inr ((List.mem_erase_of_ne hne).mpr h1))
      cases x with
      | none => cases hs; exact fun i hi => key i hi (by simp)
      | some k =>
        simp only at hs
        split at hs
        · rename_i h255
          cases hs
          refine fun i hi => key i hi ?_
          intro he
          cases he
          have := (h.timer hi).1
          omega
        · split at hs
          · injection hs with hs
            refine close_tok h' hj hs fun i hi hne => key i hi ?_
            intro he
            cases he
            exact hne rfl
          · split at hs
            · cases hs
              intro i hi
              by_cases he : i = k
              · subst he; simp [set]
              · simp only [set, he, if_false]
                exact key i hi (by simpa using he)
            · cases hs
    · cases hs
  | cancel c =>
    simp only [step] at hs
    split at hs
    · split at hs
      · cases hs
        intro i hi
        refine ht i ?_
        simp only [State.live, State.found, List.mem_append] at hi ⊢
        exact hi.imp (fun hx => List.mem_of_mem_erase hx) id
      · cases hs; exact ht
    · cases hs
  | clear =>
    simp only [step] at hs
    split at hs
    · cases hs
      intro i hi
      refine ht i ?_
      simp only [State.live, State.found, List.mem_append, List.nil_append] at hi ⊢
      exact .inr hi
    · cases hs

/-- What later steps do to a request made: its client stays, its retries do not decrease, an outcome stays. -/
theorem step_later {s s' : State} (h : Inv s) {e : Ev} (hs : step s e = some (.ok s')) {i : Nat} (hi : i < s.next) :
    i < s'.next ∧ (s'.info i).client = (s.info i).client ∧ (s.info i).retries ≤ (s'.info i).retries ∧ (i ∈ s.ended → i ∈ s'.ended) := by
  have h255 : (s.info i).retries ≤ 255 := by
    rcases h.info i hi with h | h <;> omega
  have hclose : ∀ {s s' : State} {c : Nat}, Inv s → s.job = none → onUdpClose s c = .ok s' → i < s.next → (s.info i).retries ≤ 255 →
      i < s'.next ∧ (s'.info i).client = (s.info i).client ∧ (s.info i).retries ≤ (s'.info i).retries ∧ (i ∈ s.ended → i ∈ s'.ended) := by
    intro s s' c h hj hs hi h255
    rw [close_eq h hj] at hs
    cases hs
    refine ⟨hi, ?_, ?_, fun hx => ?_⟩
    · simp only; split <;> rfl
    · simp only; split
      · exact h255
      · exact Nat.le_refl _
    · simp only [State.ended, List.map_append, List.mem_append]
      exact .inl hx
  cases e with
  | send c =>
    simp only [step, Res.pure_eq] at hs
    cases hs
    have : i ≠ s.next := by omega
    simp only [set, this, if_false]
    exact ⟨by omega, trivial, Nat.le_refl _, id⟩
  | receive p =>
    simp only [step] at hs
    split at hs <;> cases hs
    exact ⟨hi, rfl, Nat.le_refl _, id⟩
  | ask t =>
    simp only [step] at hs
    split at hs
    · rename_i n k is hj
      have hk : k ∈ s.live := by simp [State.live, State.found, hj]
      split at hs
      · rw [reset, if_pos (h.timer hk).2, Res.bind_ok] at hs
        cases hs
        refine ⟨hi, ?_, ?_, fun hx => ?_⟩
        · simp only [set]; split
          · rename_i he; subst he; rfl
          · rfl
        · simp only [set]; split
          · exact h255
          · exact Nat.le_refl _
        · simp only [State.ended, List.map_append, List.mem_append]
          exact .inl hx
      · cases hs; exact ⟨hi, rfl, Nat.le_refl _, id⟩
    · cases hs; exact ⟨hi, rfl, Nat.le_refl _, id⟩
    · cases hs
  | done =>
    simp only [step] at hs
    split at hs <;> cases hs
    exact ⟨hi, rfl, Nat.le_refl _, id⟩
  | close c =>
    simp only [step] at hs
    split at hs
    · rename_i hj
      rw [Option.isNone_iff_eq_none] at hj
      injection hs with hs
      exact hclose h hj hs hi h255
    · cases hs
  | fire j =>
    simp only [step] at hs
    split at hs <;> cases hs
    refine ⟨hi, ?_, ?_, id⟩
    · simp only [set]; split
      · rename_i he; subst he; rfl
      · rfl
    · simp only [set]; split
      · rename_i he; subst he; exact Nat.le_refl _
      · exact Nat.le_refl _
  | lookup c =>
    simp only [step] at hs
    split at hs <;> cases hs
    exact ⟨hi, rfl, Nat.le_refl _, id⟩
  | act x =>
    simp only [step] at hs
    split at hs
    · rename_i hx
      obtain ⟨hx, hj⟩ := hx
      rw [Option.isNone_iff_eq_none] at hj
      have h' : Inv { s with looked := s.looked.erase x } :=
        ⟨h.all, h.info, fun i hi => h.looked i (List.mem_of_mem_erase hi), h.retried, h.taken, h.job⟩
      cases x with
      | none => cases hs; exact ⟨hi, rfl, Nat.le_refl _, id⟩
      | some k =>
        simp only at hs
        split at hs
        · cases hs; exact ⟨hi, rfl, Nat.le_refl _, id⟩
        · split at hs
          · injection hs with hs
            have := hclose h' hj hs hi h255
            exact this
          · split at hs
            · cases hs
              refine ⟨hi, ?_, ?_, id⟩
              · simp only [set]; split
                · rename_i he; subst he; rfl
                · rfl
              · simp only [set]; split
                · rename_i he; subst he; simp only; omega
                · exact Nat.le_refl _
            · cases hs
    · cases hs
  | cancel c =>
    simp only [step] at hs
    split at hs
    · split at hs
      · cases hs
        refine ⟨hi, rfl, Nat.le_refl _, fun hx => ?_⟩
        simp only [State.ended, List.map_append, List.mem_append]
        exact .inl hx
      · cases hs; exact ⟨hi, rfl, Nat.le_refl _, id⟩
    · cases hs
  | clear =>
    simp only [step] at hs
    split at hs <;> cases hs
    refine ⟨hi, rfl, Nat.le_refl _, fun hx => ?_⟩
    simp only [State.ended, List.map_append, List.mem_append]
    exact .inl hx

/-- The second half of a timer's handler retries a waiting request or ends it. -/
theorem act_ends {s s' : State} (h : Inv s) {i : Nat} (hi : i ∈ s.live) (hs : step s (.act (some i)) = some (.ok s')) :
    ((s.info i).retries = 0 ∧ (s'.info i).retries = 1) ∨ i ∈ s'.ended := by
  have hr := h.timer hi
  simp only [step] at hs
  split at hs
  · rename_i hx
    obtain ⟨hx, hj⟩ := hx
    rw [Option.isNone_iff_eq_none] at hj
    have h' : Inv { s with looked := s.looked.erase (some i) } :=
      ⟨h.all, h.info, fun i hi => h.looked i (List.mem_of_mem_erase hi), h.retried, h.taken, h.job⟩
    rw [if_neg (by omega)] at hs
    split at hs
    · rw [close_eq h' hj] at hs
      cases hs
      right
      have hp : i ∈ s.pending := by simpa [State.live, State.found, hj] using hi
      simp only [State.ended, List.map_append, List.map_map, List.mem_append, List.mem_map, List.mem_filter]
      exact .inr ⟨i, ⟨hp, by simp⟩, rfl⟩
    · rw [if_pos hr.2] at hs
      cases hs
      exact .inl ⟨by omega, by simp [set]⟩
  · cases hs

theorem exec_inv (x : Execution) : ∀ n, Inv (x.state n)
  | 0 => by rw [x.start]; exact start_inv
  | n + 1 => by
    have := x.next n
    split at this
    · exact step_inv (exec_inv x n) this
    · rw [this]; exact exec_inv x n

theorem exec_tok (x : Execution) (hu : Undisturbed x) : ∀ n, Tok (x.state n)
  | 0 => by rw [x.start]; intro i hi; simp [State.live, State.found] at hi
  | n + 1 => by
    have := x.next n
    split at this
    · rename_i e he
      refine step_tok (exec_inv x n) (exec_tok x hu n) this (hu.clients n) ?_
      rintro c rfl i hi
      cases hj : (x.state n).job with
      | none => simp [State.found, hj] at hi
      | some j => exact hu.lookups n c j he hj i (by simpa [State.found, hj] using hi)
    · rw [this]; exact exec_tok x hu n

theorem exec_later (x : Execution) {i n : Nat} (hi : i < (x.state n).next) : ∀ k, i < (x.state (n + k)).next ∧
    ((x.state (n + k)).info i).client = ((x.state n).info i).client ∧ ((x.state n).info i).retries ≤ ((x.state (n + k)).info i).retries ∧
    (i ∈ (x.state n).ended → i ∈ (x.state (n + k)).ended)
  | 0 => ⟨hi, rfl, Nat.le_refl _, id⟩
  | k + 1 => by
    obtain ⟨h1, h2, h3, h4⟩ := exec_later x hi k
    have := x.next (n + k)
    split at this
    · obtain ⟨g1, g2, g3, g4⟩ := step_later (exec_inv x _) this h1
      exact ⟨g1, g2.trans h2, Nat.le_trans h3 g3, fun h => g4 (h4 h)⟩
    · rw [← Nat.add_assoc, this]; exact ⟨h1, h2, h3, h4⟩

theorem Inv.split {s : State} (h : Inv s) {i : Nat} (hi : i < s.next) : i ∈ s.live ∨ i ∈ s.ended :=
  List.mem_append.mp (h.all.mem_iff.mpr (List.mem_range.mpr hi))

/-- A request that never ends gets its timer handled again and again. -/
theorem exec_act (x : Execution) (hf : Fair x) (hu : Undisturbed x) {i n : Nat} (hi : i < (x.state n).next) (hn : ∀ m, n ≤ m → i ∉ (x.state m).ended) :
    ∃ m, n ≤ m ∧ x.event m = some (.act (some i)) := by
  have hlt : ∀ m, n ≤ m → i < (x.state m).next := fun m hm => by
    have := (exec_later x hi (m - n)).1
    rwa [Nat.add_sub_cancel' hm] at this
  have hlive : ∀ m, n ≤ m → i ∈ (x.state m).live := fun m hm => ((exec_inv x m).split (hlt m hm)).resolve_right (hn m hm)
  have c1 : ∀ m, n ≤ m → some i ∈ (x.state m).looked → ∃ m, n ≤ m ∧ x.event m = some (.act (some i)) := by
    intro m hm hl
    obtain ⟨k, hk, he⟩ := hf.act m i hl
    exact ⟨k, Nat.le_trans hm hk, he⟩
  have c2 : ∀ m, n ≤ m → ((x.state m).info i).client ∈ (x.state m).fired → ∃ m, n ≤ m ∧ x.event m = some (.act (some i)) := by
    intro m hm hl
    obtain ⟨k, hk, he⟩ := hf.lookup m _ hl
    have hcl : ((x.state k).info i).client = ((x.state m).info i).client := by
      have := (exec_later x (hlt m hm) (k - m)).2.1
      rwa [Nat.add_sub_cancel' hk] at this
    have hnk := Nat.le_trans hm hk
    have hp : i ∈ (x.state k).pending := by
      rcases List.mem_append.mp (hlive k hnk) with h | h
      · exact h
      · cases hj : (x.state k).job with
        | none => simp [State.found, hj] at h
        | some j => exact absurd hcl (hu.lookups k _ j he hj i (by simpa [State.found, hj] using h))
    have hs := x.next k
    rw [he] at hs
    simp only [step] at hs
    split at hs
    · injection hs with hs
      injection hs with hs
      refine c1 (k + 1) (by omega) ?_
      rw [← hs]
      simp [find_client (hu.clients k) hp hcl]
    · cases hs
  have c3 := fun m hm => exec_tok x hu m i (hlive m hm)
  rcases c3 n (Nat.le_refl _) with h | h | h
  · obtain ⟨m, hm, he | he⟩ := hf.fire n i h
    · have hs := x.next m
      rw [he] at hs
      simp only [step] at hs
      split at hs
      · injection hs with hs
        injection hs with hs
        refine c2 (m + 1) (by omega) ?_
        rw [← hs]
        simp [set]
      · cases hs
    · rcases c3 m hm with h | h | h
      · rw [h] at he; cases he
      · exact c2 m hm h
      · exact c1 m hm h
  · exact c2 n (Nat.le_refl _) h
  · exact c1 n (Nat.le_refl _) h

end Verif.UdpDispatch
