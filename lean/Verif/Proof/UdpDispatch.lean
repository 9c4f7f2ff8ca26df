import Verif.Model.UdpDispatch
import Verif.Proof.UtpFrame
import Mathlib.Data.List.Perm.Basic
import Mathlib.Data.List.Nodup

namespace Verif.UdpDispatch
open Verif

/-- The requests taken out of the list by a dispatch and not yet asked. -/
def State.found (s : State) : List Nat := match s.job with | some j => j.found | none => []

/-- The requests that wait. -/
def State.live (s : State) : List Nat := s.pending ++ s.found

/-- The requests that have an outcome. -/
def State.ended (s : State) : List Nat := s.outcomes.map (·.1)

/-- The datagrams that were taken. -/
def taken (l : List (Nat × Outcome)) : List Nat := l.filterMap fun x => match x.2 with | .accepted n => some n | _ => none

structure Inv (s : State) : Prop where
  all : (s.live ++ s.ended).Perm (List.range s.next)
  info : ∀ i, i < s.next → ((s.info i).retries = 255 ∧ (s.info i).timer = false ∧ i ∉ s.live) ∨ ((s.info i).retries ≤ 1 ∧ (s.info i).timer = true)
  looked : ∀ i, some i ∈ s.looked → i < s.next
  retried : s.retried.Nodup ∧ ∀ i ∈ s.retried, i < s.next ∧ (s.info i).retries ≠ 0
  taken : (taken s.outcomes).Nodup ∧ ∀ n ∈ taken s.outcomes, n < s.datagrams
  job : ∀ j, s.job = some j → j.no < s.datagrams ∧ (j.handled = false → j.no ∉ UdpDispatch.taken s.outcomes)

theorem Inv.lt {s : State} (h : Inv s) {i : Nat} (hi : i ∈ s.live) : i < s.next :=
  List.mem_range.mp (h.all.mem_iff.mp (List.mem_append_left _ hi))

theorem Inv.nodup {s : State} (h : Inv s) : (s.live ++ s.ended).Nodup := h.all.nodup_iff.mpr List.nodup_range

theorem Inv.timer {s : State} (h : Inv s) {i : Nat} (hi : i ∈ s.live) : (s.info i).retries ≤ 1 ∧ (s.info i).timer = true := by
  rcases h.info i (h.lt hi) with ⟨_, _, hn⟩ | h
  · exact absurd hi hn
  · exact h

theorem closeFound_ok : ∀ (l : List Nat) (f : Nat → Info), l.Nodup → (∀ i ∈ l, (f i).timer = true) →
    closeFound f l = .ok fun i => if i ∈ l then { f i with retries := 255, timer := false, armed := false } else f i
  | [], f, _, _ => by simp [closeFound]
  | i :: l, f, hn, h => by
    rw [List.nodup_cons] at hn
    rw [closeFound, reset, if_pos (h i (by simp)), Res.bind_ok, closeFound_ok l _ hn.2 (fun j hj => by
      have : j ≠ i := by rintro rfl; exact hn.1 hj
      simp [set, this, h j (by simp [hj])])]
    congr 1
    funext j
    by_cases hj : j = i
    · subst hj; simp [hn.1, set]
    · simp [hj, set]

theorem taken_append (l m : List (Nat × Outcome)) : taken (l ++ m) = taken l ++ taken m := by simp [taken]

theorem taken_map {o : Outcome} (ho : ∀ n, o ≠ .accepted n) (l : List Nat) : taken (l.map fun i => (i, o)) = [] := by
  unfold taken
  rw [List.filterMap_map, List.filterMap_eq_nil_iff]
  intro i _
  cases o with
  | accepted n => exact absurd rfl (ho n)
  | closed => rfl
  | cancelled => rfl

theorem start_inv : Inv {} where
  all := by simp [State.live, State.found, State.ended]
  info := by simp
  looked := by simp
  retried := by simp
  taken := by simp [UdpDispatch.taken]
  job := by simp

/-- What `onUdpClose` does while no dispatch is under way. -/
theorem close_eq {s : State} (h : Inv s) (hj : s.job = none) (c : Nat) :
    onUdpClose s c = .ok { s with
      info := fun i => if i ∈ s.pending.filter (fun i => (s.info i).client == c) then { s.info i with retries := 255, timer := false, armed := false } else s.info i
      pending := s.pending.filter (fun i => (s.info i).client != c)
      outcomes := s.outcomes ++ (s.pending.filter fun i => (s.info i).client == c).map fun i => (i, .closed) } := by
  have hl : s.live = s.pending := by simp [State.live, State.found, hj]
  have hn : s.pending.Nodup := by
    have := h.nodup
    rw [hl] at this
    exact (List.nodup_append.mp this).1
  unfold onUdpClose
  dsimp only
  rw [closeFound_ok (s.pending.filter fun i => (s.info i).client == c) s.info (hn.filter _) (fun i hi => (h.timer (hl ▸ (List.mem_filter.mp hi).1)).2)]
  rfl

theorem close_inv {s s' : State} (h : Inv s) (hj : s.job = none) {c : Nat} (hs : onUdpClose s c = .ok s') : Inv s' := by
  rw [close_eq h hj] at hs
  cases hs
  have hl : s.live = s.pending := by simp [State.live, State.found, hj]
  have hperm := List.filter_append_perm (fun i => (s.info i).client == c) s.pending
  have hmem : ∀ i, i ∈ s.pending.filter (fun i => (s.info i).client == c) → i ∉ s.pending.filter (fun i => (s.info i).client != c) := by
    intro i h1 h2
    have h3 := (List.mem_filter.mp h1).2
    have h4 := (List.mem_filter.mp h2).2
    simp at h3 h4
    exact h4 h3
  constructor
  · have := h.all
    simp only [State.live, State.found, State.ended, hj, List.append_nil, List.map_append, List.map_map] at this ⊢
    refine List.Perm.trans ?_ this
    rw [List.perm_iff_count] at hperm ⊢
    intro a
    have := hperm a
    simp only [List.count_append] at this ⊢
    have e : (List.map ((fun x : Nat × Outcome => x.1) ∘ fun i => (i, Outcome.closed)) (s.pending.filter fun i => (s.info i).client == c)) = s.pending.filter fun i => (s.info i).client == c := by
      simp [Function.comp_def]
    rw [e]
    have e2 : (s.pending.filter fun i => (s.info i).client != c) = s.pending.filter fun i => !((s.info i).client == c) := rfl
    rw [e2]
    omega
  · intro i hi
    simp only [State.live, State.found, hj, List.append_nil]
    by_cases hm : i ∈ s.pending.filter (fun i => (s.info i).client == c)
    · simp only [hm, if_true]
      exact .inl ⟨trivial, trivial, hmem i hm⟩
    · simp only [hm, if_false]
      rcases h.info i hi with ⟨h1, h2, h3⟩ | h1
      · rw [hl] at h3
        exact .inl ⟨h1, h2, fun hx => h3 (List.mem_filter.mp hx).1⟩
      · exact .inr h1
  · exact h.looked
  · refine ⟨h.retried.1, fun i hi => ?_⟩
    have := h.retried.2 i hi
    simp only
    split
    · exact ⟨this.1, by simp⟩
    · exact this
  · rw [show taken _ = taken s.outcomes by rw [taken_append, taken_map (by simp), List.append_nil]]
    exact h.taken
  · intro j hj'
    rw [hj] at hj'
    cases hj'

theorem step_inv {s s' : State} (h : Inv s) {e : Ev} (hs : step s e = some (.ok s')) : Inv s' := by
  cases e with
  | send c =>
    simp only [step, Res.pure_eq] at hs
    cases hs
    have hnl : s.next ∉ s.live := fun hx => absurd (h.lt hx) (by omega)
    constructor
    · have := h.all
      simp only [State.live, State.found, State.ended] at this ⊢
      rw [List.perm_iff_count] at this ⊢
      intro a
      have := this a
      simp only [List.count_append, List.range_succ] at this ⊢
      omega
    · intro i hi
      have hi' : i < s.next + 1 := hi
      by_cases he : i = s.next
      · subst he; simp [set]
      · simp only [set, he, if_false]
        rcases h.info i (by omega) with ⟨h1, h2, h3⟩ | h1
        · refine .inl ⟨h1, h2, ?_⟩
          simp only [State.live, State.found, List.mem_append, List.mem_singleton] at h3 ⊢
          tauto
        · exact .inr h1
    · intro i hi
      have := h.looked i hi
      simp only; omega
    · refine ⟨h.retried.1, fun i hi => ?_⟩
      have := h.retried.2 i hi
      have he : i ≠ s.next := by omega
      simp only [set, he, if_false]
      exact ⟨by omega, this.2⟩
    · exact h.taken
    · exact h.job
  | receive p =>
    simp only [step] at hs
    split at hs
    · rename_i hj
      rw [Option.isNone_iff_eq_none] at hj
      cases hs
      have hl : s.live = s.pending := by simp [State.live, State.found, hj]
      have hperm := List.filter_append_perm (fun i => p (s.info i).client) s.pending
      constructor
      · have := h.all
        simp only [State.live, State.found, State.ended, hj, List.append_nil] at this ⊢
        rw [List.perm_iff_count] at this hperm ⊢
        intro a
        have := this a
        have := hperm a
        simp only [List.count_append] at *
        omega
      · intro i hi
        rcases h.info i hi with ⟨h1, h2, h3⟩ | h1
        · refine .inl ⟨h1, h2, ?_⟩
          rw [hl] at h3
          simp only [State.live, State.found, List.mem_append, List.mem_filter]
          tauto
        · exact .inr h1
      · exact h.looked
      · exact h.retried
      · exact ⟨h.taken.1, fun n hn => Nat.lt_succ_of_lt (h.taken.2 n hn)⟩
      · intro j hj'
        cases hj'
        exact ⟨Nat.lt_succ_self _, fun _ hn => absurd (h.taken.2 _ hn) (by simp)⟩
    · cases hs
  | ask t =>
    simp only [step] at hs
    split at hs
    · rename_i n i is hj
      have hi : i ∈ s.live := by simp [State.live, State.found, hj]
      have hjob := h.job _ hj
      split at hs
      · cases hs' : reset s.info i with
        | ok f =>
          rw [hs', Res.bind_ok] at hs
          cases hs
          rw [reset, if_pos (h.timer hi).2] at hs'
          cases hs'
          have hno : i ∉ s.pending ++ is := by
            have := h.nodup
            simp only [State.live, State.found, hj] at this
            have := (List.nodup_append.mp this).1
            rw [List.perm_middle.nodup_iff, List.nodup_cons] at this
            exact this.1
          constructor
          · have := h.all
            simp only [State.live, State.found, State.ended, hj, List.map_append, List.map_cons, List.map_nil] at this ⊢
            rw [List.perm_iff_count] at this ⊢
            intro a
            have := this a
            simp only [List.count_append, List.count_cons, List.count_nil] at this ⊢
            omega
          · intro k hk
            by_cases he : k = i
            · subst he
              simp only [set, if_true]
              exact .inl ⟨trivial, trivial, by simpa [State.live, State.found] using hno⟩
            · simp only [set, he, if_false]
              rcases h.info k hk with ⟨h1, h2, h3⟩ | h1
              · refine .inl ⟨h1, h2, ?_⟩
                simp only [State.live, State.found, hj, List.mem_append, List.mem_cons] at h3 ⊢
                tauto
              · exact .inr h1
          · exact h.looked
          · refine ⟨h.retried.1, fun k hk => ?_⟩
            have := h.retried.2 k hk
            simp only [set]
            split
            · exact ⟨this.1, by simp⟩
            · exact this
          · have e : taken (s.outcomes ++ [(i, .accepted n)]) = taken s.outcomes ++ [n] := by rw [taken_append]; rfl
            rw [e]
            refine ⟨?_, fun m hm => ?_⟩
            · rw [List.nodup_append]
              refine ⟨h.taken.1, by simp, fun a ha b hb => ?_⟩
              rw [List.mem_singleton] at hb
              subst hb
              rintro rfl
              exact hjob.2 rfl ha
            · rcases List.mem_append.mp hm with hm | hm
              · exact h.taken.2 m hm
              · rw [List.mem_singleton] at hm
                subst hm
                exact hjob.1
          · intro j hj'
            cases hj'
            exact ⟨hjob.1, by simp⟩
        | ub => rw [hs'] at hs; cases hs
        | diverge => rw [hs'] at hs; cases hs
      · cases hs
        have hp : ∀ a, a ∈ (s.pending ++ [i]) ++ is ↔ a ∈ s.live := by
          intro a; simp only [State.live, State.found, hj, List.mem_append, List.mem_cons, List.not_mem_nil]; tauto
        constructor
        · have := h.all
          simp only [State.live, State.found, State.ended, hj] at this ⊢
          rw [List.perm_iff_count] at this ⊢
          intro a
          have := this a
          simp only [List.count_append, List.count_cons, List.count_nil] at this ⊢
          omega
        · intro k hk
          rcases h.info k hk with ⟨h1, h2, h3⟩ | h1
          · exact .inl ⟨h1, h2, fun hx => h3 ((hp k).mp hx)⟩
          · exact .inr h1
        · exact h.looked
        · exact h.retried
        · exact h.taken
        · intro j hj'
          cases hj'
          exact ⟨hjob.1, fun _ => hjob.2 rfl⟩
    · rename_i n i is hj
      have hjob := h.job _ hj
      cases hs
      have hp : ∀ a, a ∈ (s.pending ++ [i]) ++ is ↔ a ∈ s.live := by
        intro a; simp only [State.live, State.found, hj, List.mem_append, List.mem_cons, List.not_mem_nil]; tauto
      constructor
      · have := h.all
        simp only [State.live, State.found, State.ended, hj] at this ⊢
        rw [List.perm_iff_count] at this ⊢
        intro a
        have := this a
        simp only [List.count_append, List.count_cons, List.count_nil] at this ⊢
        omega
      · intro k hk
        rcases h.info k hk with ⟨h1, h2, h3⟩ | h1
        · exact .inl ⟨h1, h2, fun hx => h3 ((hp k).mp hx)⟩
        · exact .inr h1
      · exact h.looked
      · exact h.retried
      · exact h.taken
      · intro j hj'
        cases hj'
        exact ⟨hjob.1, by simp⟩
    · cases hs
  | done =>
    simp only [step] at hs
    split at hs
    · rename_i hj
      cases hs
      have hl : s.live = s.pending := by simp [State.live, State.found, hj]
      exact ⟨by have := h.all; rw [hl] at this; simpa [State.live, State.found, State.ended] using this,
        fun i hi => by have := h.info i hi; rw [hl] at this; simpa [State.live, State.found] using this, h.looked, h.retried, h.taken, fun j hj' => by cases hj'⟩
    · cases hs
  | close c =>
    simp only [step] at hs
    split at hs
    · rename_i hj
      rw [Option.isNone_iff_eq_none] at hj
      injection hs with hs
      exact close_inv h hj hs
    · cases hs
  | fire i =>
    simp only [step] at hs
    split at hs
    · cases hs
      refine ⟨h.all, fun k hk => ?_, h.looked, ⟨h.retried.1, fun k hk => ?_⟩, h.taken, h.job⟩
      · have := h.info k hk
        by_cases he : k = i
        · subst he; simpa [set, State.live, State.found] using this
        · simpa [set, he, State.live, State.found] using this
      · have := h.retried.2 k hk
        by_cases he : k = i
        · subst he; simpa [set] using this
        · simpa [set, he] using this
    · cases hs
  | lookup c =>
    simp only [step] at hs
    split at hs
    · cases hs
      refine ⟨h.all, h.info, fun i hi => ?_, h.retried, h.taken, h.job⟩
      rcases List.mem_append.mp hi with hi | hi
      · exact h.looked i hi
      · rw [List.mem_singleton] at hi
        exact h.lt (List.mem_append_left _ (List.mem_of_find?_eq_some hi.symm))
    · cases hs
  | act x =>
    simp only [step] at hs
    split at hs
    · rename_i hx
      obtain ⟨hx, hj⟩ := hx
      rw [Option.isNone_iff_eq_none] at hj
      have h' : Inv { s with looked := s.looked.erase x } :=
        ⟨h.all, h.info, fun i hi => h.looked i (List.mem_of_mem_erase hi), h.retried, h.taken, h.job⟩
      cases x with
      | none => cases hs; exact h'
      | some i =>
        simp only at hs
        split at hs
        · cases hs; exact h'
        · split at hs
          · injection hs with hs
            exact close_inv h' hj hs
          · split at hs
            · rename_i hn0 hn1 ht
              cases hs
              have hlt := h.looked i hx
              refine ⟨h'.all, fun k hk => ?_, h'.looked, ⟨?_, fun k hk => ?_⟩, h'.taken, h'.job⟩
              · by_cases he : k = i
                · subst he
                  simp only [set, if_true]
                  exact .inr ⟨by omega, ht⟩
                · have := h'.info k hk
                  simpa [set, he, State.live, State.found] using this
              · rw [List.nodup_append]
                refine ⟨h.retried.1, by simp, fun a ha b hb => ?_⟩
                rw [List.mem_singleton] at hb
                subst hb
                rintro rfl
                exact (h.retried.2 _ ha).2 (by omega)
              · by_cases he : k = i
                · subst he
                  simp only [set, if_true]
                  exact ⟨hlt, by omega⟩
                · rcases List.mem_append.mp hk with hk | hk
                  · have := h.retried.2 k hk
                    simpa [set, he] using this
                  · exact absurd (List.mem_singleton.mp hk) he
            · cases hs
    · cases hs
  | cancel c =>
    simp only [step] at hs
    split at hs
    · rename_i hj
      rw [Option.isNone_iff_eq_none] at hj
      have hl : s.live = s.pending := by simp [State.live, State.found, hj]
      split at hs
      · rename_i i hf
        cases hs
        have hi := List.mem_of_find?_eq_some hf
        refine ⟨?_, fun k hk => ?_, h.looked, h.retried, ?_, fun j hj' => ?_⟩
        · have := h.all
          simp only [State.live, State.found, State.ended, hj, List.append_nil, List.map_append, List.map_cons, List.map_nil] at this ⊢
          refine List.Perm.trans ?_ this
          refine List.Perm.trans (List.Perm.append_left _ List.perm_append_comm) ?_
          rw [← List.append_assoc]
          refine List.Perm.append_right _ ?_
          refine List.Perm.trans List.perm_append_comm ?_
          exact (List.perm_cons_erase hi).symm
        · rcases h.info k hk with ⟨h1, h2, h3⟩ | h1
          · rw [hl] at h3
            refine .inl ⟨h1, h2, fun hx => h3 ?_⟩
            simp only [State.live, State.found, hj, List.append_nil] at hx
            exact List.mem_of_mem_erase hx
          · exact .inr h1
        · have e : taken (s.outcomes ++ [(i, .cancelled)]) = taken s.outcomes := by rw [taken_append]; simp [taken]
          rw [e]
          exact h.taken
        · simp only [hj] at hj'
          cases hj'
      · cases hs; exact h
    · cases hs
  | clear =>
    simp only [step] at hs
    split at hs
    · rename_i hj
      rw [Option.isNone_iff_eq_none] at hj
      cases hs
      refine ⟨?_, fun k hk => ?_, h.looked, h.retried, ?_, fun j hj' => ?_⟩
      · have := h.all
        simp only [State.live, State.found, State.ended, hj, List.append_nil, List.map_append, List.map_map, List.nil_append] at this ⊢
        refine List.Perm.trans ?_ this
        have e : List.map ((fun x : Nat × Outcome => x.1) ∘ fun i => (i, Outcome.cancelled)) s.pending = s.pending := by simp [Function.comp_def]
        rw [e]
        exact List.perm_append_comm
      · rcases h.info k hk with ⟨h1, h2, h3⟩ | h1
        · exact .inl ⟨h1, h2, by simp [State.live, State.found, hj]⟩
        · exact .inr h1
      · rw [show taken _ = taken s.outcomes by rw [taken_append, taken_map (by simp), List.append_nil]]
        exact h.taken
      · simp only [hj] at hj'
        cases hj'
    · cases hs

/-- No step dereferences a null timer, and every step that can be taken ends. -/
theorem step_def {s : State} (h : Inv s) {e : Ev} {r : Res State} (hs : step s e = some r) : ∃ s', r = .ok s' := by
  cases e with
  | send c => simp only [step] at hs; cases hs; exact ⟨_, rfl⟩
  | receive p => simp only [step] at hs; split at hs <;> cases hs; exact ⟨_, rfl⟩
  | ask t =>
    simp only [step] at hs
    split at hs
    · rename_i n i is hj
      split at hs
      · have hi : i ∈ s.live := by simp [State.live, State.found, hj]
        rw [reset, if_pos (h.timer hi).2] at hs
        cases hs
        exact ⟨_, rfl⟩
      · cases hs; exact ⟨_, rfl⟩
    · cases hs; exact ⟨_, rfl⟩
    · cases hs
  | done => simp only [step] at hs; split at hs <;> cases hs; exact ⟨_, rfl⟩
  | close c =>
    simp only [step] at hs
    split at hs
    · rename_i hj
      rw [Option.isNone_iff_eq_none] at hj
      rw [close_eq h hj] at hs
      cases hs; exact ⟨_, rfl⟩
    · cases hs
  | fire i => simp only [step] at hs; split at hs <;> cases hs; exact ⟨_, rfl⟩
  | lookup c => simp only [step] at hs; split at hs <;> cases hs; exact ⟨_, rfl⟩
  | act x =>
    simp only [step] at hs
    split at hs
    · rename_i hx
      obtain ⟨hx, hj⟩ := hx
      rw [Option.isNone_iff_eq_none] at hj
      have h' : Inv { s with looked := s.looked.erase x } :=
        ⟨h.all, h.info, fun i hi => h.looked i (List.mem_of_mem_erase hi), h.retried, h.taken, h.job⟩
      cases x with
      | none => cases hs; exact ⟨_, rfl⟩
      | some i =>
        simp only at hs
        split at hs
        · cases hs; exact ⟨_, rfl⟩
        · split at hs
          · rw [close_eq h' hj] at hs
            cases hs; exact ⟨_, rfl⟩
          · split at hs
            · cases hs; exact ⟨_, rfl⟩
            · rename_i h1 h2 h3
              rcases h.info i (h.looked i hx) with g | g
              · exact absurd g.1 h1
              · exact absurd g.2 h3
    · cases hs
  | cancel c =>
    simp only [step] at hs
    split at hs
    · split at hs <;> (cases hs; exact ⟨_, rfl⟩)
    · cases hs
  | clear => simp only [step] at hs; split at hs <;> cases hs; exact ⟨_, rfl⟩

theorem run_inv : ∀ (es : List Ev) {s s' : State}, Inv s → run s es = some (.ok s') → Inv s'
  | [], s, s', h, hr => by cases hr; exact h
  | e :: es, s, s', h, hr => by
    rw [run] at hr
    cases hs : step s e with
    | none => rw [hs] at hr; cases hr
    | some r =>
      obtain ⟨s1, rfl⟩ := step_def h hs
      rw [hs] at hr
      exact run_inv es (step_inv h hs) hr

theorem run_def : ∀ (es : List Ev) {s : State} {r : Res State}, Inv s → run s es = some r → ∃ s', r = .ok s'
  | [], s, r, h, hr => by cases hr; exact ⟨_, rfl⟩
  | e :: es, s, r, h, hr => by
    rw [run] at hr
    cases hs : step s e with
    | none => rw [hs] at hr; cases hr
    | some r' =>
      obtain ⟨s1, rfl⟩ := step_def h hs
      rw [hs] at hr
      exact run_def es (step_inv h hs) hr

end Verif.UdpDispatch
