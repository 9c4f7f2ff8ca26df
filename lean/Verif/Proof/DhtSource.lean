import Verif.Spec.DhtSource

namespace Verif.DhtSource
open Verif Spec.DhtSource

/-- How many of a torrent. -/
def cnt (l : List (Nat × Nat)) (h : Nat) : Nat := l.countP fun e => e.1 = h

theorem cnt_append (a b : List (Nat × Nat)) (h : Nat) : cnt (a ++ b) h = cnt a h + cnt b h := by
  unfold cnt; rw [List.countP_append]

theorem cnt_one (h id k : Nat) : cnt [(h, id)] k = if k = h then 1 else 0 := by
  unfold cnt
  by_cases e : k = h
  · subst e; simp
  · have : ¬ h = k := fun x => e x.symm
    simp [this, e]

theorem cnt_eraseP (l : List (Nat × Nat)) (h k : Nat) :
    cnt (l.eraseP fun e => e.1 = h) k = if k = h then cnt l k - 1 else cnt l k := by
  induction l with
  | nil => simp [cnt]
  | cons a l ih =>
    by_cases ha : a.1 = h
    · rw [List.eraseP_cons_of_pos (by simpa using ha)]
      unfold cnt
      rw [List.countP_cons]
      by_cases e : k = h
      · subst e; simp [ha]
      · have : ¬ a.1 = k := by rw [ha]; exact fun x => e x.symm
        simp [this, e]
    · rw [List.eraseP_cons_of_neg (by simpa using ha)]
      unfold cnt at ih ⊢
      rw [List.countP_cons, List.countP_cons, ih]
      by_cases e : k = h
      · subst e; simp [ha]
      · simp [e]

theorem cnt_erase {l : List (Nat × Nat)} {h id : Nat} (hm : (h, id) ∈ l) (k : Nat) :
    cnt (l.erase (h, id)) k + (if k = h then 1 else 0) = cnt l k := by
  have h1 := (List.perm_cons_erase hm).countP_eq (fun e => decide (e.1 = k))
  have h2 := cnt_one h id k
  unfold cnt at h2 ⊢
  rw [h1, List.countP_cons, ← h2]
  simp

theorem any_cnt (l : List (Nat × Nat)) (h : Nat) : (l.any (fun e => e.1 = h)) = true ↔ 0 < cnt l h := by
  unfold cnt; rw [List.countP_pos_iff, List.any_eq_true]

/-- At most one entry, exactly while the source says that it searches, and a query for it. -/
def Inv (s : Sys) : Prop := ∀ h, cnt s.entries h ≤ 1 ∧ ((s.src h).state = .announcing ↔ cnt s.entries h = 1) ∧
  cnt s.entries h ≤ cnt s.running h

theorem inv_start : Inv {} := by
  intro h
  exact ⟨by simp [cnt], by simp [cnt], by simp [cnt]⟩

theorem set_self (f : Nat → Source) (h : Nat) (s : Source) : set f h s h = s := by simp [set]
theorem set_other (f : Nat → Source) {h k : Nat} (s : Source) (e : k ≠ h) : set f h s k = f k := by simp [set, e]

/-- What `findingFinished` needs: one query more than entries. -/
theorem finished_inv {interval : Nat} {s : Sys} {h now : Nat}
    (hs : ∀ k, cnt s.entries k ≤ 1 ∧ ((s.src k).state = .announcing ↔ cnt s.entries k = 1) ∧
      cnt s.entries k ≤ cnt s.running k + (if k = h then 1 else 0)) :
    Inv (findingFinished interval s h now) := by
  intro k
  obtain ⟨h1, h2, h3⟩ := hs k
  unfold findingFinished
  split
  · simp only [cnt_eraseP]
    by_cases e : k = h
    · subst e
      rw [set_self]
      simp only [if_pos trivial] at h3 ⊢
      refine ⟨by omega, ?_, by omega⟩
      constructor
      · intro x; cases x
      · intro x; omega
    · rw [set_other _ _ e]
      simp only [if_neg e] at h3 ⊢
      exact ⟨h1, h2, by omega⟩
  · next hn =>
    rw [any_cnt] at hn
    refine ⟨h1, h2, ?_⟩
    by_cases e : k = h
    · subst e; omega
    · rw [if_neg e] at h3; exact h3

theorem find_inv {interval : Nat} {enabled nodes : Bool} {s : Sys} (hs : Inv s) (h now : Nat) : Inv (find interval enabled nodes s h now) := by
  unfold find
  split
  · next hc =>
    have h0 : cnt s.entries h = 0 := by
      obtain ⟨h1, h2, -⟩ := hs h
      have : ¬ cnt s.entries h = 1 := fun x => hc.2 (h2.2 x)
      omega
    unfold findPeers
    rw [if_neg (by rw [any_cnt]; simp only; omega)]
    simp only
    split
    · intro k
      obtain ⟨h1, h2, h3⟩ := hs k
      simp only [cnt_append, cnt_one]
      by_cases e : k = h
      · subst e
        rw [set_self]
        simp only [if_true]
        exact ⟨by omega, by constructor <;> intro _ <;> first | omega | trivial, by omega⟩
      · rw [set_other _ _ e]
        simp only [if_neg e]
        exact ⟨h1, h2, h3⟩
    · apply finished_inv
      intro k
      obtain ⟨h1, h2, h3⟩ := hs k
      simp only [cnt_append, cnt_one]
      by_cases e : k = h
      · subst e
        rw [set_self]
        simp only [if_true]
        exact ⟨by omega, by constructor <;> intro _ <;> first | omega | trivial, by omega⟩
      · rw [set_other _ _ e]
        simp only [if_neg e]
        exact ⟨h1, h2, by omega⟩
  · exact hs

theorem step_start (i : Nat) (s : Sys) (h : Nat) : s.step i (.start h) = start s h := rfl
theorem step_stop (i : Nat) (s : Sys) (h : Nat) : s.step i (.stop h) = stop s h := rfl
theorem step_update (i : Nat) (s : Sys) (h now : Nat) (a b c : Bool) : s.step i (.update h now a b c) = update i a b c s h now := rfl
theorem step_refresh (i : Nat) (s : Sys) (h now : Nat) (a b : Bool) : s.step i (.refresh h now a b) = refresh i a b s h now := rfl
theorem step_finish (i : Nat) (s : Sys) (h id now : Nat) : s.step i (.finish h id now) =
    if (h, id) ∈ s.running then findingFinished i { s with running := s.running.erase (h, id) } h now else s := rfl
theorem step_found (i : Nat) (s : Sys) (h id n new : Nat) : s.step i (.found h id n new) =
    if (h, id) ∈ s.running then (found s h n new).1 else s := rfl

theorem step_inv {interval : Nat} {s : Sys} (hs : Inv s) (e : Ev) : Inv (s.step interval e) := by
  cases e with
  | start h =>
    rw [step_start]; unfold start
    split
    · exact hs
    · next hc =>
      intro k
      obtain ⟨h1, h2, h3⟩ := hs k
      refine ⟨h1, ?_, h3⟩
      by_cases e : k = h
      · subst e
        simp only [set_self]
        constructor
        · intro x; cases x
        · intro x
          have := h2.2 x
          rw [this] at hc; simp at hc
      · simp only [set_other _ _ e]; exact h2
  | stop h =>
    intro k
    obtain ⟨h1, h2, h3⟩ := hs k
    rw [step_stop]; unfold stop
    simp only [cnt_eraseP]
    by_cases e : k = h
    · subst e
      rw [set_self]
      simp only [if_true]
      refine ⟨by omega, ?_, by omega⟩
      constructor
      · intro x; cases x
      · intro x; omega
    · rw [set_other _ _ e]
      simp only [if_neg e]
      exact ⟨h1, h2, h3⟩
  | update h now enabled nodes done =>
    rw [step_update]; unfold update
    split
    · next hc =>
      split
      · intro k
        obtain ⟨h1, h2, h3⟩ := hs k
        refine ⟨h1, ?_, h3⟩
        by_cases e : k = h
        · subst e; simp only [set_self]; exact h2
        · simp only [set_other _ _ e]; exact h2
      · exact find_inv hs h now
    · exact hs
  | refresh h now enabled nodes =>
    rw [step_refresh]; unfold refresh
    split
    · exact hs
    · exact find_inv hs h now
  | finish h id now =>
    rw [step_finish]
    split
    · next hm =>
      apply finished_inv
      intro k
      obtain ⟨h1, h2, h3⟩ := hs k
      have := cnt_erase hm k
      exact ⟨h1, h2, by simp only; omega⟩
    · exact hs
  | found h id n new =>
    rw [step_found]; unfold found
    split
    · split
      · intro k
        obtain ⟨h1, h2, h3⟩ := hs k
        refine ⟨h1, ?_, h3⟩
        by_cases e : k = h
        · subst e; simp only [set_self]; exact h2
        · simp only [set_other _ _ e]; exact h2
      · exact hs
    · exact hs

theorem run_inv (interval : Nat) (es : List Ev) : ∀ {s : Sys}, Inv s → Inv (s.run interval es) := by
  induction es with
  | nil => intro s h; exact h
  | cons e es ih => intro s h; exact ih (step_inv h e)

/-- Everything about another torrent stays. -/
def Same (k : Nat) (s s' : Sys) : Prop := s'.src k = s.src k ∧ (s'.entries.filter fun e => e.1 = k) = (s.entries.filter fun e => e.1 = k) ∧
  (s'.running.filter fun e => e.1 = k) = s.running.filter fun e => e.1 = k

theorem filter_eraseP {l : List (Nat × Nat)} {h k : Nat} (e : k ≠ h) :
    ((l.eraseP fun x => x.1 = h).filter fun x => x.1 = k) = l.filter fun x => x.1 = k := by
  induction l with
  | nil => rfl
  | cons a l ih =>
    by_cases ha : a.1 = h
    · rw [List.eraseP_cons_of_pos (by simpa using ha), List.filter_cons_of_neg]
      simp only [decide_eq_true_eq]; rw [ha]; exact fun x => e x.symm
    · rw [List.eraseP_cons_of_neg (by simpa using ha)]
      by_cases hk : a.1 = k
      · rw [List.filter_cons_of_pos (by simpa using hk), List.filter_cons_of_pos (by simpa using hk), ih]
      · rw [List.filter_cons_of_neg (by simpa using hk), List.filter_cons_of_neg (by simpa using hk), ih]

theorem filter_erase {l : List (Nat × Nat)} {h id k : Nat} (e : k ≠ h) :
    ((l.erase (h, id)).filter fun x => x.1 = k) = l.filter fun x => x.1 = k := by
  induction l with
  | nil => rfl
  | cons a l ih =>
    by_cases ha : a = (h, id)
    · subst ha
      rw [List.erase_cons_head, List.filter_cons_of_neg]
      simp only [decide_eq_true_eq]; exact fun x => e x.symm
    · rw [List.erase_cons_tail (by simpa using ha)]
      by_cases hk : a.1 = k
      · rw [List.filter_cons_of_pos (by simpa using hk), List.filter_cons_of_pos (by simpa using hk), ih]
      · rw [List.filter_cons_of_neg (by simpa using hk), List.filter_cons_of_neg (by simpa using hk), ih]

theorem filter_snoc {l : List (Nat × Nat)} {h id k : Nat} (e : k ≠ h) :
    ((l ++ [(h, id)]).filter fun x => x.1 = k) = l.filter fun x => x.1 = k := by
  have : ¬ h = k := fun x => e x.symm
  simp [this]

theorem finished_same {interval : Nat} {s : Sys} {h now k : Nat} (e : k ≠ h) : Same k s (findingFinished interval s h now) := by
  unfold findingFinished
  split
  · exact ⟨set_other _ _ e, filter_eraseP e, rfl⟩
  · exact ⟨rfl, rfl, rfl⟩

theorem find_same {interval : Nat} {enabled nodes : Bool} {s : Sys} {h now k : Nat} (e : k ≠ h) :
    Same k s (find interval enabled nodes s h now) := by
  unfold find
  split
  · unfold findPeers
    split
    · exact ⟨set_other _ _ e, rfl, rfl⟩
    · simp only
      split
      · exact ⟨set_other _ _ e, filter_snoc e, filter_snoc e⟩
      · obtain ⟨a, b, c⟩ := finished_same (interval := interval) (now := now) (s := { s with
          src := set s.src h { s.src h with state := .announcing, nextAnnounce := 0 }
          entries := s.entries ++ [(h, s.fresh)]
          fresh := s.fresh + 1 }) e
        exact ⟨a.trans (set_other _ _ e), b.trans (filter_snoc e), c⟩
  · exact ⟨rfl, rfl, rfl⟩

theorem step_same {interval : Nat} {s : Sys} {ev : Ev} {k : Nat} (e : k ≠ about ev) : Same k s (s.step interval ev) := by
  cases ev with
  | start h =>
    rw [step_start]; unfold start
    split
    · exact ⟨rfl, rfl, rfl⟩
    · exact ⟨set_other _ _ e, rfl, rfl⟩
  | stop h => exact ⟨set_other _ _ e, filter_eraseP e, rfl⟩
  | update h now enabled nodes done =>
    rw [step_update]; unfold update
    split
    · split
      · exact ⟨set_other _ _ e, rfl, rfl⟩
      · exact find_same e
    · exact ⟨rfl, rfl, rfl⟩
  | refresh h now enabled nodes =>
    rw [step_refresh]; unfold refresh
    split
    · exact ⟨rfl, rfl, rfl⟩
    · exact find_same e
  | finish h id now =>
    rw [step_finish]
    split
    · obtain ⟨a, b, c⟩ := finished_same (interval := interval) (now := now) (s := { s with running := s.running.erase (h, id) }) e
      exact ⟨a, b, c.trans (filter_erase e)⟩
    · exact ⟨rfl, rfl, rfl⟩
  | found h id n new =>
    rw [step_found]; unfold found
    split
    · split
      · exact ⟨set_other _ _ e, rfl, rfl⟩
      · exact ⟨rfl, rfl, rfl⟩
    · exact ⟨rfl, rfl, rfl⟩

end Verif.DhtSource
