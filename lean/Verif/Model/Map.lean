/-! `std::map` with numbers (or addresses, numbered) as keys: pairs in the order of the keys. -/

namespace Verif

abbrev Map (α : Type) := List (Nat × α)

namespace Map

variable {α : Type}

/-- `std::map::find`. -/
def get : Map α → Nat → Option α
  | [], _ => none
  | (k, v) :: m, x => if k = x then some v else get m x

/-- Assignment to an element, which is created if it is not there. -/
def put : Map α → Nat → α → Map α
  | [], x, a => [(x, a)]
  | (k, v) :: m, x, a =>
    if k = x then (x, a) :: m else if x < k then (x, a) :: (k, v) :: m else (k, v) :: put m x a

/-- `std::map::erase`. -/
def del (m : Map α) (x : Nat) : Map α := m.filter fun e => e.1 != x

/-- The same change to every element. -/
def mapAll (f : Nat → α → α) (m : Map α) : Map α := m.map fun e => (e.1, f e.1 e.2)

theorem get_put (m : Map α) (x : Nat) (a : α) (y : Nat) :
    (m.put x a).get y = if y = x then some a else m.get y := by
  induction m with
  | nil => simp [put, get, eq_comm]
  | cons e m ih =>
    obtain ⟨k, v⟩ := e
    simp only [put]
    by_cases h : k = x
    · subst h
      by_cases hy : y = k
      · simp [get, hy]
      · simp [get, hy, Ne.symm hy]
    · by_cases h2 : x < k
      · simp only [h, if_false, h2, if_true, get]
        by_cases hy : y = x
        · simp [hy]
        · simp [hy, Ne.symm hy]
      · simp only [h, if_false, h2, get, ih]
        by_cases hy : y = x
        · subst hy; simp [h]
        · simp [hy]

theorem get_del (m : Map α) (x y : Nat) : (m.del x).get y = if y = x then none else m.get y := by
  induction m with
  | nil => simp [del, get]
  | cons e m ih =>
    obtain ⟨k, v⟩ := e
    simp only [del] at ih ⊢
    by_cases h : k = x
    · subst h
      simp only [List.filter_cons, bne_self_eq_false, Bool.false_eq_true, if_false, ih, get]
      by_cases hy : y = k
      · simp [hy]
      · simp [hy, Ne.symm hy]
    · have : (k != x) = true := by simpa using h
      simp only [List.filter_cons, this, if_true, get, ih]
      by_cases hy : y = x
      · subst hy; simp [h]
      · simp [hy]

theorem get_mapAll (f : Nat → α → α) (m : Map α) (y : Nat) :
    (m.mapAll f).get y = (m.get y).map (f y) := by
  induction m with
  | nil => simp [mapAll, get]
  | cons e m ih =>
    obtain ⟨k, v⟩ := e
    simp only [mapAll, List.map_cons, get] at ih ⊢
    by_cases h : k = y
    · subst h; simp
    · simpa [h] using ih

theorem get_mem {m : Map α} {x : Nat} {a : α} (h : m.get x = some a) : (x, a) ∈ m := by
  induction m with
  | nil => simp [get] at h
  | cons e m ih =>
    obtain ⟨k, v⟩ := e
    simp only [get] at h
    by_cases hk : k = x
    · subst hk; simp only [if_true, Option.some.injEq] at h; simp [h]
    · rw [if_neg hk] at h; exact List.mem_cons_of_mem _ (ih h)

theorem mem_put {m : Map α} {x y : Nat} {a b : α} (h : (y, b) ∈ m.put x a) : (y = x ∧ b = a) ∨ (y, b) ∈ m := by
  induction m with
  | nil => simpa [put] using h
  | cons e m ih =>
    obtain ⟨k, v⟩ := e
    simp only [put] at h
    by_cases hk : k = x
    · rw [if_pos hk] at h
      rcases List.mem_cons.1 h with h | h
      · simp only [Prod.mk.injEq] at h; exact Or.inl h
      · exact Or.inr (List.mem_cons_of_mem _ h)
    · rw [if_neg hk] at h
      split at h
      · rcases List.mem_cons.1 h with h | h
        · simp only [Prod.mk.injEq] at h; exact Or.inl h
        · exact Or.inr h
      · rcases List.mem_cons.1 h with h | h
        · exact Or.inr (by rw [h]; simp)
        · rcases ih h with h | h
          · exact Or.inl h
          · exact Or.inr (List.mem_cons_of_mem _ h)

theorem mem_get {m : Map α} {x : Nat} {a : α} (h : (x, a) ∈ m) : ∃ b, m.get x = some b := by
  induction m with
  | nil => simp at h
  | cons e m ih =>
    obtain ⟨k, v⟩ := e
    simp only [get]
    by_cases hk : k = x
    · exact ⟨v, by simp [hk]⟩
    · rw [if_neg hk]
      apply ih
      simp only [List.mem_cons, Prod.mk.injEq] at h
      rcases h with h | h
      · exact absurd h.1.symm hk
      · exact h

end Map
end Verif
