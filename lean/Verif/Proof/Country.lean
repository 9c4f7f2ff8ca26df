import Verif.Spec.Country
namespace Verif.Country
open Verif Spec

theorem lowerBound_spec (l : List (Nat × Nat)) (a : Nat) (hs : l.Pairwise fun x y => x.1 < y.1) : ∀ (n first len : Nat), len ≤ n → first + len ≤ l.length →
    (∀ i x, i < first → l[i]? = some x → x.1 ≤ a) → (∀ i x, first + len ≤ i → l[i]? = some x → a < x.1) →
    ∃ k, lowerBound l a n first len = k ∧ k ≤ l.length ∧ (∀ i x, i < k → l[i]? = some x → x.1 ≤ a) ∧ (∀ i x, k ≤ i → l[i]? = some x → a < x.1)
  | 0, first, len, h1, h2, h3, h4 => ⟨first, rfl, by omega, h3, fun i x hi => h4 i x (by omega)⟩
  | n + 1, first, len, h1, h2, h3, h4 => by
    unfold lowerBound
    by_cases h0 : len = 0
    · rw [if_pos h0]
      exact ⟨first, rfl, by omega, h3, fun i x hi => h4 i x (by omega)⟩
    · rw [if_neg h0]
      have hm : first + len / 2 < l.length := by omega
      have hord : ∀ (i j : Nat) (x y : Nat × Nat), i < j → l[i]? = some x → l[j]? = some y → x.1 < y.1 := by
        intro i j x y hij hx hy
        obtain ⟨hi, rfl⟩ := List.getElem?_eq_some_iff.mp hx
        obtain ⟨hj, rfl⟩ := List.getElem?_eq_some_iff.mp hy
        exact List.pairwise_iff_getElem.mp hs i j hi hj hij
      rw [List.getElem?_eq_getElem hm]
      simp only
      split
      · rename_i hx
        apply lowerBound_spec l a hs n _ _ (by omega) (by omega)
        · intro i x hi hx'
          by_cases he : i = first + len / 2
          · subst he
            rw [List.getElem?_eq_getElem hm] at hx'
            cases hx'
            exact hx
          · have := hord i (first + len / 2) x _ (by omega) hx' (List.getElem?_eq_getElem hm)
            omega
        · intro i x hi; exact h4 i x (by omega)
      · rename_i hx
        apply lowerBound_spec l a hs n _ _ (by omega) (by omega) h3
        intro i x hi hx'
        by_cases he : i = first + len / 2
        · subst he
          rw [List.getElem?_eq_getElem hm] at hx'
          cases hx'
          omega
        · have := hord (first + len / 2) i _ x (by omega) (List.getElem?_eq_getElem hm) hx'
          omega

theorem lowerBound_count (l : List (Nat × Nat)) (a : Nat) (hs : l.Pairwise fun x y => x.1 < y.1) :
    lowerBound l a l.length 0 l.length = (l.filter fun e => decide (e.1 ≤ a)).length ∧
    l.filter (fun e => decide (e.1 ≤ a)) = l.take (lowerBound l a l.length 0 l.length) := by
  obtain ⟨k, h1, h2, h3, h4⟩ := lowerBound_spec l a hs l.length 0 l.length (by omega) (by omega) (by intro i x hi; omega)
    (by intro i x hi hx; obtain ⟨hh, _⟩ := List.getElem?_eq_some_iff.mp hx; omega)
  rw [h1]
  have hf : l.filter (fun e => decide (e.1 ≤ a)) = l.take k := by
    conv => lhs; rw [← List.take_append_drop k l]
    rw [List.filter_append, List.filter_eq_self.mpr, List.filter_eq_nil_iff.mpr, List.append_nil]
    · intro x hx
      obtain ⟨i, hi⟩ := List.mem_iff_getElem?.mp hx
      rw [List.getElem?_drop] at hi
      have := h4 (k + i) x (by omega) hi
      simp; omega
    · intro x hx
      obtain ⟨i, hi⟩ := List.mem_iff_getElem?.mp hx
      obtain ⟨hlt, _⟩ := List.getElem?_eq_some_iff.mp hi
      rw [List.length_take] at hlt
      rw [List.getElem?_take] at hi
      have := h3 i x (by omega) (by rw [if_pos (by omega)] at hi; exact hi)
      simpa using this
  rw [hf, List.length_take]
  exact ⟨by omega, rfl⟩

/-- The ranges up to an address: all of the earlier buckets, then those of its own. -/
theorem ranges_split {t : Table} (h : GoodCountries t) {a : Nat} (ha : a < 4294967296) {b : List (Nat × Nat)} (hb : t.buckets[a / 16777216]? = some b) :
    (ranges t).filter (fun e => decide (e.1 ≤ a)) = (t.buckets.take (a / 16777216)).flatten ++ b.filter (fun e => decide (e.1 ≤ a)) := by
  obtain ⟨hi, he⟩ := List.getElem?_eq_some_iff.mp hb
  have hd : t.buckets = t.buckets.take (a / 16777216) ++ b :: t.buckets.drop (a / 16777216 + 1) := by
    rw [← he, List.getElem_cons_drop, List.take_append_drop]
  unfold ranges
  conv => lhs; rw [hd]
  rw [List.flatten_append, List.flatten_cons, List.filter_append, List.filter_append]
  have h1 : (t.buckets.take (a / 16777216)).flatten.filter (fun e => decide (e.1 ≤ a)) = (t.buckets.take (a / 16777216)).flatten := by
    apply List.filter_eq_self.mpr
    intro e hm
    obtain ⟨c, hc, hec⟩ := List.mem_flatten.mp hm
    obtain ⟨i, hi'⟩ := List.mem_iff_getElem?.mp hc
    obtain ⟨hlt, _⟩ := List.getElem?_eq_some_iff.mp hi'
    rw [List.length_take] at hlt
    rw [List.getElem?_take, if_pos (by omega)] at hi'
    have := h.place i c hi' e hec
    simp; omega
  have h2 : (t.buckets.drop (a / 16777216 + 1)).flatten.filter (fun e => decide (e.1 ≤ a)) = [] := by
    apply List.filter_eq_nil_iff.mpr
    intro e hm
    obtain ⟨c, hc, hec⟩ := List.mem_flatten.mp hm
    obtain ⟨i, hi'⟩ := List.mem_iff_getElem?.mp hc
    rw [List.getElem?_drop] at hi'
    have := h.place _ c hi' e hec
    simp; omega
  rw [h1, h2, List.append_nil]

/-! ### The file -/

theorem modify_mid {α : Type} (f : α → α) : ∀ (A : List α) (c : α) (B : List α), (A ++ c :: B).modify A.length f = A ++ f c :: B
  | [], c, B => rfl
  | a :: A, c, B => by
    have := modify_mid f A c B
    simpa using this

theorem rangeBytes_load (t : Table) (k : Nat) (e : Nat × Nat) (rest : List UInt8) (h1 : e.1 < 4294967296) (h2 : e.2 < 65536) :
    loadRanges t k (rangeBytes e ++ rest) = (match t.add k e.1 e.2 with | .ok (k', t') => loadRanges t' k' rest | .ub => .ub | .diverge => .diverge) := by
  unfold rangeBytes
  simp only [List.cons_append, List.nil_append, loadRanges, UInt8.toNat_ofNat']
  have e1 : e.1 % 2 ^ 8 + 256 * (e.1 / 256 % 2 ^ 8) + 65536 * (e.1 / 65536 % 2 ^ 8) + 16777216 * (e.1 / 16777216 % 2 ^ 8) = e.1 := by omega
  have e2 : e.2 % 2 ^ 8 + 256 * (e.2 / 256 % 2 ^ 8) = e.2 := by omega
  rw [e1, e2]
  rfl

theorem load_bucket (cs : List (List UInt8)) : ∀ (b cur : List (Nat × Nat)) (A B : List (List (Nat × Nat))) (rest : List UInt8),
    (∀ e ∈ b, e.1 < 4294967296 ∧ e.2 < 17733) →
    loadRanges ⟨cs, A ++ cur :: B⟩ A.length (b.flatMap rangeBytes ++ ascii "EEEEEE" ++ rest) = loadRanges ⟨cs, A ++ (cur ++ b) :: B⟩ (A.length + 1) rest
  | [], cur, A, B, rest, _ => by
    have : ascii "EEEEEE" = rangeBytes (1162167621, 17733) := by decide +kernel
    rw [List.flatMap_nil, List.nil_append, List.append_nil, this, rangeBytes_load _ _ _ _ (by decide) (by decide)]
    simp [Table.add]
  | e :: b, cur, A, B, rest, h => by
    obtain ⟨h1, h2⟩ := h e List.mem_cons_self
    rw [List.flatMap_cons, List.append_assoc, List.append_assoc, rangeBytes_load _ _ _ _ h1 (by omega)]
    have ha : (Table.add ⟨cs, A ++ cur :: B⟩ A.length e.1 e.2) = .ok (A.length, ⟨cs, A ++ (cur ++ [e]) :: B⟩) := by
      unfold Table.add
      rw [if_neg (by omega), if_pos (by simp)]
      congr 3
      exact modify_mid _ A cur B
    rw [ha]
    simp only
    have := load_bucket cs b (cur ++ [e]) A B rest fun x hx => h x (List.mem_cons_of_mem _ hx)
    rw [List.append_assoc] at this
    rw [this]
    simp

theorem load_buckets (cs : List (List UInt8)) : ∀ (bs A B : List (List (Nat × Nat))), B.length = bs.length → (∀ b ∈ B, b = []) →
    (∀ b ∈ bs, ∀ e ∈ b, e.1 < 4294967296 ∧ e.2 < 17733) →
    loadRanges ⟨cs, A ++ B⟩ A.length (bs.flatMap fun b => b.flatMap rangeBytes ++ ascii "EEEEEE") = .ok ⟨cs, A ++ bs⟩
  | [], A, B, hl, _, _ => by
    have : B = [] := List.length_eq_zero_iff.mp hl
    subst this
    rfl
  | b :: bs, A, B, hl, hB, h => by
    match B, hl, hB with
    | c :: B, hl, hB =>
      have hc := hB c List.mem_cons_self
      subst hc
      rw [List.flatMap_cons, load_bucket cs b [] A B _ (h b List.mem_cons_self), List.nil_append]
      have := load_buckets cs bs (A ++ [b]) B (by simpa using hl) (fun x hx => hB x (List.mem_cons_of_mem _ hx)) fun x hx => h x (List.mem_cons_of_mem _ hx)
      simpa using this

theorem splitLine_line : ∀ (c rest : List UInt8), chr '\n' ∉ c → splitLine (c ++ chr '\n' :: rest) = (c, some rest)
  | [], rest, _ => by simp [splitLine]
  | x :: c, rest, h => by
    have hx : x ≠ chr '\n' := fun e => h (by simp [e])
    rw [List.cons_append, splitLine, if_neg hx, splitLine_line c rest fun hm => h (List.mem_cons_of_mem _ hm)]

theorem load_countries (bs : List (List (Nat × Nat))) (rest : List UInt8) : ∀ (cs A : List (List UInt8)) (n : Nat),
    (∀ c ∈ cs, c ≠ [] ∧ chr '\n' ∉ c) → cs.length < n →
    loadCountries ⟨A, bs⟩ n (cs.flatMap (fun c => c ++ [chr '\n']) ++ [chr '\n'] ++ rest) = loadRanges ⟨A ++ cs, bs⟩ 0 rest
  | [], A, n + 1, _, _ => by
    simp [loadCountries, splitLine]
  | c :: cs, A, n + 1, h, hn => by
    obtain ⟨h1, h2⟩ := h c List.mem_cons_self
    have hs := splitLine_line c (cs.flatMap (fun c => c ++ [chr '\n']) ++ [chr '\n'] ++ rest) h2
    have he : (c :: cs).flatMap (fun c => c ++ [chr '\n']) ++ [chr '\n'] ++ rest = c ++ chr '\n' :: (cs.flatMap (fun c => c ++ [chr '\n']) ++ [chr '\n'] ++ rest) := by
      simp
    rw [he, loadCountries, hs]
    match c, h1 with
    | x :: c', _ =>
      simp only
      rw [load_countries bs rest cs _ n (fun y hy => h y (List.mem_cons_of_mem _ hy)) (by simpa using hn)]
      simp

end Verif.Country
