import Verif.Proof.Bencode

namespace Verif.Bencode
open Verif

theorem spanLen_ok {p : UInt8 → Bool} (l : List UInt8) (j : Nat) (c : UInt8) (hj : l[j]? = some c) (hc : p c = false) :
    ∃ n, n ≤ j ∧ spanLen p l = .ok n ∧ (∀ x ∈ l.take n, p x = true) ∧ ∃ d, l[n]? = some d ∧ p d = false := by
  induction l generalizing j with
  | nil => simp at hj
  | cons a l ih =>
    unfold spanLen
    by_cases ha : p a = true
    · rw [if_pos ha]
      cases j with
      | zero => simp only [List.getElem?_cons_zero, Option.some.injEq] at hj; subst hj; rw [hc] at ha; cases ha
      | succ j =>
        simp only [List.getElem?_cons_succ] at hj
        obtain ⟨n, h1, h2, h3, d, h4, h5⟩ := ih j hj
        refine ⟨n + 1, by omega, by rw [h2]; rfl, ?_, d, by simpa using h4, h5⟩
        intro x hx
        simp only [List.take_succ_cons, List.mem_cons] at hx
        rcases hx with rfl | hx
        · exact ha
        · exact h3 x hx
    · rw [if_neg ha]
      exact ⟨0, by omega, rfl, by simp, a, by simp, by simpa using ha⟩

theorem rd_of {α} {l : List α} {i : Nat} {c : α} (h : l[i]? = some c) : rd l i = .ok c := by unfold rd; rw [h]

theorem decVal_lt (ds : List UInt8) (h : ∀ c ∈ ds, isDigit c = true) : decVal ds < 10 ^ ds.length := by
  have key : ∀ (ds : List UInt8) a, (∀ c ∈ ds, isDigit c = true) →
      ds.foldl (fun a c => a * 10 + (c.toNat - 48)) a < (a + 1) * 10 ^ ds.length := by
    intro ds
    induction ds with
    | nil => intro a _; simp
    | cons c ds ih =>
      intro a h
      have hc := h c (by simp)
      unfold isDigit at hc
      simp only [Bool.and_eq_true, decide_eq_true_eq] at hc
      have := ih (a * 10 + (c.toNat - 48)) (fun x hx => h x (by simp [hx]))
      have h2 : (a * 10 + (c.toNat - 48) + 1) * 10 ^ ds.length ≤ ((a + 1) * 10) * 10 ^ ds.length :=
        Nat.mul_le_mul_right _ (by omega)
      simp only [List.foldl_cons, List.length_cons]
      rw [Nat.pow_succ, Nat.mul_comm (10 ^ ds.length) 10, ← Nat.mul_assoc]
      omega
  simpa [decVal] using key ds 0 h

/-- No length prefix in `data` is negative or does not fit an `int`. -/
structure GoodLengths (data : List UInt8) : Prop where
  noMinus : ∀ pre ds post, data = pre ++ chr '-' :: (ds ++ chr ':' :: post) → (∀ c ∈ ds, isDigit c = true) → ds = []
  small : ∀ pre ds post, data = pre ++ (ds ++ chr ':' :: post) → (∀ c ∈ ds, isDigit c = true) → decVal ds < 2147483648

/-- `l[a..a+n)` followed by the byte `c`, as a decomposition. -/
theorem split_at {l : List UInt8} {a n : Nat} {c : UInt8} (h : l[a + n]? = some c) :
    l = l.take a ++ ((l.drop a).take n ++ c :: l.drop (a + n + 1)) := by
  have hlt : a + n < l.length := by
    rcases Nat.lt_or_ge (a + n) l.length with h' | h'
    · exact h'
    · rw [List.getElem?_eq_none h'] at h; cases h
  have hc : l[a + n] = c := by rw [List.getElem?_eq_getElem hlt] at h; exact Option.some.inj h
  have e1 : l.drop (a + n) = c :: l.drop (a + n + 1) := by rw [List.drop_eq_getElem_cons hlt, hc]
  rw [← e1, show l.drop (a + n) = (l.drop a).drop n by rw [List.drop_drop], List.take_append_drop, List.take_append_drop]

theorem nul_facts : isSpace 0 = false ∧ isDigit 0 = false ∧ (0 : UInt8) ≠ chr '-' ∧ (0 : UInt8) ≠ chr '+' ∧ (0 : UInt8) ≠ chr ':' ∧
    (0 : UInt8) ≠ chr 'e' ∧ (0 : UInt8) ≠ chr 'i' ∧ (0 : UInt8) ≠ chr 'l' ∧ (0 : UInt8) ≠ chr 'd' := by decide

section
variable (data rest : List UInt8)

/-- The buffer followed by two NUL bytes. -/
def padded : List UInt8 := data ++ 0 :: 0 :: rest

theorem padded_lt {i : Nat} (h : i < data.length) : (padded data rest)[i]? = data[i]? := by
  unfold padded; rw [List.getElem?_append_left h]
theorem padded_0 : (padded data rest)[data.length]? = some 0 := by
  unfold padded; rw [List.getElem?_append_right (Nat.le_refl _)]; simp
theorem padded_1 : (padded data rest)[data.length + 1]? = some 0 := by
  unfold padded; rw [List.getElem?_append_right (by omega)]; simp
theorem padded_some {i : Nat} (h : i < data.length + 2 + rest.length) : ∃ c, (padded data rest)[i]? = some c := by
  have : i < (padded data rest).length := by unfold padded; simp; omega
  exact ⟨_, List.getElem?_eq_getElem this⟩

variable {data rest}

/-- A non-NUL byte at a position up to the second NUL is inside the buffer. -/
theorem padded_inside {i : Nat} {c : UInt8} (hi : i ≤ data.length + 1) (h : (padded data rest)[i]? = some c) (hc : c ≠ 0) :
    i < data.length ∧ data[i]? = some c := by
  have h0 := padded_0 data rest
  have h1 := padded_1 data rest
  have : i < data.length := by
    rcases Nat.lt_trichotomy i data.length with h' | h' | h'
    · exact h'
    · subst h'; rw [h] at h0; exact absurd (Option.some.inj h0) hc
    · rw [show i = data.length + 1 by omega, h1] at h; exact absurd (Option.some.inj h).symm hc
  exact ⟨this, by rw [← padded_lt data rest this]; exact h⟩

theorem strtol_safe (hg : GoodLengths data) {p : Nat} (hp : p ≤ data.length + 1) :
    ∃ v c, strtol ((padded data rest).drop p) = .ok (v, c) ∧ p + c ≤ data.length + 1 ∧
      ((padded data rest)[p + c]? = some (chr ':') → 0 ≤ toInt32 v) := by
  have hnul : ((padded data rest).drop p)[data.length + 1 - p]? = some 0 := by
    rw [List.getElem?_drop, show p + (data.length + 1 - p) = data.length + 1 by omega]; exact padded_1 data rest
  obtain ⟨w, hw1, hw2, hw3, cw, hw4, hw5⟩ := spanLen_ok (p := isSpace) _ _ _ hnul nul_facts.1
  have hcw : (padded data rest)[p + w]? = some cw := by rw [List.getElem?_drop] at hw4; exact hw4
  unfold strtol
  rw [hw2, Res.bind_ok, rd_of hw4, Res.bind_ok]
  generalize hs : (if cw = chr '-' ∨ cw = chr '+' then 1 else 0) = s
  have hps : p + w + s ≤ data.length + 1 := by
    by_cases hsign : cw = chr '-' ∨ cw = chr '+'
    · have hne : cw ≠ 0 := by rcases hsign with h | h <;> rw [h] <;> decide
      have := (padded_inside (by omega) hcw hne).1
      rw [if_pos hsign] at hs; omega
    · rw [if_neg hsign] at hs; omega
  have hnul2 : (((padded data rest).drop p).drop (w + s))[data.length + 1 - (p + w + s)]? = some 0 := by
    rw [List.drop_drop, List.getElem?_drop, show p + (w + s) + (data.length + 1 - (p + w + s)) = data.length + 1 by omega]
    exact padded_1 data rest
  obtain ⟨d, hd1, hd2, hd3, cd, hd4, hd5⟩ := spanLen_ok (p := isDigit) _ _ _ hnul2 nul_facts.2.1
  simp only
  rw [hd2, Res.bind_ok]
  by_cases h0 : d = 0
  · rw [if_pos h0]
    exact ⟨0, 0, rfl, by omega, fun _ => by decide⟩
  · rw [if_neg h0]
    refine ⟨_, _, rfl, by omega, ?_⟩
    intro hcol
    have hin := padded_inside (i := p + (w + s + d)) (by omega) hcol (by decide)
    have hcol' : data[p + (w + s) + d]? = some (chr ':') := by rw [show p + (w + s) + d = p + (w + s + d) by omega]; exact hin.2
    have hsplit := split_at hcol'
    have hseg : ((padded data rest).drop p |>.drop (w + s)).take d = (data.drop (p + (w + s))).take d := by
      rw [List.drop_drop]; unfold padded
      rw [List.drop_append_of_le_length (by omega), List.take_append_of_le_length (by simp; omega)]
    rw [hseg] at hd3 ⊢
    have hsm := hg.small _ _ _ hsplit hd3
    have hnm : cw ≠ chr '-' := by
      intro hcm
      have hs1 : s = 1 := by rw [← hs, if_pos (.inl hcm)]
      have hin2 := padded_inside (i := p + w) (by omega) hcw (by rw [hcm]; decide)
      have e1 := hg.noMinus (data.take (p + w)) ((data.drop (p + (w + s))).take d) (data.drop (p + (w + s) + d + 1)) (by
        have e2 := split_at (a := p + w) (n := 0) (c := cw) hin2.2
        simp only [List.take_zero, List.nil_append] at e2
        rw [hcm] at e2
        have e3 : data.drop (p + w + 0 + 1) = (data.drop (p + (w + s))).take d ++ chr ':' :: data.drop (p + (w + s) + d + 1) := by
          rw [show p + w + 0 + 1 = p + (w + s) by omega]
          have := split_at (l := data.drop (p + (w + s))) (a := 0) (n := d) (c := chr ':') (by
            rw [List.getElem?_drop, Nat.zero_add]; exact hcol')
          simpa [List.drop_drop, Nat.add_assoc] using this
        rw [← e3]; exact e2) hd3
      have := congrArg List.length e1
      simp at this; omega
    rw [if_neg hnm]
    generalize decVal ((data.drop (p + (w + s))).take d) = v at hsm ⊢
    unfold toInt32; omega

/-- Position and object count after parsing something from position `p`. -/
structure After (L p : Nat) (s : PSt) : Prop where
  bound : s.pos + p ≤ 2 * L + 2
  mono : min p L ≤ s.pos
  objs : s.objs.length ≤ s.pos ∧ s.objs.length ≤ L

theorem parseString_safe (hg : GoodLengths data) (s : PSt) (hp : s.pos ≤ data.length + 1)
    (ho : s.objs.length ≤ s.pos ∧ s.objs.length ≤ data.length) :
    ∃ r, parseString ⟨padded data rest, data.length⟩ s = .ok r ∧
      ((r.1 = none ∧ r.2 = ⟨data.length, s.objs⟩) ∨
       (s.pos < data.length ∧ r.1 = some s.objs.length ∧ s.pos < r.2.pos ∧ r.2.pos ≤ data.length + 1 ∧
        r.2.objs.length = s.objs.length + 1)) := by
  obtain ⟨v, c, h1, h2, h3⟩ := strtol_safe (rest := rest) hg hp
  obtain ⟨ch, hch⟩ := padded_some data rest (i := s.pos + c) (by omega)
  unfold parseString
  rw [h1, Res.bind_ok, rd_of hch, Res.bind_ok]
  unfold textAt
  by_cases hbad : ch ≠ chr ':' ∨ ((data.length : Nat) : Int) - ((s.pos + c : Nat) : Int) < toInt32 v
  · rw [if_pos hbad]
    exact ⟨_, rfl, .inl ⟨rfl, rfl⟩⟩
  · rw [if_neg hbad]
    have hch' : ch = chr ':' := by
      by_cases h : ch = chr ':'
      · exact h
      · exact absurd (.inl h) hbad
    have hle : ¬ ((data.length : Nat) : Int) - ((s.pos + c : Nat) : Int) < toInt32 v := fun h => hbad (.inr h)
    have hnn := h3 (by rw [hch, hch'])
    have hin := padded_inside (i := s.pos + c) (by omega) hch (by rw [hch']; decide)
    simp only
    rw [if_neg (by omega)]
    refine ⟨_, rfl, .inr ⟨by omega, rfl, ?_, ?_, by simp⟩⟩
    · simp only; omega
    · simp only; omega

theorem intLoop_safe (l : List UInt8) (p size : Nat) (bodyEnd j : Nat) (hj : l[j]? = some 0) (hp : p + j = bodyEnd) :
    ∃ q z, intLoop bodyEnd l p size = .ok (q, z) ∧ p ≤ q ∧ q ≤ bodyEnd := by
  induction l generalizing p size j with
  | nil => simp at hj
  | cons c l ih =>
    unfold intLoop
    by_cases h : ((isDigit c || (c == chr '-' && size == 0)) && p != bodyEnd) = true
    · rw [if_pos h]
      simp only [Bool.and_eq_true, bne_iff_ne] at h
      cases j with
      | zero => exact absurd hp h.2
      | succ j =>
        obtain ⟨q, z, h1, h2, h3⟩ := ih (p + 1) (size + 1) j (by simpa using hj) (by omega)
        exact ⟨q, z, h1, by omega, h3⟩
    · rw [if_neg h]
      exact ⟨p, size, rfl, Nat.le_refl _, by omega⟩

theorem parseInt_safe (s : PSt) (hp : s.pos < data.length) :
    ∃ r, parseInt ⟨padded data rest, data.length⟩ s = .ok r ∧
      ((r.1 = none ∧ r.2 = ⟨data.length, s.objs⟩) ∨
       (r.1 = some s.objs.length ∧ s.pos < r.2.pos ∧ r.2.pos ≤ data.length + 1 ∧ r.2.objs.length = s.objs.length + 1)) := by
  obtain ⟨q, z, h1, h2, h3⟩ := intLoop_safe ((padded data rest).drop (s.pos + 1)) (s.pos + 1) 0 data.length
    (data.length - (s.pos + 1)) (by rw [List.getElem?_drop, show s.pos + 1 + (data.length - (s.pos + 1)) = data.length by omega]
                                    exact padded_0 data rest) (by omega)
  obtain ⟨ch, hch⟩ := padded_some data rest (i := q) (by omega)
  unfold parseInt
  rw [h1, Res.bind_ok, rd_of hch, Res.bind_ok]
  by_cases hne : ch ≠ chr 'e'
  · rw [if_pos hne]; exact ⟨_, rfl, .inl ⟨rfl, rfl⟩⟩
  · rw [if_neg hne]; exact ⟨_, rfl, .inr ⟨rfl, by simp only; omega, by simp only; omega, by simp⟩⟩

theorem notEnd_safe {p : Nat} (h : p < data.length + 2 + rest.length) :
    ∃ b, notEnd ⟨padded data rest, data.length⟩ p = .ok b ∧ (b = true → p < data.length) := by
  obtain ⟨c, hc⟩ := padded_some data rest h
  unfold notEnd
  rw [rd_of hc, Res.bind_ok]
  refine ⟨_, rfl, ?_⟩
  intro hb
  simp only [Bool.and_eq_true, decide_eq_true_eq] at hb
  exact hb.2

theorem setNext_length (objs : List Obj) (k n : Nat) : (setNext objs k n).length = objs.length := by
  unfold setNext; simp

theorem finish_safe {s : PSt} {L root count : Nat} (hL : L = data.length) (h : s.pos + 1 < data.length + 2 + rest.length)
    (ho : s.objs.length ≤ s.pos ∧ s.objs.length ≤ L) :
    ∃ r, finish ⟨padded data rest, data.length⟩ root count s = .ok r ∧ r.1 = some root ∧ r.2.pos = s.pos + 1 ∧
      r.2.objs.length ≤ r.2.pos ∧ r.2.objs.length ≤ L := by
  obtain ⟨b, hb, _⟩ := notEnd_safe (rest := rest) h
  unfold finish
  rw [hb, Res.bind_ok]
  exact ⟨_, rfl, rfl, rfl, by simp only [List.length_modify]; omega, by simp only [List.length_modify]; omega⟩

theorem safe_all (hg : GoodLengths data) (hL : data.length < 65536) (hr : data.length + 1 ≤ rest.length) (n : Nat) :
    (∀ s : PSt, s.pos ≤ data.length + 1 → (s.objs.length ≤ s.pos ∧ s.objs.length ≤ data.length) →
      2 * (data.length + 1 - s.pos) + 1 ≤ n →
      ∃ r, internalParse ⟨padded data rest, data.length⟩ n s = .ok r ∧ After data.length (min s.pos data.length) r.2 ∧
        (r.1 = none → r.2.pos = data.length) ∧ (r.1 ≠ none → s.pos < r.2.pos ∧ s.pos < data.length)) ∧
    (∀ (s : PSt) count, s.pos ≤ data.length + 1 → (s.objs.length ≤ s.pos ∧ s.objs.length ≤ data.length) →
      2 * (data.length + 1 - s.pos) + 2 ≤ n →
      (∃ r, listLoop ⟨padded data rest, data.length⟩ n count s = .ok r ∧ After data.length s.pos r.2) ∧
      (∃ r, dictLoop ⟨padded data rest, data.length⟩ n count s = .ok r ∧ After data.length s.pos r.2)) ∧
    (∀ (s : PSt) count, data.length ≤ s.pos → s.pos < data.length + 2 + rest.length → 1 ≤ n →
      listLoop ⟨padded data rest, data.length⟩ n count s = .ok (count, s) ∧
      dictLoop ⟨padded data rest, data.length⟩ n count s = .ok (count, s)) := by
  induction n with
  | zero => refine ⟨?_, ?_, ?_⟩ <;> intros <;> omega
  | succ n ih =>
    obtain ⟨ih1, ih2, ih3⟩ := ih
    refine ⟨?_, ?_, ?_⟩
    · intro s hp ho hn
      obtain ⟨c, hc⟩ := padded_some data rest (i := s.pos) (by omega)
      unfold internalParse
      rw [rd_of hc, Res.bind_ok]
      by_cases hc0 : c = 0
      · subst hc0
        rw [if_neg (by decide), if_neg (by decide), if_neg (by decide), if_neg (by decide)]
        exact ⟨_, rfl, ⟨by simp only; omega, by simp only; omega, by simp only; omega⟩, fun _ => rfl, fun h => absurd rfl h⟩
      · have hin := (padded_inside hp hc hc0).1
        by_cases hd : isDigit c = true
        · rw [if_pos hd]
          obtain ⟨r, h1, h2⟩ := parseString_safe (rest := rest) hg s hp ho
          refine ⟨r, h1, ?_⟩
          rcases h2 with ⟨h2, h3⟩ | ⟨h2, h3, h4, h5, h6⟩
          · rw [h3]; exact ⟨⟨by simp only; omega, by simp only; omega, by simp only; omega⟩, fun _ => rfl, fun h => absurd h2 h⟩
          · exact ⟨⟨by omega, by omega, by omega⟩, (by rw [h3]; intro h; cases h), fun _ => ⟨h4, hin⟩⟩
        · rw [if_neg hd]
          by_cases hi : c = chr 'i'
          · rw [if_pos hi]
            obtain ⟨r, h1, h2⟩ := parseInt_safe (rest := rest) s hin
            refine ⟨r, h1, ?_⟩
            rcases h2 with ⟨h2, h3⟩ | ⟨h3, h4, h5, h6⟩
            · rw [h3]; exact ⟨⟨by simp only; omega, by simp only; omega, by simp only; omega⟩, fun _ => rfl, fun h => absurd h2 h⟩
            · exact ⟨⟨by omega, by omega, by omega⟩, (by rw [h3]; intro h; cases h), fun _ => ⟨h4, hin⟩⟩
          · rw [if_neg hi]
            by_cases hl : c = chr 'l'
            · rw [if_pos hl]
              obtain ⟨r, h1, h2⟩ := (ih2 ⟨s.pos + 1, s.objs ++ [{ type := .list }]⟩ 0 (by simp only; omega) (by simp; omega) (by simp only; omega)).1
              have hb := h2.bound
              simp only at hb
              rw [h1, Res.bind_ok]
              obtain ⟨r', h3, h4, h5, h6, h7⟩ := finish_safe (rest := rest) (s := r.2) (root := s.objs.length) (count := r.1) rfl (by omega) h2.objs
              have := h2.mono
              simp only at this
              exact ⟨r', h3, ⟨by omega, by omega, by omega⟩, (by rw [h4]; intro h; cases h), fun _ => ⟨by omega, hin⟩⟩
            · rw [if_neg hl]
              by_cases hdd : c = chr 'd'
              · rw [if_pos hdd]
                obtain ⟨r, h1, h2⟩ := (ih2 ⟨s.pos + 1, s.objs ++ [{ type := .dictionary }]⟩ 0 (by simp only; omega) (by simp; omega) (by simp only; omega)).2
                have hb := h2.bound
                have := h2.mono
                simp only at hb this
                rw [h1, Res.bind_ok]
                obtain ⟨r', h3, h4, h5, h6, h7⟩ := finish_safe (rest := rest) (s := r.2) (root := s.objs.length) (count := r.1) rfl (by omega) h2.objs
                exact ⟨r', h3, ⟨by omega, by omega, by omega⟩, (by rw [h4]; intro h; cases h), fun _ => ⟨by omega, hin⟩⟩
              · rw [if_neg hdd]
                exact ⟨_, rfl, ⟨by simp only; omega, by simp only; omega, by simp only; omega⟩, fun _ => rfl, fun h => absurd rfl h⟩
    · intro s count hp ho hn
      obtain ⟨b, hb, hbt⟩ := notEnd_safe (rest := rest) (p := s.pos) (by omega)
      -- the rest of a loop after an element
      have cont : ∀ (s' : PSt) (count' : Nat), s.pos < s'.pos → s.pos < data.length → s'.pos + s.pos ≤ 2 * data.length + 2 →
          (s'.objs.length ≤ s'.pos ∧ s'.objs.length ≤ data.length) →
          (∃ r, listLoop ⟨padded data rest, data.length⟩ n count' s' = .ok r ∧ After data.length s.pos r.2) ∧
          (∃ r, dictLoop ⟨padded data rest, data.length⟩ n count' s' = .ok r ∧ After data.length s.pos r.2) := by
        intro s' count' h1 h1' h2 h3
        by_cases hle : s'.pos ≤ data.length + 1
        · obtain ⟨⟨r1, a1, b1⟩, r2, a2, b2⟩ := ih2 s' count' hle h3 (by omega)
          have := b1.bound; have := b1.mono; have := b2.bound; have := b2.mono
          exact ⟨⟨r1, a1, by omega, by omega, b1.objs⟩, r2, a2, by omega, by omega, b2.objs⟩
        · obtain ⟨a1, a2⟩ := ih3 s' count' (by omega) (by omega) (by omega)
          exact ⟨⟨_, a1, by simp only; omega, by simp only; omega, h3⟩, _, a2, by simp only; omega, by simp only; omega, h3⟩
      have err : ∀ (s' : PSt) (count' : Nat), s'.pos = data.length → s.pos < data.length →
          (s'.objs.length ≤ s'.pos ∧ s'.objs.length ≤ data.length) →
          (∃ r, listLoop ⟨padded data rest, data.length⟩ n count' s' = .ok r ∧ After data.length s.pos r.2) ∧
          (∃ r, dictLoop ⟨padded data rest, data.length⟩ n count' s' = .ok r ∧ After data.length s.pos r.2) :=
        fun s' count' h1 h2 h3 => cont s' count' (by omega) h2 (by omega) h3
      constructor
      · unfold listLoop
        rw [hb, Res.bind_ok]
        by_cases hbb : b = true
        · rw [if_pos hbb]
          have hlt := hbt hbb
          obtain ⟨r, h1, h2, h3, h4⟩ := ih1 s hp ho (by omega)
          have hbd := h2.bound
          rw [h1, Res.bind_ok]
          obtain ⟨o, s'⟩ := r
          cases o with
          | none => exact (err s' count (h3 rfl) hlt h2.objs).1
          | some k =>
            simp only at hbd h4 ⊢
            obtain ⟨ne, hne, _⟩ := notEnd_safe (data := data) (rest := rest) (p := s'.pos) (by omega)
            rw [hne, Res.bind_ok]
            exact (cont ⟨s'.pos, setNext s'.objs k _⟩ (count + 1) (h4 (by simp)).1 hlt (by simp only; omega)
              (by simp only [setNext_length]; exact h2.objs)).1
        · rw [if_neg hbb]
          exact ⟨_, rfl, by simp only; omega, by simp only; omega, ho⟩
      · unfold dictLoop
        rw [hb, Res.bind_ok]
        by_cases hbb : b = true
        · rw [if_pos hbb]
          have hlt := hbt hbb
          obtain ⟨rk, hk1, hk2⟩ := parseString_safe (rest := rest) hg s hp ho
          rw [hk1, Res.bind_ok]
          rcases hk2 with ⟨hk2, hk3⟩ | ⟨_, hk3, hk4, hk5, hk6⟩
          · obtain ⟨o, s'⟩ := rk
            simp only at hk2 hk3
            subst hk2 hk3
            exact (err _ count rfl hlt (by simp only; omega)).2
          · obtain ⟨o, s'⟩ := rk
            simp only at hk3 hk4 hk5 hk6
            subst hk3
            simp only
            obtain ⟨r, h1, h2, h3, h4⟩ := ih1 s' hk5 (by omega) (by omega)
            have hbd := h2.bound
            rw [h1, Res.bind_ok]
            obtain ⟨o2, s2⟩ := r
            cases o2 with
            | none => exact (err s2 0 (h3 rfl) hlt h2.objs).2
            | some k =>
              simp only at hbd h4 ⊢
              have h4' := h4 (by simp)
              rw [if_neg (by omega)]
              obtain ⟨ne, hne, _⟩ := notEnd_safe (data := data) (rest := rest) (p := s2.pos) (by omega)
              rw [hne, Res.bind_ok]
              exact (cont ⟨s2.pos, setNext (setNext s2.objs _ _) k _⟩ (count + 1) (by simp only; omega) hlt (by simp only; omega)
                (by simp only [setNext_length]; exact h2.objs)).2
        · rw [if_neg hbb]
          exact ⟨_, rfl, by simp only; omega, by simp only; omega, ho⟩
    · intro s count h1 h2 _
      obtain ⟨b, hb, hbt⟩ := notEnd_safe (rest := rest) (p := s.pos) h2
      have hbf : b = false := by
        cases b with
        | true => have := hbt rfl; omega
        | false => rfl
      subst hbf
      constructor
      · unfold listLoop; rw [hb]; rfl
      · unfold dictLoop; rw [hb]; rfl
end

end Verif.Bencode
