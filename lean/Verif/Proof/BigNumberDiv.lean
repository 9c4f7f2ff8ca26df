import Verif.Proof.BigNumber
import Mathlib.Tactic.NormNum
/-! Big numbers: division. -/

namespace Verif.BigNum
open Verif

theorem take_val_lt {l : List Nat} (n : Nat) (h : Digs l) : val (l.take n) < base ^ n := by
  have h1 := val_lt (digs_take n h)
  have h2 : base ^ (l.take n).length ≤ base ^ n := Nat.pow_le_pow_right base_pos (by rw [List.length_take]; omega)
  omega

theorem compare_ok {a b : List Nat} (ha : Digs a) (hb : Digs b) (n : Nat) (hn : n ≤ max a.length b.length) :
    ∃ c, compare a b n = .ok c ∧ (c = -1 ↔ val (a.take n) < val (b.take n)) := by
  induction n with
  | zero => exact ⟨0, rfl, by simp [val]⟩
  | succ n ih =>
    obtain ⟨c, e1, e2⟩ := ih (by omega)
    have la := take_val_lt n ha
    have lb := take_val_lt n hb
    by_cases h1 : a.length ≤ n
    · have h2 : n < b.length := by omega
      have ht : a.take (n + 1) = a.take n := by rw [List.take_of_length_le h1, List.take_of_length_le (by omega)]
      have hv := take_succ_val h2
      simp only [compare, if_pos h1, rd_eq_ok h2, Res.bind_ok]
      by_cases h0 : b[n] = 0
      · refine ⟨c, by simp [h0, e1], ?_⟩
        rw [ht, hv, h0, Nat.zero_mul, Nat.add_zero, e2]
      · refine ⟨-1, by simp [h0], ?_⟩
        have : base ^ n ≤ b[n] * base ^ n := Nat.le_mul_of_pos_left _ (by omega)
        rw [ht, hv]
        simp only [true_iff]
        omega
    · have h1' : n < a.length := by omega
      have hva := take_succ_val h1'
      by_cases h2 : b.length ≤ n
      · have ht : b.take (n + 1) = b.take n := by rw [List.take_of_length_le h2, List.take_of_length_le (by omega)]
        simp only [compare, if_neg h1, if_pos h2, rd_eq_ok h1', Res.bind_ok]
        by_cases h0 : a[n] = 0
        · refine ⟨c, by simp [h0, e1], ?_⟩
          rw [ht, hva, h0, Nat.zero_mul, Nat.add_zero, e2]
        · refine ⟨1, by simp [h0], ?_⟩
          have : base ^ n ≤ a[n] * base ^ n := Nat.le_mul_of_pos_left _ (by omega)
          rw [ht, hva]
          omega
      · have h2' : n < b.length := by omega
        have hvb := take_succ_val h2'
        simp only [compare, if_neg h1, if_neg h2, rd_eq_ok h1', rd_eq_ok h2', Res.bind_ok]
        rw [hva, hvb]
        rcases Nat.lt_trichotomy a[n] b[n] with h | h | h
        · refine ⟨-1, by simp [h], ?_⟩
          have : (a[n] + 1) * base ^ n ≤ b[n] * base ^ n := Nat.mul_le_mul_right _ h
          rw [Nat.succ_mul] at this
          simp only [true_iff]
          omega
        · refine ⟨c, by simp [h, e1], ?_⟩
          rw [h, e2]; omega
        · refine ⟨1, by simp [h, Nat.not_lt.mpr (Nat.le_of_lt h)], ?_⟩
          have : (b[n] + 1) * base ^ n ≤ a[n] * base ^ n := Nat.mul_le_mul_right _ h
          rw [Nat.succ_mul] at this
          omega

/-! Normalisation. -/

theorem and_mask {v : Nat} (s : Nat) (hv : v < 2 ^ (2 * s)) : v &&& (2 ^ (2 * s) - 2 ^ s) ≠ 0 ↔ 2 ^ s ≤ v := by
  have h1 : 2 ^ (2 * s) - 2 ^ s = (2 ^ s - 1) <<< s := by
    rw [Nat.shiftLeft_eq, Nat.sub_mul, Nat.one_mul, Nat.two_mul, pow_add]
  have h2 : v &&& (2 ^ s - 1) <<< s = (v / 2 ^ s) <<< s := by
    apply Nat.eq_of_testBit_eq
    intro i
    simp only [Nat.testBit_and, Nat.testBit_shiftLeft, Nat.testBit_two_pow_sub_one]
    by_cases hi : s ≤ i
    · simp only [hi, decide_true, Bool.true_and]
      rw [← Nat.shiftRight_eq_div_pow, Nat.testBit_shiftRight, Nat.add_sub_cancel' hi]
      by_cases h3 : i - s < s
      · simp [h3]
      · have : v.testBit i = false := Nat.testBit_lt_two_pow (Nat.lt_of_lt_of_le hv (Nat.pow_le_pow_right (by decide) (by omega)))
        simp [this]
    · simp [hi]
  rw [h1, h2, Nat.shiftLeft_eq]
  have hp : 0 < 2 ^ s := by positivity
  rw [Nat.ne_zero_iff_zero_lt, Nat.mul_pos_iff_of_pos_right hp, Nat.div_pos_iff]
  exact ⟨fun h => h.2, fun h => ⟨hp, h⟩⟩

/-- One round: if the position found so far has room for `s` and the rest is below `2 ^ (2 * s)`, so it is after. -/
theorem msbRound_ok {v0 v r s e : Nat} (hs : s = 2 ^ e) (hv : v < 2 ^ (2 * s)) (hv0 : v ≠ 0) (hr : v = v0 / 2 ^ r) (hm : 2 * s ∣ r) :
    ∃ v' r', msbRound (2 ^ (2 * s) - 2 ^ s) s (v, r) = (v', r') ∧ v' < 2 ^ s ∧ v' ≠ 0 ∧ v' = v0 / 2 ^ r' ∧ s ∣ r' := by
  unfold msbRound
  by_cases h : 2 ^ s ≤ v
  · refine ⟨v >>> s, r ||| s, by simp only [(and_mask s hv).mpr h, ne_eq, not_false_eq_true, if_true], ?_, ?_, ?_, ?_⟩
    · rw [Nat.shiftRight_eq_div_pow]
      exact Nat.div_lt_of_lt_mul (by rwa [← pow_add, ← Nat.two_mul])
    · rw [Nat.shiftRight_eq_div_pow]
      have := Nat.div_pos h (by positivity)
      omega
    · have hor : r ||| s = r + s := by
        obtain ⟨t, rfl⟩ := hm
        have := Nat.shiftLeft_add_eq_or_of_lt (b := s) (i := e + 1) (by rw [hs, pow_succ]; have : 0 < 2 ^ e := by positivity
                                                                        omega) t
        rw [Nat.shiftLeft_eq] at this
        rw [show 2 * s * t = t * 2 ^ (e + 1) by rw [hs, pow_succ]; ring]
        exact this.symm
      rw [hor, Nat.shiftRight_eq_div_pow, hr, Nat.div_div_eq_div_mul, pow_add]
    · have hor : r ||| s = r + s := by
        obtain ⟨t, rfl⟩ := hm
        have := Nat.shiftLeft_add_eq_or_of_lt (b := s) (i := e + 1) (by rw [hs, pow_succ]; have : 0 < 2 ^ e := by positivity
                                                                        omega) t
        rw [Nat.shiftLeft_eq] at this
        rw [show 2 * s * t = t * 2 ^ (e + 1) by rw [hs, pow_succ]; ring]
        exact this.symm
      rw [hor]
      exact Nat.dvd_add (Nat.dvd_trans (Nat.dvd_mul_left s 2) hm) (Nat.dvd_refl s)
  · refine ⟨v, r, ?_, by omega, hv0, hr, Nat.dvd_trans (Nat.dvd_mul_left s 2) hm⟩
    have := mt (and_mask s hv).mp h
    simp only [ne_eq, not_not] at this
    simp [this]

theorem msbPos_ok {v : Nat} (h0 : v ≠ 0) (hv : v < base) : 2 ^ msbPos v ≤ v ∧ v < 2 ^ (msbPos v + 1) := by
  obtain ⟨v1, r1, e1, a1, b1, c1, d1⟩ := msbRound_ok (v0 := v) (r := 0) (s := 32) (e := 5) rfl (by unfold base at hv; norm_num; omega) h0 (by simp) (by simp)
  obtain ⟨v2, r2, e2, a2, b2, c2, d2⟩ := msbRound_ok (s := 16) (e := 4) rfl a1 b1 c1 d1
  obtain ⟨v3, r3, e3, a3, b3, c3, d3⟩ := msbRound_ok (s := 8) (e := 3) rfl a2 b2 c2 d2
  obtain ⟨v4, r4, e4, a4, b4, c4, d4⟩ := msbRound_ok (s := 4) (e := 2) rfl a3 b3 c3 d3
  obtain ⟨v5, r5, e5, a5, b5, c5, d5⟩ := msbRound_ok (s := 2) (e := 1) rfl a4 b4 c4 d4
  obtain ⟨v6, r6, e6, a6, b6, c6, d6⟩ := msbRound_ok (s := 1) (e := 0) rfl a5 b5 c5 d5
  have hm : msbPos v = r6 := by
    norm_num at e1 e2 e3 e4 e5 e6
    simp only [msbPos, e1, e2, e3, e4, e5, e6]
  rw [hm]
  have hp : 0 < 2 ^ r6 := by positivity
  have h1 : v6 = 1 := by omega
  rw [h1] at c6
  refine ⟨?_, ?_⟩
  · by_contra hc
    rw [Nat.div_eq_of_lt (by omega)] at c6
    omega
  · rw [pow_succ]
    by_contra hc
    have : 2 ≤ v / 2 ^ r6 := (Nat.le_div_iff_mul_le hp).mpr (by omega)
    omega

/-! Shifts. -/

theorem shl_digit {s d prev : Nat} (h0 : 0 < s) (hs : s < 64) (hp : prev < base) :
    lo (d <<< s) ||| prev >>> (64 - s) = lo (d * 2 ^ s) + prev / 2 ^ (64 - s) ∧ prev / 2 ^ (64 - s) < 2 ^ s := by
  have hb : base = 2 ^ (64 - s) * 2 ^ s := by rw [← pow_add, show 64 - s + s = 64 by omega]; rfl
  have h1 : prev / 2 ^ (64 - s) < 2 ^ s := Nat.div_lt_of_lt_mul (by rwa [← hb])
  refine ⟨?_, h1⟩
  have h2 : lo (d * 2 ^ s) = (d % 2 ^ (64 - s)) <<< s := by
    unfold lo
    rw [hb, Nat.mul_mod_mul_right, Nat.shiftLeft_eq]
  rw [Nat.shiftLeft_eq, Nat.shiftRight_eq_div_pow, h2, Nat.shiftLeft_add_eq_or_of_lt h1]

theorem lo_shl {s : Nat} (hs : s < 64) (d : Nat) : lo (d * 2 ^ s) + base * (d / 2 ^ (64 - s)) = d * 2 ^ s := by
  have hb : base = 2 ^ (64 - s) * 2 ^ s := by rw [← pow_add, show 64 - s + s = 64 by omega]; rfl
  have := lo_add (d * 2 ^ s)
  have h2 : d * 2 ^ s / base = d / 2 ^ (64 - s) := by rw [hb, Nat.mul_div_mul_right _ _ (by positivity)]
  rwa [h2] at this

theorem shl_ok {s : Nat} (h0 : 0 < s) (hs : s < 64) (l : List Nat) (prev : Nat) (hl : Digs l) (hp : prev < base) :
    (shl s prev l).length = l.length + 1 ∧ Digs (shl s prev l) ∧ val (shl s prev l) = val l * 2 ^ s + prev / 2 ^ (64 - s) := by
  induction l generalizing prev with
  | nil =>
    have h1 : prev / 2 ^ (64 - s) ≤ prev := Nat.div_le_self _ _
    refine ⟨rfl, ?_, ?_⟩
    · intro d hd
      simp only [shl, List.mem_singleton] at hd
      rw [hd, Nat.shiftRight_eq_div_pow]
      omega
    · simp [shl, val, Nat.shiftRight_eq_div_pow]
  | cons d l ih =>
    obtain ⟨e1, e2, e3⟩ := ih d (fun x hx => hl x (by simp [hx])) (hl d (by simp))
    obtain ⟨f1, f2⟩ := shl_digit (d := d) h0 hs hp
    have hb : base = 2 ^ (64 - s) * 2 ^ s := by rw [← pow_add, show 64 - s + s = 64 by omega]; rfl
    refine ⟨by simp [shl, e1], ?_, ?_⟩
    · intro x hx
      rcases List.mem_cons.mp hx with rfl | hx
      · rw [f1]
        have h2 : lo (d * 2 ^ s) = (d % 2 ^ (64 - s)) * 2 ^ s := by
          unfold lo
          rw [hb, Nat.mul_mod_mul_right]
        have h3 : d % 2 ^ (64 - s) + 1 ≤ 2 ^ (64 - s) := Nat.mod_lt _ (by positivity)
        have h4 := Nat.mul_le_mul_right (2 ^ s) h3
        rw [Nat.succ_mul] at h4
        omega
      · exact e2 x hx
    · rw [shl, val, f1, e3, val]
      have := lo_shl hs d
      generalize lo (d * 2 ^ s) = x at *
      rw [Nat.mul_add, Nat.add_mul, ← this]
      ring

theorem shiftLeft_ok {l : List Nat} {s : Nat} (hs : s < 64) (hl : Digs l) :
    (shiftLeft l s).length = l.length + 1 ∧ Digs (shiftLeft l s) ∧ val (shiftLeft l s) = val l * 2 ^ s := by
  unfold shiftLeft
  split
  · rename_i h; subst h
    refine ⟨by simp, ?_, by simp [val_append, val]⟩
    intro d hd
    rcases List.mem_append.mp hd with h | h
    · exact hl d h
    · rw [List.mem_singleton.mp h]; exact base_pos
  · have := shl_ok (by omega) hs l 0 hl base_pos
    simpa using this

theorem shr_digit {s d d' : Nat} (h0 : 0 < s) (hs : s < 64) (hd : d < base) :
    d >>> s ||| lo (d' <<< (64 - s)) = d / 2 ^ s + lo (d' * 2 ^ (64 - s)) := by
  have := (shl_digit (s := 64 - s) (d := d') (prev := d) (by omega) (by omega) hd).1
  rw [show 64 - (64 - s) = s by omega] at this
  rw [Nat.or_comm, this, Nat.add_comm]

theorem shr_ok {s : Nat} (h0 : 0 < s) (hs : s < 64) (l : List Nat) (hl : Digs l) :
    (shr s l).length = l.length ∧ Digs (shr s l) ∧ val (shr s l) = val l / 2 ^ s := by
  have hb : base = 2 ^ (64 - s) * 2 ^ s := by rw [← pow_add, show 64 - s + s = 64 by omega]; rfl
  have hp : 0 < 2 ^ s := by positivity
  induction l with
  | nil => exact ⟨rfl, hl, by simp [shr, val]⟩
  | cons d l ih =>
    have hd := hl d (by simp)
    obtain ⟨e1, e2, e3⟩ := ih fun x hx => hl x (by simp [hx])
    cases l with
    | nil =>
      have h1 : d / 2 ^ s ≤ d := Nat.div_le_self _ _
      refine ⟨rfl, ?_, by simp [shr, val, Nat.shiftRight_eq_div_pow]⟩
      intro x hx
      simp only [shr, List.mem_singleton] at hx
      rw [hx, Nat.shiftRight_eq_div_pow]; omega
    | cons d' l =>
      have f1 := shr_digit (d' := d') h0 hs hd
      have h2 : lo (d' * 2 ^ (64 - s)) = (d' % 2 ^ s) * 2 ^ (64 - s) := by
        unfold lo
        rw [hb, Nat.mul_comm (2 ^ (64 - s)), Nat.mul_mod_mul_right]
      refine ⟨by simp only [shr, List.length_cons, e1], ?_, ?_⟩
      · intro x hx
        simp only [shr] at hx
        rcases List.mem_cons.mp hx with rfl | hx
        · rw [f1, h2]
          have h1 : d / 2 ^ s < 2 ^ (64 - s) := Nat.div_lt_of_lt_mul (by rwa [Nat.mul_comm, ← hb])
          have h3 : d' % 2 ^ s + 1 ≤ 2 ^ s := Nat.mod_lt _ hp
          have h4 := Nat.mul_le_mul_right (2 ^ (64 - s)) h3
          rw [Nat.succ_mul, Nat.mul_comm (2 ^ s), ← hb] at h4
          omega
        · exact e2 x hx
      · rw [shr, val, f1, e3, h2]
        show _ = (d + base * val (d' :: l)) / 2 ^ s
        have h5 : base * val (d' :: l) = 2 ^ s * (2 ^ (64 - s) * val (d' :: l)) := by rw [hb]; ring
        rw [h5, Nat.add_mul_div_left _ _ hp, Nat.add_assoc]
        congr 1
        have h6 : val (d' :: l) % 2 ^ s = d' % 2 ^ s := by
          rw [val, hb, show 2 ^ (64 - s) * 2 ^ s * val l = 2 ^ s * (2 ^ (64 - s) * val l) by ring, Nat.add_mul_mod_self_left]
        have h7 := Nat.mod_add_div (val (d' :: l)) (2 ^ s)
        rw [h6] at h7
        rw [hb]
        calc d' % 2 ^ s * 2 ^ (64 - s) + 2 ^ (64 - s) * 2 ^ s * (val (d' :: l) / 2 ^ s)
            = 2 ^ (64 - s) * (d' % 2 ^ s + 2 ^ s * (val (d' :: l) / 2 ^ s)) := by ring
          _ = 2 ^ (64 - s) * val (d' :: l) := by rw [h7]

theorem shiftRight_ok {l : List Nat} {s : Nat} (hs : s < 64) (hl : Digs l) :
    (shiftRight l s).length = l.length ∧ Digs (shiftRight l s) ∧ val (shiftRight l s) = val l / 2 ^ s := by
  unfold shiftRight
  split
  · rename_i h; subst h; exact ⟨rfl, hl, by simp⟩
  · exact shr_ok (by omega) hs l hl

/-! Algorithm D. -/

/-- The digit of the quotient that is tried is right or one too large. -/
theorem estimate_ok {v1 v2 u2 dw W v P w' v' : Nat} (hP : 0 < P) (hv1 : base / 2 ≤ v1) (hv1b : v1 < base) (hv2 : v2 < base)
    (hW : W = w' + P * (u2 + base * dw)) (hv : v = v' + P * (v2 + base * v1)) (hw' : w' < P) (hv' : v' < P) (hu2 : u2 < base) (hWv : W < v * base)
    (fuel q r : Nat) (hf : 1 ≤ fuel) (hf3 : fuel ≤ 3) (hr : (3 - fuel) * v1 ≤ r) (hrb : r < base) (hq : q * v1 + r = dw) (hqW : W < (q + 1) * v) :
    ∃ q' r', estimate v1 v2 u2 fuel q r = .ok (q', r') ∧ q' < base ∧ W < (q' + 1) * v ∧ q' * v ≤ W + v := by
  have hvpos : 0 < v := by
    rcases Nat.eq_zero_or_pos v with h | h
    · rw [h] at hWv; omega
    · exact h
  have hdw : dw ≤ base * v1 + v2 := by
    have h1 : P * dw < v := by
      have : P * dw * base < v * base := by
        refine Nat.lt_of_le_of_lt ?_ hWv
        rw [hW, show P * (u2 + base * dw) = P * u2 + P * dw * base by ring]
        omega
      exact Nat.lt_of_mul_lt_mul_right this
    have h2 : v < P * (v2 + base * v1 + 1) := by rw [hv, Nat.mul_add P _ 1]; omega
    have := Nat.lt_of_mul_lt_mul_left (Nat.lt_trans h1 h2)
    omega
  have hvB : P * base ≤ v := by
    rw [hv]
    have h1 : base ≤ v2 + base * v1 := by
      have : base * 1 ≤ base * v1 := Nat.mul_le_mul_left _ (by unfold base at hv1; omega)
      omega
    have := Nat.mul_le_mul_left P h1
    omega
  have hfin : ∀ q r : Nat, q * v1 + r = dw → q < base → q * v2 ≤ u2 + base * r → q * v ≤ W + v := by
    intro q r h1 h2 h3
    have h4 : q * v = q * v' + P * (q * v2 + base * (q * v1)) := by rw [hv]; ring
    have h5 : q * v' ≤ base * P := Nat.mul_le_mul (Nat.le_of_lt h2) (Nat.le_of_lt hv')
    have h6 : P * (q * v2 + base * (q * v1)) ≤ P * (u2 + base * dw) := by
      refine Nat.mul_le_mul_left _ ?_
      rw [← h1, Nat.mul_add]
      omega
    rw [Nat.mul_comm base P] at h5
    omega
  induction fuel generalizing q r with
  | zero => omega
  | succ fuel ih =>
    have hlr : lo r = r := Nat.mod_eq_of_lt hrb
    unfold estimate
    by_cases hc : base ≤ q ∨ u2 + base * lo r < lo q * v2
    · rw [if_pos hc]
      have hWq : W < q * v := by
        by_cases hqb : base ≤ q
        · have := Nat.mul_le_mul_right v hqb
          rw [Nat.mul_comm base] at this
          omega
        · have hlq : lo q = q := Nat.mod_eq_of_lt (by omega)
          rw [hlq, hlr] at hc
          have hc := hc.resolve_left hqb
          have h1 : P * (u2 + base * dw + 1) ≤ q * v := by
            have h2 : q * v = q * v' + P * (q * v2 + base * (q * v1)) := by rw [hv]; ring
            have h3 : P * (u2 + base * dw + 1) ≤ P * (q * v2 + base * (q * v1)) := by
              refine Nat.mul_le_mul_left _ ?_
              rw [← hq, Nat.mul_add]
              omega
            omega
          rw [Nat.mul_add P _ 1] at h1
          omega
      have hq1 : 1 ≤ q := by
        rcases Nat.eq_zero_or_pos q with h | h
        · rw [h] at hWq; omega
        · exact h
      obtain ⟨q, rfl⟩ : ∃ k, q = k + 1 := ⟨q - 1, by omega⟩
      have hd : dadd r v1 = r + v1 := Nat.mod_eq_of_lt (by unfold base at *; omega)
      have hq' : q * v1 + (r + v1) = dw := by rw [← hq]; ring
      simp only [Nat.add_sub_cancel, hd]
      by_cases hbr : base ≤ r + v1
      · rw [if_pos hbr]
        have hqb : q < base := by
          have : q * v1 < base * v1 := by omega
          exact Nat.lt_of_mul_lt_mul_right this
        refine ⟨q, r + v1, rfl, hqb, hWq, hfin q _ hq' hqb ?_⟩
        have h1 : q * v2 ≤ base * base := Nat.mul_le_mul (Nat.le_of_lt hqb) (Nat.le_of_lt hv2)
        have h2 := Nat.mul_le_mul_left base hbr
        omega
      · rw [if_neg hbr]
        have hfu : fuel = 2 := by
          rcases Nat.lt_or_ge fuel 2 with h | h
          · have : 1 * v1 ≤ (3 - (fuel + 1)) * v1 := Nat.mul_le_mul_right _ (by omega)
            unfold base at *; omega
          · omega
        subst hfu
        exact ih q (r + v1) (by omega) (by omega) (by omega) (by omega) hq' hWq
    · rw [if_neg hc]
      have hqb : q < base := by omega
      have hlq : lo q = q := Nat.mod_eq_of_lt hqb
      rw [hlq, hlr] at hc
      exact ⟨q, r, rfl, hqb, hqW, hfin q r hq hqb (by omega)⟩

theorem sub_digit {x p c q y : Nat} (hx : x < base) (hc : c < base) (hp : p = q * y) (hq : q < base) (hy : y < base) :
    ∃ s1 s, ssub x (lo p : Nat) = .ok s1 ∧ ssub s1 (c : Nat) = .ok s ∧ loS s < base ∧ (hi p + base - hiS s) % base < base ∧
      x + (hi p + base - hiS s) % base * base = p + c + loS s := by
  have h1 : p ≤ (base - 1) * (base - 1) := by rw [hp]; exact Nat.mul_le_mul (by omega) (by omega)
  clear hp hq hy
  refine ⟨(x : Int) - lo p, (x : Int) - lo p - c, if_pos ?_, if_pos ?_, ?_, Nat.mod_lt _ base_pos, ?_⟩
  all_goals
    simp only [lo, loS, hi, hiS, base] at *
    omega

theorem mulSub_ok {q j : Nat} {pb : List Nat} (hq : q < base) (hb : Digs pb) (n i c : Nat) (pa : List Nat) (hd : Digs pa) (hc : c < base)
    (hi : i + n ≤ pb.length) (hl : i + j + n ≤ pa.length) :
    ∃ pa' c', mulSub q pb j n i c pa = .ok (pa', c') ∧ pa'.length = pa.length ∧ Digs pa' ∧ c' < base ∧
      val pa' + (q * part pb i n + c) * base ^ (i + j) = val pa + c' * base ^ (i + j + n) ∧
      ∀ k, i + j + n ≤ k → pa'[k]? = pa[k]? := by
  induction n generalizing i c pa with
  | zero => exact ⟨pa, c, rfl, rfl, hd, hc, by simp [part_zero], fun _ _ => rfl⟩
  | succ n ih =>
    have h1 : i < pb.length := by omega
    have h2 : i + j < pa.length := by omega
    obtain ⟨s1, s, e1, e2, e3, e4, e5⟩ := sub_digit (digs_get hd h2) hc rfl hq (digs_get hb h1)
    obtain ⟨pa', c', f1, f2, f3, f4, f5, f6⟩ := ih (i + 1) _ (pa.set (i + j) (loS s)) (digs_set hd e3) e4 (by omega) (by rw [List.length_set]; omega)
    refine ⟨pa', c', ?_, by rw [f2, List.length_set], f3, f4, ?_, ?_⟩
    · simp only [mulSub, rd_eq_ok h1, rd_eq_ok h2, Res.bind_ok, e1, e2, wr_ok _ h2, f1]
    · have hs := val_set (loS s) h2
      rw [part_succ n h1, show i + j + (n + 1) = i + 1 + j + n by omega]
      rw [show i + 1 + j = i + j + 1 by omega, pow_succ] at f5
      rw [show i + j + 1 + n = i + 1 + j + n by omega] at f5
      generalize (BigNum.hi (q * pb[i]) + base - hiS s) % base = g at *
      generalize loS s = f at *
      generalize base ^ (i + j) = P at *
      generalize part pb (i + 1) n = T at *
      generalize c' * base ^ (i + 1 + j + n) = E at *
      generalize hqy : q * pb[i] = p at *
      have k1 : (q * (pb[i] + base * T) + c) * P = p * P + c * P + q * T * (P * base) := by rw [← hqy]; ring
      have k2 : (q * T + g) * (P * base) = q * T * (P * base) + g * base * P := by ring
      have k3 : (pa[i + j] + g * base) * P = (p + c + f) * P := by rw [e5]
      rw [Nat.add_mul, Nat.add_mul, Nat.add_mul] at k3
      omega
    · intro k hk
      rw [f6 k (by omega), List.getElem?_set_ne (by omega)]

theorem addH_ok {j : Nat} {b : List Nat} (hb : Digs b) (n i c : Nat) (a : List Nat) (hd : Digs a) (hc : c ≤ 1)
    (hi : i + n ≤ b.length) (hl : j + i + n ≤ a.length) :
    ∃ a' c', addH j b n i c a = .ok (a', c') ∧ a'.length = a.length ∧ Digs a' ∧ c' ≤ 1 ∧
      val a' + c' * base ^ (j + i + n) = val a + (part b i n + c) * base ^ (j + i) ∧
      ∀ k, j + i + n ≤ k → a'[k]? = a[k]? := by
  induction n generalizing i c a with
  | zero => exact ⟨a, c, by simp only [addH, Res.pure_eq, lo, Nat.mod_eq_of_lt (show c < base by have := base_gt; omega)], rfl, hd, hc, by simp [part_zero], fun _ _ => rfl⟩
  | succ n ih =>
    have h1 : i < b.length := by omega
    have h2 : j + i < a.length := by omega
    have hx := digs_get hd h2
    have hy := digs_get hb h1
    have hda : dadd (dadd c a[j + i]) b[i] = c + a[j + i] + b[i] := by
      unfold dadd
      rw [Nat.mod_eq_of_lt (show c + a[j + i] < base * base by unfold base at *; omega), Nat.mod_eq_of_lt (by unfold base at *; omega)]
    have hlt := lo_lt (c + a[j + i] + b[i])
    have h3 : (c + a[j + i] + b[i]) / base ≤ 1 := by
      have : (c + a[j + i] + b[i]) / base < 2 := Nat.div_lt_of_lt_mul (by omega)
      omega
    obtain ⟨a', c', f1, f2, f3, f4, f5, f6⟩ := ih (i + 1) _ (a.set (j + i) (lo (c + a[j + i] + b[i]))) (digs_set hd hlt) h3 (by omega) (by rw [List.length_set]; omega)
    refine ⟨a', c', ?_, by rw [f2, List.length_set], f3, f4, ?_, ?_⟩
    · simp only [addH, rd_eq_ok h1, rd_eq_ok h2, Res.bind_ok, hda, wr_ok _ h2, f1]
    · have hs := val_set (lo (c + a[j + i] + b[i])) h2
      have hlo := lo_add (c + a[j + i] + b[i])
      rw [part_succ n h1, show j + i + (n + 1) = j + (i + 1) + n by omega]
      rw [show j + (i + 1) = j + i + 1 by omega, pow_succ] at f5
      rw [show j + i + 1 + n = j + (i + 1) + n by omega] at f5
      generalize (c + a[j + i] + b[i]) / base = g at *
      generalize lo (c + a[j + i] + b[i]) = f at *
      generalize base ^ (j + i) = P at *
      generalize part b (i + 1) n = T at *
      generalize c' * base ^ (j + (i + 1) + n) = E at *
      have k1 : (b[i] + base * T + c) * P = b[i] * P + T * (P * base) + c * P := by ring
      have k2 : (T + g) * (P * base) = T * (P * base) + base * g * P := by ring
      have k3 : (f + base * g) * P = (c + a[j + i] + b[i]) * P := by rw [hlo]
      rw [Nat.add_mul, Nat.add_mul, Nat.add_mul] at k3
      omega
    · intro k hk
      rw [f6 k (by omega), List.getElem?_set_ne (by omega)]

theorem get_le_val {l : List Nat} {k : Nat} (h : k < l.length) : l[k] * base ^ k ≤ val l := by
  have := val_set 0 h
  omega

theorem zero_above {l : List Nat} {n : Nat} (hv : val l < base ^ n) : ∀ k, n ≤ k → k < l.length → l[k]? = some 0 := by
  intro k h1 h2
  have h3 := get_le_val h2
  have h4 : base ^ n ≤ base ^ k := Nat.pow_le_pow_right base_pos h1
  rw [List.getElem?_eq_getElem h2]
  rcases Nat.eq_zero_or_pos l[k] with h | h
  · rw [h]
  · have : 1 * base ^ k ≤ l[k] * base ^ k := Nat.mul_le_mul_right _ h
    omega

/-- The highest digit of a number with no digits above it. -/
theorem top_digit {l : List Nat} {k : Nat} (hd : Digs l) (h : k < l.length) (hz : ∀ i, k + 1 ≤ i → i < l.length → l[i]? = some 0) :
    val l = val (l.take k) + l[k] * base ^ k ∧ val (l.take k) < base ^ k := by
  refine ⟨?_, take_val_lt k hd⟩
  rw [val_take_zero hz, take_succ_val h]

theorem ssub_small {t c : Nat} (ht : t < base) (hc : c < base) : ssub t c = .ok ((t : Int) - c) := by
  refine if_pos ?_
  simp only [base] at *
  omega

/-- One digit of the quotient. -/
theorem divStep_ok {pb : List Nat} {m v : Nat} (hpb : Digs pb) (hlen : pb.length = m + 3) (hv : v = val (pb.take (m + 2)))
    (hv1 : base / 2 ≤ pb[m + 1]) {j : Nat} {pa : List Nat} (hpa : Digs pa) (hl : j + (m + 2) < pa.length) (hval : val pa < v * base ^ (j + 1)) :
    ∃ q r pa1 c1, estimate pb[m + 1] pb[m] pa[j + m] 3 ((pa[j + m + 1] + base * pa[j + m + 2]) / pb[m + 1]) ((pa[j + m + 1] + base * pa[j + m + 2]) % pb[m + 1]) = .ok (q, r) ∧
      lo q = q ∧ mulSub q pb j (m + 2) 0 0 pa = .ok (pa1, c1) ∧ pa1.length = pa.length ∧
      ∃ t, pa1[j + (m + 2)]? = some t ∧ ssub t c1 = .ok ((t : Int) - c1) ∧
        ((¬ (t : Int) - c1 < 0 ∧ Digs (pa1.set (j + (m + 2)) (loS ((t : Int) - c1))) ∧
            ∃ k, val (pa1.set (j + (m + 2)) (loS ((t : Int) - c1))) + k * (v * base ^ j) = val pa ∧ val (pa1.set (j + (m + 2)) (loS ((t : Int) - c1))) < v * base ^ j) ∨
          ((t : Int) - c1 < 0 ∧ ∃ pa2 c2, addH j pb (m + 2) 0 0 (pa1.set (j + (m + 2)) (loS ((t : Int) - c1))) = .ok (pa2, c2) ∧ pa2.length = pa.length ∧
            ∃ t2, pa2[j + (m + 2)]? = some t2 ∧ Digs (pa2.set (j + (m + 2)) ((t2 + 1) % base)) ∧
              ∃ k, val (pa2.set (j + (m + 2)) ((t2 + 1) % base)) + k * (v * base ^ j) = val pa ∧ val (pa2.set (j + (m + 2)) ((t2 + 1) % base)) < v * base ^ j)) := by
  have hbpos := base_pos
  have hvlt : v < base ^ (m + 2) := by rw [hv]; exact take_val_lt _ hpb
  have hPj : 0 < base ^ j := Nat.pow_pos base_pos
  have hvalM : val pa < base ^ (j + (m + 2) + 1) := by
    refine Nat.lt_of_lt_of_le hval ?_
    rw [show j + (m + 2) + 1 = m + 2 + (j + 1) by omega, pow_add _ (m + 2)]
    exact Nat.mul_le_mul_right _ (Nat.le_of_lt hvlt)
  -- the window
  obtain ⟨W, hW⟩ : ∃ W, W = val (pa.drop j) := ⟨_, rfl⟩
  have hpaW : val pa = val (pa.take j) + base ^ j * W := by
    conv => lhs; rw [← List.take_append_drop j pa]
    rw [val_append, List.length_take, Nat.min_eq_left (by omega), hW]
  have hlow := take_val_lt j hpa
  have hWv : W < v * base := by
    have h1 : base ^ j * W < base ^ j * (v * base) := by
      have : v * base ^ (j + 1) = base ^ j * (v * base) := by rw [pow_succ]; ring
      omega
    exact Nat.lt_of_mul_lt_mul_left h1
  have hdl : (pa.drop j).length = pa.length - j := List.length_drop
  have hWlt : W < base ^ (m + 3) := by
    refine Nat.lt_of_lt_of_le hWv ?_
    rw [pow_succ]
    exact Nat.mul_le_mul_right _ (Nat.le_of_lt hvlt)
  have hWd : W = val ((pa.drop j).take m) + base ^ m * (pa[j + m] + base * (pa[j + m + 1] + base * pa[j + m + 2])) := by
    rw [hW, val_take_zero (n := m + 3) (zero_above (by rw [← hW]; exact hWlt)), take_succ_val (by omega), take_succ_val (by omega), take_succ_val (by omega)]
    simp only [List.getElem_drop, pow_succ, ← Nat.add_assoc]
    ring
  have hvd : v = val (pb.take m) + base ^ m * (pb[m] + base * pb[m + 1]) := by
    rw [hv, take_succ_val (by omega), take_succ_val (by omega), pow_succ]
    ring
  have hPm : 0 < base ^ m := Nat.pow_pos base_pos
  have hv1b := digs_get hpb (k := m + 1) (by omega)
  have hu2b := digs_get hpa (k := j + m) (by omega)
  have hv1p : 0 < pb[m + 1] := by unfold base at hv1; omega
  have hdiv := Nat.div_add_mod (pa[j + m + 1] + base * pa[j + m + 2]) pb[m + 1]
  have hmod := Nat.mod_lt (pa[j + m + 1] + base * pa[j + m + 2]) hv1p
  have hw' := take_val_lt m (digs_drop j hpa)
  obtain ⟨q, r, e1, e2, e3, e4⟩ := estimate_ok hPm hv1 hv1b (digs_get hpb (by omega)) hWd hvd hw' (take_val_lt m hpb) hu2b hWv 3
    ((pa[j + m + 1] + base * pa[j + m + 2]) / pb[m + 1]) ((pa[j + m + 1] + base * pa[j + m + 2]) % pb[m + 1]) (by omega) (by omega) (by omega) (by omega)
    (by rw [Nat.mul_comm]; exact hdiv) (by
      generalize (pa[j + m + 1] + base * pa[j + m + 2]) / pb[m + 1] = q0 at *
      generalize (pa[j + m + 1] + base * pa[j + m + 2]) % pb[m + 1] = r0 at *
      generalize pa[j + m + 1] + base * pa[j + m + 2] = dw at *
      have h1 : dw + 1 ≤ (q0 + 1) * pb[m + 1] := by rw [Nat.succ_mul, Nat.mul_comm]; omega
      have h2 : W < base ^ m * (pa[j + m] + base * dw + 1) := by rw [hWd, Nat.mul_add _ _ 1]; omega
      have h3 : base ^ m * (pa[j + m] + base * dw + 1) ≤ base ^ m * (base * ((q0 + 1) * pb[m + 1])) := by
        refine Nat.mul_le_mul_left _ ?_
        have := Nat.mul_le_mul_left base h1
        rw [Nat.mul_add base dw 1] at this
        omega
      have h4 : base ^ m * (base * ((q0 + 1) * pb[m + 1])) ≤ (q0 + 1) * v := by
        rw [hvd, show base ^ m * (base * ((q0 + 1) * pb[m + 1])) = (q0 + 1) * (base ^ m * (base * pb[m + 1])) by ring]
        refine Nat.mul_le_mul_left _ ?_
        rw [Nat.mul_add (base ^ m)]
        omega
      omega)
  have hlq : lo q = q := Nat.mod_eq_of_lt e2
  obtain ⟨pa1, c1, f1, f2, f3, f4, f5, f6⟩ := mulSub_ok (j := j) e2 hpb (m + 2) 0 0 pa hpa base_pos (by omega) (by omega)
  have hi1 : j + (m + 2) < pa1.length := by omega
  refine ⟨q, r, pa1, c1, e1, hlq, f1, f2, pa1[j + (m + 2)], List.getElem?_eq_getElem hi1, ssub_small (digs_get f3 hi1) f4, ?_⟩
  have ht : pa1[j + (m + 2)] = pa[j + (m + 2)] := by
    have := f6 (j + (m + 2)) (by omega)
    rw [List.getElem?_eq_getElem hi1, List.getElem?_eq_getElem hl] at this
    simpa using this
  have htb := digs_get f3 hi1
  have hs := val_set (loS ((pa1[j + (m + 2)] : Int) - c1)) hi1
  -- bounds of the digit for the whole number
  have hN1 : val pa < (q + 1) * (v * base ^ j) := by
    have h1 : base ^ j * (W + 1) ≤ base ^ j * ((q + 1) * v) := Nat.mul_le_mul_left _ e3
    have h2 : base ^ j * ((q + 1) * v) = (q + 1) * (v * base ^ j) := by ring
    rw [Nat.mul_add, Nat.mul_one] at h1
    omega
  have hN2 : q * (v * base ^ j) ≤ val pa + v * base ^ j := by
    have h1 := Nat.mul_le_mul_left (base ^ j) e4
    have h2 : base ^ j * (q * v) = q * (v * base ^ j) := by ring
    have h3 : base ^ j * (W + v) = base ^ j * W + v * base ^ j := by ring
    omega
  rw [part_full, ← hv, Nat.add_zero, Nat.zero_add, Nat.mul_assoc] at f5
  have hzpa : ∀ k, j + (m + 2) + 1 ≤ k → k < pa.length → pa[k]? = some 0 := zero_above hvalM
  have hVM : v * base ^ j < base ^ (j + (m + 2)) := by
    rw [pow_add, Nat.mul_comm]
    exact Nat.mul_lt_mul_of_pos_left hvlt hPj
  have hMB : base ^ (j + (m + 2) + 1) = base * base ^ (j + (m + 2)) := by rw [pow_succ, Nat.mul_comm]
  have hlos : loS ((pa1[j + (m + 2)] : Int) - c1) < base ∧ ((pa1[j + (m + 2)] : Int) - c1 < 0 → loS ((pa1[j + (m + 2)] : Int) - c1) + c1 = pa1[j + (m + 2)] + base) ∧
      (¬ (pa1[j + (m + 2)] : Int) - c1 < 0 → loS ((pa1[j + (m + 2)] : Int) - c1) + c1 = pa1[j + (m + 2)]) := by
    clear * - htb f4
    generalize pa1[j + (m + 2)] = t at *
    simp only [loS, base] at *
    omega
  obtain ⟨hl1, hl2, hl3⟩ := hlos
  have hd2 : Digs (pa1.set (j + (m + 2)) (loS ((pa1[j + (m + 2)] : Int) - c1))) := digs_set f3 hl1
  have hz2 : ∀ k, j + (m + 2) + 1 ≤ k → k < (pa1.set (j + (m + 2)) (loS ((pa1[j + (m + 2)] : Int) - c1))).length →
      (pa1.set (j + (m + 2)) (loS ((pa1[j + (m + 2)] : Int) - c1)))[k]? = some 0 := by
    intro k h1 h2
    rw [List.length_set] at h2
    rw [List.getElem?_set_ne (by omega), f6 k (by omega), hzpa k h1 (by omega)]
  generalize hpa2 : pa1.set (j + (m + 2)) (loS ((pa1[j + (m + 2)] : Int) - c1)) = pa2 at *
  have hlen2 : pa2.length = pa.length := by rw [← hpa2, List.length_set, f2]
  generalize loS ((pa1[j + (m + 2)] : Int) - c1) = f at *
  generalize hM : base ^ (j + (m + 2)) = M at *
  generalize hV : v * base ^ j = V at *
  generalize pa1[j + (m + 2)] = t at *
  by_cases hneg : (t : Int) - c1 < 0
  · right
    have hft := hl2 hneg
    refine ⟨hneg, ?_⟩
    -- val pa2 + q V = val pa + base * M
    have hcM : f * M + c1 * M = t * M + base * M := by rw [← Nat.add_mul, hft, Nat.add_mul]
    have hv2 : val pa2 + q * V = val pa + base * M := by omega
    obtain ⟨pa3, c3, g1, g2, g3, g4, g5, g6⟩ := addH_ok (j := j) hpb (m + 2) 0 0 pa2 hd2 (by omega) (by omega) (by omega)
    simp only [part_full, ← hv, Nat.add_zero, hM, hV] at g5
    have hi3 : j + (m + 2) < pa3.length := by omega
    have hz3 : ∀ k, j + (m + 2) + 1 ≤ k → k < pa3.length → pa3[k]? = some 0 := by
      intro k h1 h2
      rw [g6 k (by omega), hz2 k h1 (by omega)]
    obtain ⟨k1, k2⟩ := top_digit g3 hi3 hz3
    rw [hM] at k1 k2
    have hb3 := digs_get g3 hi3
    have hlt3 : val pa3 < base * M := by
      have : (pa3[j + (m + 2)] + 1) * M ≤ base * M := Nat.mul_le_mul_right _ hb3
      rw [Nat.succ_mul] at this
      omega
    have hlt2 : val pa2 < base * M := by
      have hi2 : j + (m + 2) < pa2.length := by omega
      obtain ⟨k1, k2⟩ := top_digit hd2 hi2 hz2
      rw [hM] at k1 k2
      have : (pa2[j + (m + 2)] + 1) * M ≤ base * M := Nat.mul_le_mul_right _ (digs_get hd2 hi2)
      rw [Nat.succ_mul] at this
      omega
    have hq1 : 1 ≤ q := by
      rcases Nat.eq_zero_or_pos q with h | h
      · rw [h] at hv2; omega
      · exact h
    obtain ⟨q', rfl⟩ : ∃ k, q = k + 1 := ⟨q - 1, by omega⟩
    rw [Nat.succ_mul] at hv2 hN2
    rw [Nat.succ_mul, Nat.succ_mul] at hN1
    have hc3 : c3 = 1 := by
      rcases Nat.lt_or_ge c3 1 with h | h
      · have : c3 = 0 := by omega
        subst this; omega
      · omega
    subst hc3
    have ht3 : pa3[j + (m + 2)] = base - 1 := by
      rcases Nat.lt_or_ge pa3[j + (m + 2)] (base - 1) with h | h
      · exfalso
        have h1 : (pa3[j + (m + 2)] + 2) * M ≤ base * M := Nat.mul_le_mul_right _ (by omega)
        rw [Nat.add_mul] at h1
        omega
      · omega
    have hs3 := val_set ((pa3[j + (m + 2)] + 1) % base) hi3
    have hzero : (pa3[j + (m + 2)] + 1) % base = 0 := by rw [ht3, Nat.sub_add_cancel hbpos, Nat.mod_self]
    refine ⟨pa3, 1, g1, by omega, pa3[j + (m + 2)], List.getElem?_eq_getElem hi3, digs_set g3 (Nat.mod_lt _ hbpos), q', ?_⟩
    rw [hzero] at hs3 ⊢
    rw [hM, ht3, Nat.sub_mul] at hs3
    have : M ≤ base * M := Nat.le_mul_of_pos_left _ hbpos
    omega
  · left
    have hft := hl3 hneg
    have hcM : f * M + c1 * M = t * M := by rw [← Nat.add_mul, hft]
    have hv2 : val pa2 + q * V = val pa := by omega
    rw [Nat.succ_mul] at hN1
    exact ⟨hneg, hd2, q, hv2, by omega⟩

theorem divLoop_ok {pb : List Nat} {m v : Nat} (hpb : Digs pb) (hlen : pb.length = m + 3) (hv : v = val (pb.take (m + 2)))
    (hv1 : base / 2 ≤ pb[m + 1]) (n : Nat) (pa q : List Nat) (hpa : Digs pa) (hl : n + (m + 2) ≤ pa.length) (hval : val pa < v * base ^ n) :
    ∃ pa' q', divLoop pb (m + 2) pb[m + 1] pb[m] n pa q = .ok (pa', q') ∧ Digs pa' ∧ pa'.length = pa.length ∧ val pa' = val pa % v := by
  induction n generalizing pa q with
  | zero => exact ⟨pa, q, rfl, hpa, rfl, by rw [Nat.mod_eq_of_lt (by simpa using hval)]⟩
  | succ j ih =>
    obtain ⟨qq, r, pa1, c1, e1, e2, e3, e4, t, e5, e6, e7⟩ := divStep_ok hpb hlen hv hv1 hpa (j := j) (by omega) hval
    have hv1p : pb[m + 1] ≠ 0 := by unfold base at hv1; omega
    have hi1 : j + (m + 2) < pa1.length := by omega
    have ht1 : rd pa1 (j + (m + 2)) = .ok t := by simp only [rd, e5]
    have hfin : ∀ {P : List Nat} {k : Nat} (q' : List Nat), Digs P → P.length = pa.length → val P + k * (v * base ^ j) = val pa → val P < v * base ^ j →
        ∃ pa' q'', divLoop pb (m + 2) pb[m + 1] pb[m] j P q' = .ok (pa', q'') ∧ Digs pa' ∧ pa'.length = pa.length ∧ val pa' = val pa % v := by
      intro P k q' h1 h2 h3 h4
      obtain ⟨pa', q'', f1, f2, f3, f4⟩ := ih P q' h1 (by omega) h4
      refine ⟨pa', q'', f1, f2, by omega, ?_⟩
      rw [f4, ← h3, show k * (v * base ^ j) = v * (k * base ^ j) by ring, Nat.add_mul_mod_self_left]
    have r1 : rd pa (j + (m + 2) - 1) = .ok pa[j + m + 1] := by
      rw [show j + (m + 2) - 1 = j + m + 1 by omega]; exact rd_eq_ok _
    have r0 : rd pa (j + (m + 2)) = .ok pa[j + m + 2] := rd_eq_ok (show j + (m + 2) < pa.length by omega)
    have r2 : rd pa (j + (m + 2) - 2) = .ok pa[j + m] := by
      rw [show j + (m + 2) - 2 = j + m by omega]; exact rd_eq_ok _
    rw [divLoop, r1, Res.bind_ok, r0, Res.bind_ok, r2, Res.bind_ok]
    simp only [if_neg hv1p, e1, e2, e3, ht1, e6, wr_ok _ hi1, Res.pure_eq, Res.bind_ok]
    rcases e7 with ⟨h1, h2, k, h3, h4⟩ | ⟨h1, pa2, c2, h2, h3, t2, h4, h5, k, h6, h7⟩
    · simp only [if_neg h1, Res.bind_ok]
      split
      · rename_i hj
        rw [wr_ok _ hj, Res.bind_ok]
        exact hfin _ h2 (by rw [List.length_set, e4]) h3 h4
      · exact hfin _ h2 (by rw [List.length_set, e4]) h3 h4
    · have ht2 : rd pa2 (j + (m + 2)) = .ok t2 := by simp only [rd, h4]
      simp only [if_pos h1, h2, Res.bind_ok, ht2, wr_ok _ (show j + (m + 2) < pa2.length by omega)]
      split
      · rename_i hj
        rw [wr_ok _ hj, Res.bind_ok]
        exact hfin _ h5 (by rw [List.length_set, h3]) h6 h7
      · exact hfin _ h5 (by rw [List.length_set, h3]) h6 h7

end Verif.BigNum
