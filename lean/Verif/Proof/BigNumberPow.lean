import Verif.Proof.BigNumberDiv
import Mathlib.Data.Nat.ModEq
/-! Division with remainder, multiplication and powers modulo a number. -/

namespace Verif.BigNum
open Verif

theorem loS_toS {dw c : Nat} (hd : dw < base * base / 2) (hc : c ≤ dw) (hs : dw - c < base) :
    ∃ s, ssub (toS dw) ((c % base : Nat) : Int) = .ok s ∧ loS s = dw - c := by
  have ht : toS dw = dw := if_pos hd
  rw [ht]
  refine ⟨(dw : Int) - (c % base : Nat), if_pos ?_, ?_⟩
  all_goals
    simp only [loS, base] at *
    omega

theorem divSingle_ok {a : List Nat} {b0 : Nat} (ha : Digs a) (hb0 : 0 < b0) (hb : b0 ≤ base / 2) (n : Nat) (hn : n ≤ a.length) (k : Int) (q : List Nat)
    (hk : loS k < b0) : ∃ k' q', divSingle a b0 n k q = .ok (k', q') ∧ loS k' = (val (a.take n) + base ^ n * loS k) % b0 := by
  induction n generalizing k q with
  | zero => exact ⟨k, q, rfl, by simp [val, Nat.mod_eq_of_lt hk]⟩
  | succ j ih =>
    have hj : j < a.length := hn
    have hx := digs_get ha hj
    have hmd := Nat.div_add_mod' (a[j] + base * loS k) b0
    have hml := Nat.mod_lt (a[j] + base * loS k) hb0
    have hq : (a[j] + base * loS k) / b0 < base := by
      rw [Nat.div_lt_iff_lt_mul hb0]
      have : base * (loS k + 1) ≤ base * b0 := Nat.mul_le_mul_left _ hk
      rw [Nat.mul_add] at this
      omega
    have hdw : a[j] + base * loS k < base * base / 2 := by
      have : base * (loS k + 1) ≤ base * (base / 2) := Nat.mul_le_mul_left _ (by omega)
      rw [Nat.mul_add] at this
      simp only [base] at *
      omega
    have hb0b : b0 < base := by unfold base at *; omega
    obtain ⟨s, e1, e2⟩ := loS_toS (c := (a[j] + base * loS k) / b0 * b0) hdw (Nat.div_mul_le_self _ _) (by omega)
    have e3 : loS s = (a[j] + base * loS k) % b0 := by rw [e2]; omega
    have hlq : lo ((a[j] + base * loS k) / b0) = (a[j] + base * loS k) / b0 := Nat.mod_eq_of_lt hq
    have hfin : ∀ q', ∃ k' q'', divSingle a b0 j s q' = .ok (k', q'') ∧ loS k' = (val (a.take (j + 1)) + base ^ (j + 1) * loS k) % b0 := by
      intro q'
      obtain ⟨k', q'', f1, f2⟩ := ih (by omega) s q' (by rw [e3]; exact hml)
      refine ⟨k', q'', f1, ?_⟩
      rw [f2, e3, take_succ_val hj, Nat.add_mod, Nat.mul_mod, Nat.mod_mod, ← Nat.mul_mod, ← Nat.add_mod]
      congr 1
      rw [pow_succ]; ring
    rw [divSingle, rd_eq_ok hj, Res.bind_ok]
    simp only [if_neg (Nat.pos_iff_ne_zero.mp hb0), hlq, e1, Res.pure_eq, Res.bind_ok]
    split
    · rename_i h
      rw [wr_ok _ h, Res.bind_ok]
      exact hfin _
    · exact hfin _

theorem val_take_le (l : List Nat) (n : Nat) : val (l.take n) ≤ val l := by
  conv => rhs; rw [← List.take_append_drop n l]
  rw [val_append]
  omega

/-- The remainder of a division. -/
theorem dbiDiv_ok {q0 r0 a b : List Nat} (ha : Digs a) (hb : Digs b) (hlen : a.length = 2 * b.length) (hb0 : val b ≠ 0)
    (hsm : base ≤ val b ∨ val b ≤ base / 2) :
    ∃ q r, dbiDiv q0 r0 a b = .ok (true, q, r) ∧ r.length = b.length ∧ Digs r ∧ val r = val a % val b := by
  obtain ⟨lA, a1, a2, a3, a4⟩ := trim_ok a a.length (Nat.le_refl _)
  obtain ⟨lB, b1, b2, b3, b4⟩ := trim_ok b b.length (Nat.le_refl _)
  rw [List.take_length] at a3 b3
  have hlB : lB ≠ 0 := by
    rintro rfl
    rw [List.take_zero] at b3
    exact hb0 b3.symm
  have hBl : base ^ (lB - 1) ≤ val b := by
    rcases b4 with h | ⟨h1, h2⟩
    · exact absurd h hlB
    · refine Nat.le_trans ?_ (get_le_val h1)
      exact Nat.le_mul_of_pos_left _ (Nat.pos_of_ne_zero h2)
  have hbpos : 0 < val b := Nat.pos_of_ne_zero hb0
  have hzero : ∀ n, val (List.replicate n 0) = 0 := fun n => val_zeros n
  obtain ⟨c, c1, c2⟩ := compare_ok ha hb (max a.length b.length) (Nat.le_refl _)
  rw [List.take_of_length_le (by omega), List.take_of_length_le (by omega)] at c2
  have hcopy : val a < val b → lA ≤ b.length ∧ (a.take lA ++ (List.replicate b.length 0).drop lA).length = b.length ∧
      Digs (a.take lA ++ (List.replicate b.length 0).drop lA) ∧ val (a.take lA ++ (List.replicate b.length 0).drop lA) = val a % val b := by
    intro hlt
    have h1 : lA ≤ b.length := by
      rcases Nat.lt_or_ge b.length lA with h | h
      · exfalso
        rcases a4 with h0 | ⟨h1, h2⟩
        · omega
        · have h3 := get_le_val h1
          have h4 : base ^ b.length ≤ base ^ (lA - 1) := Nat.pow_le_pow_right base_pos (by omega)
          have h5 : 1 * base ^ (lA - 1) ≤ a[lA - 1] * base ^ (lA - 1) := Nat.mul_le_mul_right _ (Nat.pos_of_ne_zero h2)
          have h6 := val_lt hb
          omega
      · exact h
    refine ⟨h1, ?_, ?_, ?_⟩
    · rw [List.length_append, List.length_take, List.length_drop, List.length_replicate]; omega
    · intro d hd
      rcases List.mem_append.mp hd with h | h
      · exact digs_take _ ha d h
      · exact digs_drop _ (digs_zeros _) d h
    · rw [val_append, List.drop_replicate, hzero, Nat.mul_zero, Nat.add_zero, a3, Nat.mod_eq_of_lt hlt]
  unfold dbiDiv
  rw [if_neg (by omega)]
  simp only [setZero_setLength, a1, b1, Res.bind_ok, if_neg hlB, List.length_replicate]
  by_cases hlt : lA < lB
  · have hv : val a < val b := by
      have h1 := take_val_lt lA ha
      have h2 : base ^ lA ≤ base ^ (lB - 1) := Nat.pow_le_pow_right base_pos (by omega)
      omega
    obtain ⟨h1, h2, h3, h4⟩ := hcopy hv
    simp only [if_pos hlt, Res.pure_eq, Res.bind_ok, if_true, if_pos h1]
    exact ⟨_, _, rfl, h2, h3, h4⟩
  · simp only [if_neg hlt, c1, Res.pure_eq, Res.bind_ok]
    by_cases hc : c = -1
    · obtain ⟨h1, h2, h3, h4⟩ := hcopy (c2.mp hc)
      simp only [hc, beq_self_eq_true, if_true, if_pos h1]
      exact ⟨_, _, rfl, h2, h3, h4⟩
    · have hge : val b ≤ val a := by
        rcases Nat.lt_or_ge (val a) (val b) with h | h
        · exact absurd (c2.mpr h) hc
        · exact h
      simp only [beq_iff_eq, hc, if_false]
      rcases b4 with h | ⟨hb4, hb5⟩
      · exact absurd h hlB
      clear a4
      by_cases h1 : lB = 1
      · subst h1
        have hb0l : 0 < b.length := by omega
        have hvb : val b = b[0] := by
          rw [← b3, take_succ_val hb0l]; simp [val]
        have hb0b := digs_get hb hb0l
        have hrz : 0 < (List.replicate b.length 0).length := by rw [List.length_replicate]; exact hb0l
        obtain ⟨k', q', d1, d2⟩ := divSingle_ok ha (b0 := b[0]) (by omega) (by omega) lA (by omega) 0 (List.replicate b.length 0) (by
          have : loS 0 = 0 := by decide
          omega)
        simp only [if_true, rd_eq_ok hb0l, Res.bind_ok, d1, wr_ok _ hrz]
        have hk : loS k' = val a % val b := by
          rw [d2, a3, hvb, show loS 0 = 0 from by decide, Nat.mul_zero, Nat.add_zero]
        have hkb : loS k' < base := by rw [hk, hvb]; have := Nat.mod_lt (val a) (show b[0] > 0 by omega); omega
        refine ⟨_, _, rfl, by rw [List.length_set, List.length_replicate], digs_set (digs_zeros _) hkb, ?_⟩
        have := val_set (loS k') hrz
        simp only [hzero, List.getElem_replicate, Nat.pow_zero, Nat.mul_one, Nat.zero_mul, Nat.add_zero, Nat.zero_add] at this
        rw [this, hk]
      · obtain ⟨m, rfl⟩ : ∃ m, lB = m + 2 := ⟨lB - 2, by omega⟩
        simp only [if_neg h1, show m + 2 - 1 = m + 1 by omega] at hb4 hb5 ⊢
        have htop : b[m + 1] ≠ 0 := hb5
        obtain ⟨p1, p2⟩ := msbPos_ok htop (digs_get hb hb4)
        have hp63 : msbPos b[m + 1] ≤ 63 := by
          rcases Nat.lt_or_ge 63 (msbPos b[m + 1]) with h | h
          · exfalso
            have h1 : 2 ^ 64 ≤ 2 ^ msbPos b[m + 1] := Nat.pow_le_pow_right (by omega) h
            have h2 := digs_get hb hb4
            unfold base at h2
            omega
          · exact h
        obtain ⟨s, hs⟩ : ∃ s, s = 63 - msbPos b[m + 1] := ⟨_, rfl⟩
        have hs64 : s < 64 := by omega
        obtain ⟨u1, u2, u3⟩ := shiftLeft_ok hs64 (digs_take lA ha)
        obtain ⟨w1, w2, w3⟩ := shiftLeft_ok hs64 (digs_take (m + 2) hb)
        rw [List.length_take, Nat.min_eq_left (by omega)] at u1 w1
        rw [a3] at u3
        rw [b3] at w3
        simp only [rd_eq_ok hb4, Res.bind_ok, ← hs]
        generalize hpa : shiftLeft (a.take lA) s = pa at *
        generalize hpb : shiftLeft (b.take (m + 2)) s = pb at *
        -- the divisor after normalising
        have hbd : val b = val (b.take (m + 1)) + b[m + 1] * base ^ (m + 1) := by rw [← b3, take_succ_val hb4]
        have hbt := take_val_lt (m + 1) hb
        have hPm : 0 < base ^ (m + 1) := Nat.pow_pos base_pos
        have hps : 0 < 2 ^ s := by positivity
        have hpw : 2 ^ msbPos b[m + 1] * 2 ^ s = base / 2 := by rw [← pow_add, show msbPos b[m + 1] + s = 63 by omega]; rfl
        have hpw2 : 2 ^ (msbPos b[m + 1] + 1) * 2 ^ s = base := by rw [← pow_add, show msbPos b[m + 1] + 1 + s = 64 by omega]; rfl
        have hvhi : val b * 2 ^ s < base ^ (m + 2) := by
          have h1 : val b < 2 ^ (msbPos b[m + 1] + 1) * base ^ (m + 1) := by
            have : (b[m + 1] + 1) * base ^ (m + 1) ≤ 2 ^ (msbPos b[m + 1] + 1) * base ^ (m + 1) := Nat.mul_le_mul_right _ p2
            rw [Nat.succ_mul] at this
            omega
          have h2 : val b * 2 ^ s < 2 ^ (msbPos b[m + 1] + 1) * base ^ (m + 1) * 2 ^ s := Nat.mul_lt_mul_of_pos_right h1 hps
          have h3 : 2 ^ (msbPos b[m + 1] + 1) * base ^ (m + 1) * 2 ^ s = base ^ (m + 2) := by
            rw [Nat.mul_right_comm, hpw2, pow_succ base (m + 1), Nat.mul_comm]
          omega
        have hvlo : base / 2 * base ^ (m + 1) ≤ val b * 2 ^ s := by
          have h1 : 2 ^ msbPos b[m + 1] * base ^ (m + 1) ≤ val b := by
            have := Nat.mul_le_mul_right (base ^ (m + 1)) p1
            omega
          have h2 := Nat.mul_le_mul_right (2 ^ s) h1
          rwa [Nat.mul_right_comm, hpw] at h2
        have hpbv : val (pb.take (m + 2)) = val b * 2 ^ s := by
          rw [← w3]
          exact (val_take_zero (zero_above (by rw [w3]; exact hvhi))).symm
        have hi1 : m + 1 < pb.length := by omega
        have hi0 : m < pb.length := by omega
        have hv1 : base / 2 ≤ pb[m + 1] := by
          rw [take_succ_val hi1] at hpbv
          have h1 := take_val_lt (m + 1) w2
          rcases Nat.lt_or_ge pb[m + 1] (base / 2) with h | h
          · exfalso
            have h2 : (pb[m + 1] + 1) * base ^ (m + 1) ≤ base / 2 * base ^ (m + 1) := Nat.mul_le_mul_right _ h
            rw [Nat.succ_mul] at h2
            omega
          · exact h
        have hlAB : m + 2 ≤ lA := by omega
        have hval : val pa < val b * 2 ^ s * base ^ (lA - (m + 2) + 1) := by
          rw [u3, Nat.mul_right_comm]
          refine Nat.mul_lt_mul_of_pos_right ?_ hps
          have h1 := take_val_lt lA ha
          rw [a3] at h1
          have h2 : base ^ lA = base ^ (m + 1) * base ^ (lA - (m + 2) + 1) := by rw [← pow_add]; congr 1; omega
          have h3 : base ^ (m + 1) * base ^ (lA - (m + 2) + 1) ≤ val b * base ^ (lA - (m + 2) + 1) := Nat.mul_le_mul_right _ hBl
          omega
        obtain ⟨pa', q', d1, d2, d3, d4⟩ := divLoop_ok w2 (by omega) rfl hv1 (lA - (m + 2) + 1) pa (List.replicate b.length 0) u2 (by omega) (by rw [hpbv]; exact hval)
        simp only [rd_eq_ok hi1, Res.bind_ok, show m + 2 - 2 = m by omega, rd_eq_ok hi0, d1]
        rw [hpbv, u3, Nat.mul_mod_mul_right] at d4
        have hrem := Nat.mod_lt (val a) hbpos
        have hlt' : val pa' < base ^ (m + 2) := by
          rw [d4]
          exact Nat.lt_trans (Nat.mul_lt_mul_of_pos_right hrem hps) hvhi
        obtain ⟨g1, g2, g3⟩ := shiftRight_ok hs64 (digs_take (m + 2) d2)
        rw [List.length_take, Nat.min_eq_left (by omega)] at g1
        refine ⟨_, _, rfl, ?_, ?_, ?_⟩
        · rw [List.length_append, g1, List.length_drop, List.length_replicate]; omega
        · intro d hd
          rcases List.mem_append.mp hd with h | h
          · exact g2 d h
          · exact digs_drop _ (digs_zeros _) d h
        · rw [val_append, List.drop_replicate, hzero, Nat.mul_zero, Nat.add_zero, g3, ← val_take_zero (zero_above hlt'), d4, Nat.mul_div_cancel _ hps]

/-- The moduli for which division by one digit does not overflow. -/
def Good (m : List Nat) : Prop := Digs m ∧ val m ≠ 0 ∧ (base ≤ val m ∨ val m ≤ base / 2)

theorem mulm_ok {r a1 a2 m : List Nat} (hm : Good m) (h1 : Digs a1) (h2 : Digs a2) (l1 : a1.length = m.length) (l2 : a2.length = m.length) :
    ∃ r', mulm r a1 a2 m = .ok (true, r') ∧ r'.length = m.length ∧ Digs r' ∧ val r' = val a1 * val a2 % val m := by
  obtain ⟨t, e1, e2, e3, e4⟩ := dbiMul_ok (t := List.replicate (2 * a1.length) 0) h1 h2
  obtain ⟨q, r', f1, f2, f3, f4⟩ := dbiDiv_ok (q0 := List.replicate a1.length 0) (r0 := setLength r m.length) e3 hm.1 (by omega) hm.2.1 hm.2.2
  refine ⟨r', ?_, f2, f3, by rw [f4, e4]⟩
  unfold mulm
  rw [if_neg (by omega), e1, Res.bind_ok, f1, Res.bind_ok]
  rfl

theorem powDigit_ok {m : List Nat} {last : Bool} (hm : Good m) (n d : Nat) (r x : List Nat) (hd : d < 2 ^ n)
    (hr : Digs r) (hx : Digs x) (lr : r.length = m.length) (lx : x.length = m.length) :
    ∃ r' x', powDigit m last n d r x = .ok (r', x') ∧ Digs r' ∧ Digs x' ∧ r'.length = m.length ∧ x'.length = m.length ∧
      val r' ≡ val r * val x ^ d [MOD val m] ∧ (d = 0 → r' = r) ∧ (d ≠ 0 → val r' < val m) ∧
      (last = false → val x' ≡ val x ^ 2 ^ n [MOD val m]) := by
  induction n generalizing d r x with
  | zero =>
    have : d = 0 := by simpa using hd
    subst this
    exact ⟨r, x, rfl, hr, hx, lr, lx, by simp [Nat.ModEq.refl], fun _ => rfl, fun h => absurd rfl h, fun _ => by simp [Nat.ModEq.refl]⟩
  | succ n ih =>
    have hmpos : 0 < val m := Nat.pos_of_ne_zero hm.2.1
    -- the factor of this bit
    have hbit : ∃ r1, powDigit m last (n + 1) d r x = (if last = true ∧ d / 2 = 0 then pure (r1, x) else do
          let (_, x) ← mulm x x x m
          powDigit m last n (d / 2) r1 x) ∧ Digs r1 ∧ r1.length = m.length ∧ val r1 ≡ val r * val x ^ (d % 2) [MOD val m] ∧
          (d % 2 = 0 → r1 = r) ∧ (d % 2 = 1 → val r1 < val m) := by
      by_cases h : d % 2 = 1
      · obtain ⟨r1, e1, e2, e3, e4⟩ := mulm_ok (r := r) hm hr hx lr lx
        refine ⟨r1, by simp only [powDigit, if_pos h, e1, Res.bind_ok, Res.pure_eq], e3, e2, ?_, by omega, fun _ => by rw [e4]; exact Nat.mod_lt _ hmpos⟩
        rw [e4, h, pow_one]
        exact Nat.mod_modEq _ _
      · have h0 : d % 2 = 0 := by omega
        exact ⟨r, by simp only [powDigit, if_neg h, Res.pure_eq, Res.bind_ok], hr, lr, by rw [h0, pow_zero, Nat.mul_one], fun _ => rfl, by omega⟩
    obtain ⟨r1, b1, b2, b3, b4, b5, b6⟩ := hbit
    rw [b1]
    have hdd : d = d % 2 + 2 * (d / 2) := by omega
    by_cases hl : last = true ∧ d / 2 = 0
    · simp only [if_pos hl, Res.pure_eq]
      refine ⟨r1, x, rfl, b2, hx, b3, lx, ?_, fun h => b5 (by omega), fun h => b6 (by omega), fun h => by simp [h] at hl⟩
      have : d % 2 = d := by omega
      rwa [this] at b4
    · simp only [if_neg hl]
      obtain ⟨x1, x2, x3, x4, x5⟩ := mulm_ok (r := x) hm hx hx lx lx
      rw [x2, Res.bind_ok]
      have hx1 : val x1 ≡ val x ^ 2 [MOD val m] := by rw [x5, pow_two]; exact Nat.mod_modEq _ _
      obtain ⟨r', x', f1, f2, f3, f4, f5, f6, f7, f8, f9⟩ := ih (d / 2) r1 x1 (by rw [pow_succ] at hd; omega) b2 x4 b3 x3
      refine ⟨r', x', f1, f2, f3, f4, f5, ?_, ?_, ?_, ?_⟩
      · refine f6.trans ?_
        refine (b4.mul (hx1.pow (d / 2))).trans ?_
        rw [← pow_mul, Nat.mul_assoc, ← pow_add, ← hdd]
      · intro h
        rw [f7 (by omega), b5 (by omega)]
      · intro h
        by_cases h2 : d / 2 = 0
        · rw [f7 h2]; exact b6 (by omega)
        · exact f8 h2
      · intro h
        refine (f9 h).trans ?_
        refine (hx1.pow (2 ^ n)).trans ?_
        rw [← pow_mul, pow_succ 2 n, Nat.mul_comm 2]

theorem powLoop_ok {e m : List Nat} (hm : Good m) (he : Digs e) (n i cnt : Nat) (r x : List Nat) (hi : i + n = cnt + 1) (hl : i + n ≤ e.length)
    (hr : Digs r) (hx : Digs x) (lr : r.length = m.length) (lx : x.length = m.length) :
    ∃ r', powLoop e m cnt n i r x = .ok r' ∧ Digs r' ∧ r'.length = m.length ∧
      val r' ≡ val r * val x ^ part e i n [MOD val m] ∧ (part e i n = 0 → r' = r) ∧ (part e i n ≠ 0 → val r' < val m) := by
  induction n generalizing i r x with
  | zero =>
    rw [part_zero]
    exact ⟨r, rfl, hr, lr, by simp [Nat.ModEq.refl], fun _ => rfl, fun h => absurd rfl h⟩
  | succ n ih =>
    have hie : i < e.length := by omega
    obtain ⟨r1, x1, a1, a2, a3, a4, a5, a6, a7, a8, a9⟩ := powDigit_ok (last := decide (i = cnt)) hm 64 e[i] r x (digs_get he hie) hr hx lr lx
    obtain ⟨r', b1, b2, b3, b4, b5, b6⟩ := ih (i + 1) r1 x1 (by omega) (by omega) a2 a3 a4 a5
    rw [powLoop, rd_eq_ok hie, Res.bind_ok, a1, Res.bind_ok]
    have hp := part_succ n hie
    have hbase : base = 2 ^ 64 := rfl
    refine ⟨r', b1, b2, b3, ?_, ?_, ?_⟩
    · refine b4.trans ?_
      rw [hp]
      by_cases hn : n = 0
      · subst hn
        rw [part_zero, pow_zero, Nat.mul_one, Nat.mul_zero, Nat.add_zero]
        exact a6
      · have hx1 := a9 (by simp; omega)
        refine (a6.mul (hx1.pow _)).trans ?_
        rw [← pow_mul, Nat.mul_assoc, ← pow_add, hbase]
    · intro h
      rw [hp] at h
      have h1 : e[i] = 0 := by omega
      have h2 : part e (i + 1) n = 0 := by
        have : base * part e (i + 1) n = 0 := by omega
        rcases Nat.mul_eq_zero.mp this with h | h
        · exact absurd h (Nat.pos_iff_ne_zero.mp base_pos)
        · exact h
      rw [b5 h2, a7 h1]
    · intro h
      by_cases h2 : part e (i + 1) n = 0
      · rw [b5 h2]
        refine a8 ?_
        intro h3
        rw [hp, h2, h3] at h
        simp at h
      · exact b6 h2

/-- Powers modulo a number. -/
theorem powm_ok {r a e m : List Nat} (hm : Good m) (ha : Digs a) (he : Digs e) (la : a.length = m.length) (le : e.length = m.length) :
    ∃ r', powm r a e m = .ok (true, r') ∧ r'.length = m.length ∧ Digs r' ∧
      (val e = 0 → val r' = 1) ∧ (val e ≠ 0 → val r' = val a ^ val e % val m) := by
  have hml : 0 < m.length := by
    rcases m with _ | ⟨d, m⟩
    · exact absurd rfl hm.2.1
    · simp
  obtain ⟨len, t1, t2, t3, t4⟩ := trim_ok e e.length (Nat.le_refl _)
  rw [List.take_length] at t3
  have hr1 : setNat (setLength r m.length) 1 = (List.replicate m.length 0).set 0 1 := by rw [setNat, setZero_setLength]
  have hz : 0 < (List.replicate m.length 0).length := by rwa [List.length_replicate]
  have hd1 : Digs ((List.replicate m.length 0).set 0 1) := digs_set (digs_zeros _) base_gt
  have hl1 : ((List.replicate m.length 0).set 0 1).length = m.length := by rw [List.length_set, List.length_replicate]
  have hv1 : val ((List.replicate m.length 0).set 0 1) = 1 := by
    have := val_set 1 hz
    simpa [val_zeros] using this
  unfold powm
  rw [if_neg (by omega)]
  simp only [hr1, t1, Res.bind_ok]
  by_cases hlen : len = 0
  · rw [if_pos hlen]
    refine ⟨_, rfl, hl1, hd1, fun _ => hv1, fun h => absurd ?_ h⟩
    rw [← t3, hlen, List.take_zero]; rfl
  · obtain ⟨r', f1, f2, f3, f4, f5, f6⟩ := powLoop_ok (x := a) hm he len 0 (len - 1) _ (by omega) (by omega) hd1 ha hl1 la
    rw [part_full, t3] at f4 f5 f6
    rw [hv1, Nat.one_mul] at f4
    have hve : val e ≠ 0 := by
      rcases t4 with h | ⟨h1, h2⟩
      · exact absurd h hlen
      · have h3 := get_le_val h1
        have h4 : 0 < e[len - 1] * base ^ (len - 1) := Nat.mul_pos (Nat.pos_of_ne_zero h2) (Nat.pow_pos base_pos)
        omega
    rw [if_neg hlen, f1, Res.bind_ok]
    refine ⟨r', rfl, f3, f2, fun h => absurd h hve, fun _ => ?_⟩
    rw [← Nat.mod_eq_of_lt (f6 hve)]
    exact f4

end Verif.BigNum
