import Verif.Model.BigNumber
import Mathlib.Tactic.Ring
import Mathlib.Tactic.Linarith
/-! Big numbers: values of digit lists, multiplication. -/

namespace Verif.BigNum
open Verif

/-- The value of a list of digits. -/
def val : List Nat → Nat
  | [] => 0
  | d :: ds => d + base * val ds

/-- Digits are below the base. -/
def Digs (l : List Nat) : Prop := ∀ d ∈ l, d < base

theorem base_pos : 0 < base := by decide
theorem base_gt : 1 < base := by decide

theorem val_append (a b : List Nat) : val (a ++ b) = val a + base ^ a.length * val b := by
  induction a with
  | nil => simp [val]
  | cons d a ih => simp only [List.cons_append, val, ih, List.length_cons]; ring

theorem val_zeros (n : Nat) : val (List.replicate n 0) = 0 := by
  induction n with
  | zero => rfl
  | succ n ih => simp [List.replicate_succ, val, ih]

theorem digs_zeros (n : Nat) : Digs (List.replicate n 0) := by
  intro d h; rw [(List.mem_replicate.mp h).2]; exact base_pos

theorem val_lt {l : List Nat} (h : Digs l) : val l < base ^ l.length := by
  induction l with
  | nil => simp [val]
  | cons d l ih =>
    have h1 := h d (by simp)
    have h2 := ih fun x hx => h x (by simp [hx])
    simp only [val, List.length_cons, pow_succ]
    have h3 : val l + 1 ≤ base ^ l.length := h2
    have h4 := Nat.mul_le_mul_left base h3
    rw [Nat.mul_comm (base ^ l.length)]
    rw [Nat.mul_add, Nat.mul_one] at h4
    omega

theorem val_set {l : List Nat} {k : Nat} (v : Nat) (h : k < l.length) :
    val (l.set k v) + l[k] * base ^ k = val l + v * base ^ k := by
  induction l generalizing k with
  | nil => simp at h
  | cons d l ih =>
    cases k with
    | zero => simp [val]; omega
    | succ k =>
      have hk : k < l.length := by simpa using h
      have := ih (k := k) hk
      simp only [List.set_cons_succ, val, List.getElem_cons_succ, pow_succ]
      calc d + base * val (l.set k v) + l[k] * (base ^ k * base) = d + base * (val (l.set k v) + l[k] * base ^ k) := by ring
        _ = d + base * (val l + v * base ^ k) := by rw [this]
        _ = d + base * val l + v * (base ^ k * base) := by ring

theorem digs_set {l : List Nat} {k v : Nat} (h : Digs l) (hv : v < base) : Digs (l.set k v) := by
  intro d hd
  rcases List.mem_or_eq_of_mem_set hd with h1 | h1
  · exact h d h1
  · omega

theorem lo_lt (c : Nat) : lo c < base := Nat.mod_lt _ base_pos

theorem wr_ok {l : List Nat} {i : Nat} (v : Nat) (h : i < l.length) : wr l i v = .ok (l.set i v) := if_pos h

theorem digs_get {l : List Nat} (h : Digs l) {k : Nat} (hk : k < l.length) : l[k] < base := h _ (List.getElem_mem hk)

theorem lo_add (c : Nat) : lo c + base * (c / base) = c := Nat.mod_add_div c base

/-- The digits from `j` on, `n` of them. -/
def part (b : List Nat) (j n : Nat) : Nat := val ((b.drop j).take n)

theorem part_zero (b : List Nat) (j : Nat) : part b j 0 = 0 := by simp [part, val]

theorem part_succ {b : List Nat} {j : Nat} (n : Nat) (h : j < b.length) : part b j (n + 1) = b[j] + base * part b (j + 1) n := by
  unfold part
  rw [List.drop_eq_getElem_cons h, List.take_succ_cons, val]

/-- Sums of a product of digits and two digits fit a double digit. -/
theorem dadd_small {x y c d : Nat} (hx : x < base) (hy : y < base) (hc : c < base) (hd : d < base) :
    dadd (dadd c (x * y)) d = c + x * y + d ∧ (c + x * y + d) / base < base := by
  have h1 : x * y ≤ (base - 1) * (base - 1) := Nat.mul_le_mul (by omega) (by omega)
  have h2 : c + x * y + d < base * base := by unfold base at *; omega
  refine ⟨?_, Nat.div_lt_of_lt_mul h2⟩
  unfold dadd
  rw [Nat.mod_eq_of_lt (show c + x * y < base * base by omega), Nat.mod_eq_of_lt h2]

theorem mulRow_ok {x i : Nat} {b : List Nat} (hx : x < base) (hb : Digs b) (n j c : Nat) (dst : List Nat) (hd : Digs dst) (hc : c < base)
    (hj : j + n ≤ b.length) (hl : i + j + n ≤ dst.length) :
    ∃ dst' c', mulRow x b i n j c dst = .ok (dst', c') ∧ dst'.length = dst.length ∧ Digs dst' ∧ c' < base ∧
      val dst' + c' * base ^ (i + j + n) = val dst + (x * part b j n + c) * base ^ (i + j) ∧
      ∀ k, k < i + j ∨ i + j + n ≤ k → dst'[k]? = dst[k]? := by
  induction n generalizing j c dst with
  | zero => exact ⟨dst, c, rfl, rfl, hd, hc, by simp [part_zero], fun _ _ => rfl⟩
  | succ n ih =>
    have h1 : j < b.length := by omega
    have h2 : i + j < dst.length := by omega
    obtain ⟨h3, h4⟩ := dadd_small hx (digs_get hb h1) hc (digs_get hd h2)
    have hlt := lo_lt (c + x * b[j] + dst[i + j])
    obtain ⟨dst', c', e1, e2, e3, e4, e5, e6⟩ := ih (j + 1) ((c + x * b[j] + dst[i + j]) / base) (dst.set (i + j) (lo (c + x * b[j] + dst[i + j])))
      (digs_set hd hlt) h4 (by omega) (by rw [List.length_set]; omega)
    refine ⟨dst', c', ?_, by rw [e2, List.length_set], e3, e4, ?_, ?_⟩
    · simp only [mulRow, rd_eq_ok h1, rd_eq_ok h2, Res.bind_ok, h3, wr_ok _ h2]
      exact e1
    · have hs := val_set (lo (c + x * b[j] + dst[i + j])) h2
      have hlo := lo_add (c + x * b[j] + dst[i + j])
      rw [part_succ n h1, show i + j + (n + 1) = i + (j + 1) + n by omega, e5, show i + (j + 1) = i + j + 1 by omega, pow_succ]
      generalize (c + x * b[j] + dst[i + j]) / base = g at *
      generalize lo (c + x * b[j] + dst[i + j]) = f at *
      generalize base ^ (i + j) = P at *
      have : val (dst.set (i + j) f) + g * (P * base) = val dst + (c + x * b[j]) * P := by
        have h5 : val (dst.set (i + j) f) + dst[i + j] * P + (base * g) * P = val dst + (f + base * g) * P := by rw [hs]; ring
        rw [hlo] at h5
        have h6 : val dst + (c + x * b[j] + dst[i + j]) * P = val dst + (c + x * b[j]) * P + dst[i + j] * P := by ring
        rw [h6] at h5
        have h7 : base * g * P = g * (P * base) := by ring
        omega
      calc val (dst.set (i + j) f) + (x * part b (j + 1) n + g) * (P * base)
          = val (dst.set (i + j) f) + g * (P * base) + x * part b (j + 1) n * (P * base) := by ring
        _ = val dst + (c + x * b[j]) * P + x * part b (j + 1) n * (P * base) := by rw [this]
        _ = val dst + (x * (b[j] + base * part b (j + 1) n) + c) * P := by ring
    · intro k hk
      rw [e6 k (by omega), List.getElem?_set_ne (by omega)]

theorem trim_ok (a : List Nat) (n : Nat) (hn : n ≤ a.length) :
    ∃ m, trim a n = .ok m ∧ m ≤ n ∧ val (a.take m) = val (a.take n) ∧ (m = 0 ∨ ∃ h : m - 1 < a.length, a[m - 1] ≠ 0) := by
  induction n with
  | zero => exact ⟨0, rfl, Nat.le_refl _, rfl, .inl rfl⟩
  | succ n ih =>
    have h1 : n < a.length := hn
    by_cases h0 : a[n] = 0
    · obtain ⟨m, e1, e2, e3, e4⟩ := ih (by omega)
      refine ⟨m, ?_, by omega, ?_, e4⟩
      · simp only [trim, rd_eq_ok h1, Res.bind_ok, if_pos h0, e1]
      · rw [e3, List.take_succ_eq_append_getElem h1, val_append, h0]; simp [val]
    · exact ⟨n + 1, by simp only [trim, rd_eq_ok h1, Res.bind_ok, if_neg h0, Res.pure_eq], Nat.le_refl _, rfl, .inr ⟨h1, h0⟩⟩

theorem digs_take {l : List Nat} (n : Nat) (h : Digs l) : Digs (l.take n) := fun d hd => h d (List.mem_of_mem_take hd)
theorem digs_drop {l : List Nat} (n : Nat) (h : Digs l) : Digs (l.drop n) := fun d hd => h d (List.mem_of_mem_drop hd)

theorem part_full {b : List Nat} (n : Nat) : part b 0 n = val (b.take n) := by simp [part]

theorem take_succ_val {a : List Nat} {i : Nat} (h : i < a.length) : val (a.take (i + 1)) = val (a.take i) + a[i] * base ^ i := by
  rw [List.take_succ_eq_append_getElem h, val_append]
  simp [val, Nat.min_eq_left (Nat.le_of_lt h)]; ring

theorem mulRows_ok {a b : List Nat} (ha : Digs a) (hb : Digs b) {len2 : Nat} (hb2 : len2 ≤ b.length) (n i : Nat) (dst : List Nat) (hd : Digs dst)
    (hi : i + n ≤ a.length) (hl : i + n + len2 ≤ dst.length) (hv : val dst = val (a.take i) * val (b.take len2))
    (hz : ∀ k, i + len2 ≤ k → k < dst.length → dst[k]? = some 0) :
    ∃ dst', mulRows a b len2 n i dst = .ok dst' ∧ dst'.length = dst.length ∧ Digs dst' ∧ val dst' = val (a.take (i + n)) * val (b.take len2) := by
  induction n generalizing i dst with
  | zero => exact ⟨dst, rfl, rfl, hd, hv⟩
  | succ n ih =>
    have h1 : i < a.length := by omega
    obtain ⟨d1, c1, e1, e2, e3, e4, e5, e6⟩ := mulRow_ok (i := i) (digs_get ha h1) hb len2 0 0 dst hd base_pos (by omega) (by omega)
    have h2 : i + len2 < d1.length := by omega
    have hlo : lo c1 = c1 := Nat.mod_eq_of_lt e4
    have h0 : d1[i + len2] = 0 := by
      have := (e6 (i + len2) (.inr (by omega))).trans (hz _ (Nat.le_refl _) (by omega))
      rw [List.getElem?_eq_getElem h2] at this
      simpa using this
    have hs := val_set c1 h2
    obtain ⟨d2, f1, f2, f3, f4⟩ := ih (i + 1) (d1.set (i + len2) c1) (digs_set e3 e4) (by omega) (by rw [List.length_set]; omega) (by
      rw [take_succ_val h1, Nat.add_mul, ← hv]
      rw [h0, Nat.zero_mul, Nat.add_zero] at hs
      rw [hs, show i + 0 + len2 = i + len2 by omega, part_full] at *
      rw [e5]
      ring) (by
      intro k hk1 hk2
      rw [List.length_set] at hk2
      rw [List.getElem?_set_ne (by omega), e6 k (.inr (by omega)), hz k (by omega) (by omega)])
    refine ⟨d2, ?_, by rw [f2, List.length_set, e2], f3, by rw [f4, show i + 1 + n = i + (n + 1) by omega]⟩
    simp only [mulRows, rd_eq_ok h1, Res.bind_ok, e1, hlo, wr_ok _ h2, f1]

theorem mulH_ok {a b : List Nat} (ha : Digs a) (hb : Digs b) (k : Nat) (hk : k = a.length + b.length) :
    ∃ d, mulH a a.length b b.length (List.replicate k 0) = .ok d ∧ d.length = k ∧ Digs d ∧ val d = val a * val b := by
  obtain ⟨m, e1, e2, e3, _⟩ := trim_ok a a.length (Nat.le_refl _)
  obtain ⟨n, f1, f2, f3, _⟩ := trim_ok b b.length (Nat.le_refl _)
  obtain ⟨d, g1, g2, g3, g4⟩ := mulRows_ok ha hb f2 m 0 (List.replicate k 0) (digs_zeros _) (by omega) (by simp; omega) (by simp [val_zeros, val])
    (by intro k' _ h; simp at h; simp [h])
  refine ⟨d, by simp only [mulH, e1, f1, Res.bind_ok, g1], by simpa using g2, g3, ?_⟩
  rw [g4, Nat.zero_add, e3, f3, List.take_length, List.take_length]

/-- The squares of the first `i` digits, at their places. -/
def sqs (a : List Nat) : Nat → Nat
  | 0 => 0
  | i + 1 => sqs a i + (a[i]?.getD 0) * (a[i]?.getD 0) * base ^ (2 * i)

theorem crossRows_ok {a : List Nat} (ha : Digs a) {len : Nat} (hlen : len ≤ a.length) (n i : Nat) (dst : List Nat) (hd : Digs dst)
    (hi : i + n = len) (hl : 2 * len ≤ dst.length)
    (hv : 2 * val dst + sqs a i + base ^ (2 * i) * (part a i (len - i) * part a i (len - i)) = val (a.take len) * val (a.take len))
    (hz : ∀ k, i + len ≤ k → k < dst.length → dst[k]? = some 0) (h0 : ∀ x, dst[0]? = some x → x = 0) :
    ∃ dst', crossRows a len n i dst = .ok dst' ∧ dst'.length = dst.length ∧ Digs dst' ∧
      2 * val dst' + sqs a len = val (a.take len) * val (a.take len) ∧
      (∀ k, 2 * len ≤ k → k < dst.length → dst'[k]? = some 0) ∧ ∀ x, dst'[0]? = some x → x = 0 := by
  induction n generalizing i dst with
  | zero =>
    obtain rfl : i = len := by omega
    refine ⟨dst, rfl, rfl, hd, ?_, fun k h1 h2 => hz k (by omega) h2, h0⟩
    rw [Nat.sub_self, part_zero] at hv
    simpa using hv
  | succ n ih =>
    have h1 : i < a.length := by omega
    obtain ⟨d1, c1, e1, e2, e3, e4, e5, e6⟩ := mulRow_ok (i := i) (digs_get ha h1) ha (len - (i + 1)) (i + 1) 0 dst hd base_pos (by omega) (by omega)
    have h2 : i + len < d1.length := by omega
    have hlo : lo c1 = c1 := Nat.mod_eq_of_lt e4
    have hc0 : d1[i + len] = 0 := by
      have := (e6 (i + len) (.inr (by omega))).trans (hz _ (Nat.le_refl _) (by omega))
      rw [List.getElem?_eq_getElem h2] at this
      simpa using this
    have hs := val_set c1 h2
    rw [hc0, Nat.zero_mul, Nat.add_zero] at hs
    obtain ⟨d2, f1, f2, f3, f4, f5, f6⟩ := ih (i + 1) (d1.set (i + len) c1) (digs_set e3 e4) (by omega) (by rw [List.length_set]; omega) (by
      rw [← hv, hs, show c1 * base ^ (i + len) = c1 * base ^ (i + (i + 1) + (len - (i + 1))) by rw [show i + (i + 1) + (len - (i + 1)) = i + len by omega], e5, show len - i = len - (i + 1) + 1 by omega, part_succ _ h1, sqs]
      rw [List.getElem?_eq_getElem h1]
      simp only [Option.getD_some]
      generalize part a (i + 1) (len - (i + 1)) = T
      rw [show 2 * (i + 1) = 2 * i + 2 by omega, show i + (i + 1) = 2 * i + 1 by omega, pow_succ, pow_succ, pow_succ]
      ring) (by
      intro k hk1 hk2
      rw [List.length_set] at hk2
      rw [List.getElem?_set_ne (by omega), e6 k (.inr (by omega)), hz k (by omega) (by omega)]) (by
      intro x hx
      rw [List.getElem?_set_ne (by omega), e6 0 (.inl (by omega))] at hx
      exact h0 x hx)
    refine ⟨d2, ?_, by rw [f2, List.length_set, e2], f3, f4, fun k h3 h4 => f5 k h3 (by rw [List.length_set]; omega), f6⟩
    simp only [crossRows, rd_eq_ok h1, Res.bind_ok, e1, hlo, wr_ok _ h2, f1]

theorem or_double {c : Nat} (d : Nat) (hc : c ≤ 1) (hd : d < base) : c ||| (d <<< 1) % (base * base) = c + 2 * d := by
  have h1 : d <<< 1 = 2 * d := by rw [Nat.shiftLeft_eq]; omega
  rw [Nat.mod_eq_of_lt (by rw [h1]; unfold base at *; omega), Nat.or_comm, ← Nat.shiftLeft_add_eq_or_of_lt (by omega) d, h1, Nat.add_comm]

theorem double_ok (n i c : Nat) (dst : List Nat) (hd : Digs dst) (hc : c ≤ 1) (hl : i + n ≤ dst.length) :
    ∃ dst' c', double n i c dst = .ok dst' ∧ dst'.length = dst.length ∧ Digs dst' ∧
      val dst' + c' * base ^ (i + n) = val dst + (part dst i n + c) * base ^ i ∧
      ∀ k, i + n ≤ k → dst'[k]? = dst[k]? := by
  induction n generalizing i c dst with
  | zero => exact ⟨dst, c, rfl, rfl, hd, by simp [part_zero], fun _ _ => rfl⟩
  | succ n ih =>
    have h1 : i < dst.length := by omega
    have hdi := digs_get hd h1
    have h2 := or_double dst[i] hc hdi
    have h3 : (c + 2 * dst[i]) / base ≤ 1 := by
      have : (c + 2 * dst[i]) / base < 2 := Nat.div_lt_of_lt_mul (by omega)
      omega
    have hlt := lo_lt (c + 2 * dst[i])
    obtain ⟨d', c', e1, e2, e3, e4, e5⟩ := ih (i + 1) ((c + 2 * dst[i]) / base) (dst.set i (lo (c + 2 * dst[i]))) (digs_set hd hlt) h3 (by rw [List.length_set]; omega)
    refine ⟨d', c', ?_, by rw [e2, List.length_set], e3, ?_, ?_⟩
    · simp only [double, rd_eq_ok h1, Res.bind_ok, h2, wr_ok _ h1, e1]
    · have hs := val_set (lo (c + 2 * dst[i])) h1
      have hlo := lo_add (c + 2 * dst[i])
      have hp : part (dst.set i (lo (c + 2 * dst[i]))) (i + 1) n = part dst (i + 1) n := by
        unfold part
        rw [List.drop_set_of_lt (by omega)]
      rw [show i + (n + 1) = i + 1 + n by omega, e4, hp, part_succ n h1, pow_succ]
      generalize (c + 2 * dst[i]) / base = g at *
      generalize lo (c + 2 * dst[i]) = f at *
      generalize base ^ i = P at *
      generalize part dst (i + 1) n = T
      have h5 : val (dst.set i f) + dst[i] * P + (base * g) * P = val dst + (f + base * g) * P := by rw [hs]; ring
      rw [hlo] at h5
      have h6 : val (dst.set i f) + (T + g) * (P * base) + dst[i] * P = (val (dst.set i f) + dst[i] * P + (base * g) * P) + T * base * P := by ring
      have h7 : val dst + (dst[i] + base * T + c) * P + dst[i] * P = val dst + (c + 2 * dst[i]) * P + T * base * P := by ring
      rw [h5] at h6
      omega
    · intro k hk
      rw [e5 k (by omega), List.getElem?_set_ne (by omega)]

theorem squares_ok {a : List Nat} (ha : Digs a) (n i c : Nat) (dst : List Nat) (hd : Digs dst) (hc : c ≤ 1) (hi : i + n ≤ a.length) (hl : 2 * (i + n) ≤ dst.length) :
    ∃ dst' c', squares a n i c dst = .ok dst' ∧ dst'.length = dst.length ∧ Digs dst' ∧
      val dst' + c' * base ^ (2 * (i + n)) + sqs a i = val dst + c * base ^ (2 * i) + sqs a (i + n) := by
  induction n generalizing i c dst with
  | zero => exact ⟨dst, c, rfl, rfl, hd, by simp⟩
  | succ n ih =>
    have h1 : i < a.length := by omega
    have h2 : 2 * i < dst.length := by omega
    have hx := digs_get ha h1
    obtain ⟨h3, h4⟩ := dadd_small hx hx (show c < base by have := base_gt; omega) (digs_get hd h2)
    have hlt := lo_lt (c + a[i] * a[i] + dst[2 * i])
    have h5 : 2 * i + 1 < (dst.set (2 * i) (lo (c + a[i] * a[i] + dst[2 * i]))).length := by rw [List.length_set]; omega
    have hd1 := digs_set (k := 2 * i) hd hlt
    have hy := digs_get hd1 h5
    have h6 : dadd ((c + a[i] * a[i] + dst[2 * i]) / base) (dst.set (2 * i) (lo (c + a[i] * a[i] + dst[2 * i])))[2 * i + 1] =
        (c + a[i] * a[i] + dst[2 * i]) / base + (dst.set (2 * i) (lo (c + a[i] * a[i] + dst[2 * i])))[2 * i + 1] := by
      unfold dadd
      exact Nat.mod_eq_of_lt (by unfold base at *; omega)
    have hs1 := val_set (lo (c + a[i] * a[i] + dst[2 * i])) h2
    have hlo1 := lo_add (c + a[i] * a[i] + dst[2 * i])
    have hs2 := val_set (lo ((c + a[i] * a[i] + dst[2 * i]) / base + (dst.set (2 * i) (lo (c + a[i] * a[i] + dst[2 * i])))[2 * i + 1])) h5
    have hlo2 := lo_add ((c + a[i] * a[i] + dst[2 * i]) / base + (dst.set (2 * i) (lo (c + a[i] * a[i] + dst[2 * i])))[2 * i + 1])
    have h7 : ((c + a[i] * a[i] + dst[2 * i]) / base + (dst.set (2 * i) (lo (c + a[i] * a[i] + dst[2 * i])))[2 * i + 1]) / base ≤ 1 := by
      have : ((c + a[i] * a[i] + dst[2 * i]) / base + (dst.set (2 * i) (lo (c + a[i] * a[i] + dst[2 * i])))[2 * i + 1]) / base < 2 := Nat.div_lt_of_lt_mul (by omega)
      omega
    have hlt2 := lo_lt ((c + a[i] * a[i] + dst[2 * i]) / base + (dst.set (2 * i) (lo (c + a[i] * a[i] + dst[2 * i])))[2 * i + 1])
    obtain ⟨d', c', e1, e2, e3, e4⟩ := ih (i + 1) _ _ (digs_set (k := 2 * i + 1) hd1 hlt2) h7 (by omega) (by simp only [List.length_set]; omega)
    refine ⟨d', c', ?_, by rw [e2, List.length_set, List.length_set], e3, ?_⟩
    · simp only [squares, rd_eq_ok h1, rd_eq_ok h2, Res.bind_ok, h3, wr_ok _ h2, rd_eq_ok h5, h6, wr_ok _ h5, e1]
    · rw [sqs, List.getElem?_eq_getElem h1, Option.getD_some, show i + 1 + n = i + (n + 1) by omega, show 2 * (i + 1) = 2 * i + 1 + 1 by omega, pow_succ, pow_succ] at e4
      rw [pow_succ] at hs2
      generalize (dst.set (2 * i) (lo (c + a[i] * a[i] + dst[2 * i])))[2 * i + 1] = y at *
      generalize hD2 : (dst.set (2 * i) (lo (c + a[i] * a[i] + dst[2 * i]))).set (2 * i + 1) (lo ((c + a[i] * a[i] + dst[2 * i]) / base + y)) = D2 at *
      generalize hD1 : dst.set (2 * i) (lo (c + a[i] * a[i] + dst[2 * i])) = D1 at *
      generalize ((c + a[i] * a[i] + dst[2 * i]) / base + y) / base = g2 at *
      generalize lo ((c + a[i] * a[i] + dst[2 * i]) / base + y) = f2 at *
      generalize (c + a[i] * a[i] + dst[2 * i]) / base = g1 at *
      generalize lo (c + a[i] * a[i] + dst[2 * i]) = f1 at *
      generalize base ^ (2 * i) = P at *
      generalize c' * base ^ (2 * (i + (n + 1))) = E at *
      generalize a[i] * a[i] = xx at *
      have k1 : val D1 + dst[2 * i] * P + base * g1 * P = val dst + (f1 + base * g1) * P := by rw [hs1]; ring
      rw [hlo1] at k1
      have k2 : val D2 + y * (P * base) + base * g2 * (P * base) = val D1 + (f2 + base * g2) * (P * base) := by rw [hs2]; ring
      rw [hlo2] at k2
      have k3 : (g1 + y) * (P * base) = base * g1 * P + y * (P * base) := by ring
      have k4 : (c + xx + dst[2 * i]) * P = c * P + xx * P + dst[2 * i] * P := by ring
      have k5 : g2 * (P * base * base) = base * g2 * (P * base) := by ring
      omega

theorem val_eq_zero {l : List Nat} (h : ∀ d ∈ l, d = 0) : val l = 0 := by
  induction l with
  | nil => rfl
  | cons d l ih => rw [val, h d (by simp), ih fun x hx => h x (by simp [hx])]; omega

theorem val_take_zero {l : List Nat} {n : Nat} (h : ∀ k, n ≤ k → k < l.length → l[k]? = some 0) : val l = val (l.take n) := by
  conv => lhs; rw [← List.take_append_drop n l]
  rw [val_append, val_eq_zero (l := l.drop n), Nat.mul_zero, Nat.add_zero]
  intro d hd
  obtain ⟨k, hk, rfl⟩ := List.getElem_of_mem hd
  have h1 : n + k < l.length := by rw [List.length_drop] at hk; omega
  have := h (n + k) (by omega) h1
  rw [List.getElem?_eq_getElem h1] at this
  simpa using this

theorem squareH_ok {a : List Nat} (ha : Digs a) (k : Nat) (hk : k = a.length + a.length) :
    ∃ d, squareH a a.length (List.replicate k 0) = .ok d ∧ d.length = k ∧ Digs d ∧ val d = val a * val a := by
  obtain ⟨m, e1, e2, e3, _⟩ := trim_ok a a.length (Nat.le_refl _)
  rw [List.take_length] at e3
  cases m with
  | zero =>
    refine ⟨List.replicate k 0, by simp [squareH, e1, crossRows, double, squares], by simp, digs_zeros _, ?_⟩
    rw [← e3, val_zeros]
    rfl
  | succ m =>
  obtain ⟨d1, f1, f2, f3, f4, f5, f6⟩ := crossRows_ok ha e2 (m + 1) 0 (List.replicate k 0) (digs_zeros _) (by omega) (by simp; omega)
    (by simp [val_zeros, sqs, part_full]) (by intro k' _ h; simp at h; simp [h]) (by intro x h; rw [List.getElem?_replicate] at h; split at h <;> simp_all)
  rw [List.length_replicate] at f2 f5
  obtain ⟨d2, c2, g1, g2, g3, g4, _⟩ := double_ok (2 * (m + 1) - 1) 1 0 d1 f3 (by omega) (by omega)
  obtain ⟨d3, c3, h1, h2, h3, h4⟩ := squares_ok ha (m + 1) 0 0 d2 g3 (by omega) (by omega) (by omega)
  have hv1 : val d1 = base * part d1 1 (2 * (m + 1) - 1) := by
    have hp : 0 < d1.length := by omega
    rw [val_take_zero (n := 2 * (m + 1)) (fun k h1 h2 => f5 k h1 (by omega)), ← part_full,
      show 2 * (m + 1) = 2 * (m + 1) - 1 + 1 by omega, part_succ _ hp, f6 _ (List.getElem?_eq_getElem hp), Nat.zero_add]
    rfl
  have hlt : val a * val a < base ^ (2 * (m + 1)) := by
    have : val a < base ^ (m + 1) := by
      rw [← e3]
      have := val_lt (digs_take (m + 1) ha)
      rwa [List.length_take, Nat.min_eq_left e2] at this
    rw [Nat.two_mul, pow_add]
    exact Nat.mul_lt_mul'' this this
  rw [e3] at f4
  rw [show 1 + (2 * (m + 1) - 1) = 2 * (m + 1) by omega] at g4
  have hg : val d2 + c2 * base ^ (2 * (m + 1)) = 2 * val d1 := by
    rw [g4, pow_one, Nat.add_zero, Nat.mul_comm _ base, ← hv1]; omega
  have hz : ∀ {x c y : Nat}, x + c * base ^ (2 * (m + 1)) = y → y < base ^ (2 * (m + 1)) → x = y := by
    intro x c y h1 h2
    cases c with
    | zero => omega
    | succ c => rw [Nat.succ_mul] at h1; omega
  have hv2 : val d2 = 2 * val d1 := hz hg (by omega)
  have h4' : val d3 + c3 * base ^ (2 * (m + 1)) = val a * val a := by
    rw [Nat.zero_add, Nat.zero_mul, Nat.add_zero, show sqs a 0 = 0 from rfl, Nat.add_zero, hv2] at h4
    rw [h4, Nat.add_zero, f4]
  exact ⟨d3, by simp only [squareH, e1, Res.bind_ok, f1, g1, h1], by omega, h3, hz h4' hlt⟩

theorem setZero_setLength (l : List Nat) (n : Nat) : setZero (setLength l n) = List.replicate n 0 := by
  simp only [setZero, setLength, List.length_append, List.length_take, List.length_replicate]
  congr 1; omega

/-- Products are right. -/
theorem dbiMul_ok {t a b : List Nat} (ha : Digs a) (hb : Digs b) :
    ∃ d, dbiMul t a b = .ok d ∧ d.length = a.length + b.length ∧ Digs d ∧ val d = val a * val b := by
  simp only [dbiMul, setZero_setLength]
  split
  · rename_i h; subst h; exact squareH_ok ha _ rfl
  · exact mulH_ok ha hb _ rfl

end Verif.BigNum
