import Verif.Spec.Encoding
/-! RC4 on states coded as numbers, so that the kernel can compute key streams of concrete keys. -/

namespace Verif.RC4Code
open Verif

/-- The byte `i` of a number. -/
def byte (p i : Nat) : Nat := (p >>> (8 * i)) % 256

/-- Exchange of the bytes `x` and `y`. -/
def swap (p x y : Nat) : Nat := p ^^^ ((byte p x ^^^ byte p y) <<< (8 * x)) ^^^ ((byte p x ^^^ byte p y) <<< (8 * y))

/-- One round of the generator; the table from bit 16 on, then `j`, then `i`. -/
def step (s : Nat) : Nat :=
  let p := s >>> 16
  let x := (s + 1) % 256
  let y := (s >>> 8 + byte p x) % 256
  (swap p x y) <<< 16 + y * 256 + x

def loop : Nat → Nat → Nat
  | 0, s => s
  | n + 1, s => bif Nat.beq s 0 then 0 else loop n (step s)

/-- One round of the key schedule for a key of 20 bytes; the table from bit 24 on, then `j`, then the round. -/
def kstep (k : Nat) (s : Nat) : Nat :=
  let p := s >>> 24
  let x := s % 65536
  let y := (s >>> 16 + byte p x + byte k (x % 20)) % 256
  (swap p x y) <<< 24 + y * 65536 + (x + 1)

def kloop (k : Nat) : Nat → Nat → Nat
  | 0, s => s
  | n + 1, s => bif Nat.beq s 0 then 0 else kloop k n (kstep k s)

/-- The table the key schedule starts with. -/
def ident : Nat := (List.range 256).foldr (fun i p => p * 256 + i) 0

theorem byte_lt (p i : Nat) : byte p i < 256 := Nat.mod_lt _ (by decide)

theorem byte_xor (p q i : Nat) : byte (p ^^^ q) i = byte p i ^^^ byte q i := by
  unfold byte
  rw [Nat.shiftRight_xor_distrib, show 256 = 2 ^ 8 from rfl, Nat.xor_mod_two_pow]

theorem byte_shift {d : Nat} (hd : d < 256) (x i : Nat) : byte (d <<< (8 * x)) i = if i = x then d else 0 := by
  unfold byte
  rw [Nat.shiftLeft_eq, Nat.shiftRight_eq_div_pow]
  split
  · rename_i h
    rw [h, Nat.mul_div_cancel _ (Nat.two_pow_pos _), Nat.mod_eq_of_lt hd]
  · rename_i h
    rcases Nat.lt_or_ge i x with hl | hg
    · have : 8 * x = 8 * i + (8 * (x - i - 1) + 8) := by omega
      rw [this, Nat.pow_add, ← Nat.mul_assoc, Nat.mul_comm d, Nat.mul_assoc, Nat.mul_div_cancel_left _ (Nat.two_pow_pos _), Nat.pow_add, ← Nat.mul_assoc]
      exact Nat.mul_mod_left _ _
    · have : 8 * i = 8 * x + (8 * (i - x - 1) + 8) := by omega
      rw [this, Nat.pow_add, ← Nat.div_div_eq_div_mul, Nat.mul_div_cancel _ (Nat.two_pow_pos _), Nat.div_eq_of_lt]
      rw [Nat.pow_add]
      have : 0 < 2 ^ (8 * (i - x - 1)) := Nat.two_pow_pos _
      exact Nat.lt_of_lt_of_le (m := 2 ^ 8) hd (Nat.le_mul_of_pos_left _ this)

theorem byte_swap (p x y i : Nat) : byte (swap p x y) i = Spec.swapF (byte p) x y i := by
  have hd : byte p x ^^^ byte p y < 256 := Nat.xor_lt_two_pow (n := 8) (byte_lt p x) (byte_lt p y)
  unfold swap Spec.swapF
  rw [byte_xor, byte_xor, byte_shift hd, byte_shift hd]
  by_cases h1 : i = x <;> by_cases h2 : i = y
  · subst h1; subst h2; simp
  · subst h1
    simp only [if_true, if_neg h2, Nat.xor_zero, ← Nat.xor_assoc, Nat.xor_self, Nat.zero_xor]
  · subst h2
    simp only [if_neg h1, if_true, Nat.xor_zero]
    rw [Nat.xor_comm (byte p x), ← Nat.xor_assoc, Nat.xor_self, Nat.zero_xor]
  · simp only [if_neg h1, if_neg h2, Nat.xor_zero]

/-- The code of a state of the generator. -/
def Codes (s : Nat) (g : (Nat → Nat) × Nat × Nat) : Prop :=
  (∀ k, k < 256 → byte (s >>> 16) k = g.1 k) ∧ s % 256 = g.2.1 ∧ (s >>> 8) % 256 = g.2.2

theorem swapF_congr {f g : Nat → Nat} {x y : Nat} (h : ∀ k, k < 256 → f k = g k) (hx : x < 256) (hy : y < 256) :
    ∀ k, k < 256 → Spec.swapF f x y k = Spec.swapF g x y k := by
  intro k hk
  unfold Spec.swapF
  simp only [h k hk, h x hx, h y hy]

theorem pack16 (q y x : Nat) (hy : y < 256) (hx : x < 256) :
    (q <<< 16 + y * 256 + x) >>> 16 = q ∧ (q <<< 16 + y * 256 + x) % 256 = x ∧ (q <<< 16 + y * 256 + x) >>> 8 % 256 = y := by
  simp only [Nat.shiftLeft_eq, Nat.shiftRight_eq_div_pow]
  omega

theorem pack24 (q y x : Nat) (hy : y < 256) (hx : x < 65536) :
    (q <<< 24 + y * 65536 + x) >>> 24 = q ∧ (q <<< 24 + y * 65536 + x) % 65536 = x ∧ (q <<< 24 + y * 65536 + x) >>> 16 % 256 = y := by
  simp only [Nat.shiftLeft_eq, Nat.shiftRight_eq_div_pow]
  omega

theorem step_codes {key : List UInt8} {n s : Nat} (h : Codes s (Spec.rc4Gen key n)) : Codes (step s) (Spec.rc4Gen key (n + 1)) := by
  obtain ⟨h1, h2, h3⟩ := h
  have hx : (s + 1) % 256 = ((Spec.rc4Gen key n).2.1 + 1) % 256 := by omega
  have hy : (s >>> 8 + byte (s >>> 16) ((s + 1) % 256)) % 256 =
      ((Spec.rc4Gen key n).2.2 + (Spec.rc4Gen key n).1 (((Spec.rc4Gen key n).2.1 + 1) % 256)) % 256 := by
    rw [h1 _ (Nat.mod_lt _ (by decide)), hx]; omega
  unfold step
  dsimp only
  rw [hx] at hy ⊢
  rw [hy]
  obtain ⟨p1, p2, p3⟩ := pack16 (swap (s >>> 16) (((Spec.rc4Gen key n).2.1 + 1) % 256)
    (((Spec.rc4Gen key n).2.2 + (Spec.rc4Gen key n).1 (((Spec.rc4Gen key n).2.1 + 1) % 256)) % 256)) _ _
    (Nat.mod_lt ((Spec.rc4Gen key n).2.2 + (Spec.rc4Gen key n).1 (((Spec.rc4Gen key n).2.1 + 1) % 256)) (by decide))
    (Nat.mod_lt ((Spec.rc4Gen key n).2.1 + 1) (by decide))
  refine ⟨fun k hk => ?_, p2, p3⟩
  rw [p1, byte_swap]
  exact swapF_congr h1 (Nat.mod_lt _ (by decide)) (Nat.mod_lt _ (by decide)) k hk

theorem loop_codes {key : List UInt8} : ∀ (m : Nat) {n s : Nat}, Codes s (Spec.rc4Gen key n) → loop m s ≠ 0 →
    Codes (loop m s) (Spec.rc4Gen key (n + m))
  | 0, n, s, h, _ => h
  | m + 1, n, s, h, h0 => by
    rw [loop] at h0 ⊢
    cases hb : Nat.beq s 0 with
    | true => rw [hb] at h0; exact absurd rfl h0
    | false =>
      rw [hb] at h0
      have := loop_codes m (step_codes h) h0
      rwa [show n + 1 + m = n + (m + 1) by omega] at this

/-- The code of a state of the key schedule. -/
def KCodes (s n : Nat) (g : (Nat → Nat) × Nat) : Prop :=
  (∀ k, k < 256 → byte (s >>> 24) k = g.1 k) ∧ s % 65536 = n ∧ (s >>> 16) % 256 = g.2

theorem kstep_codes {key : List UInt8} {k n s : Nat} (hk : ∀ i, i < 20 → byte k i = (key.getD i 0).toNat) (hl : key.length = 20)
    (hn : n < 256) (h : KCodes s n (Spec.rc4Ksa key n)) : KCodes (kstep k s) (n + 1) (Spec.rc4Ksa key (n + 1)) := by
  obtain ⟨h1, h2, h3⟩ := h
  have hy : (s >>> 16 + byte (s >>> 24) n + byte k (n % 20)) % 256 =
      ((Spec.rc4Ksa key n).2 + (Spec.rc4Ksa key n).1 n + (key.getD (n % key.length) 0).toNat) % 256 := by
    rw [h1 _ hn, hk _ (Nat.mod_lt _ (by decide)), hl]; omega
  unfold kstep
  dsimp only
  rw [h2, hy]
  obtain ⟨p1, p2, p3⟩ := pack24 (swap (s >>> 24) n
    (((Spec.rc4Ksa key n).2 + (Spec.rc4Ksa key n).1 n + (key.getD (n % key.length) 0).toNat) % 256)) _ (n + 1)
    (Nat.mod_lt ((Spec.rc4Ksa key n).2 + (Spec.rc4Ksa key n).1 n + (key.getD (n % key.length) 0).toNat) (by decide)) (by omega)
  refine ⟨fun i hi => ?_, p2, p3⟩
  rw [p1, byte_swap]
  exact swapF_congr h1 hn (Nat.mod_lt _ (by decide)) i hi

theorem kloop_codes {key : List UInt8} {k : Nat} (hk : ∀ i, i < 20 → byte k i = (key.getD i 0).toNat) (hl : key.length = 20) :
    ∀ (m : Nat) {n s : Nat}, n + m ≤ 256 → KCodes s n (Spec.rc4Ksa key n) → kloop k m s ≠ 0 → KCodes (kloop k m s) (n + m) (Spec.rc4Ksa key (n + m))
  | 0, n, s, _, h, _ => h
  | m + 1, n, s, hn, h, h0 => by
    rw [kloop] at h0 ⊢
    cases hb : Nat.beq s 0 with
    | true => rw [hb] at h0; exact absurd rfl h0
    | false =>
      rw [hb] at h0
      have := kloop_codes hk hl m (by omega) (kstep_codes hk hl (by omega) h) h0
      rwa [show n + 1 + m = n + (m + 1) by omega] at this

theorem ident_codes : KCodes (ident <<< 24) 0 (Spec.rc4Ksa key 0) := by
  refine ⟨?_, ?_, ?_⟩
  · show ∀ k, k < 256 → byte ((ident <<< 24) >>> 24) k = k
    decide +kernel
  · decide +kernel
  · show _ = 0
    decide +kernel

/-- The code of the state in which `n` bytes of the key stream have been delivered. -/
def state (k n : Nat) : Nat := loop n (((kloop k 256 (ident <<< 24)) >>> 24) <<< 16)

/-- The byte delivered last. -/
def out (s : Nat) : Nat := byte (s >>> 16) ((byte (s >>> 16) (s % 256) + byte (s >>> 16) (s >>> 8 % 256)) % 256)

theorem start_codes {key : List UInt8} {K N n : Nat} (h : KCodes K n (Spec.rc4Ksa key N)) (hN : N = 256) :
    Codes ((K >>> 24) <<< 16) (Spec.rc4Gen key 0) := by
  obtain ⟨p1, p2, p3⟩ := pack16 (K >>> 24) 0 0 (by decide) (by decide)
  rw [Nat.zero_mul, Nat.add_zero] at p1 p2 p3
  refine ⟨fun i hi => ?_, p2, p3⟩
  rw [p1, Spec.rc4Gen, ← hN]
  exact h.1 i hi

theorem state_codes {key : List UInt8} {k : Nat} (hk : ∀ i, i < 20 → byte k i = (key.getD i 0).toNat) (hl : key.length = 20) {n : Nat}
    (h0 : kloop k 256 (ident <<< 24) ≠ 0) (h : state k n ≠ 0) : Codes (state k n) (Spec.rc4Gen key n) := by
  have h1 := start_codes (kloop_codes hk hl 256 (n := 0) (by decide) ident_codes h0) rfl
  have := loop_codes n h1 h
  rwa [Nat.zero_add] at this

/-- A byte of the key stream, computed. -/
theorem rc4Byte_eq {key : List UInt8} {k : Nat} (hk : ∀ i, i < 20 → byte k i = (key.getD i 0).toNat) (hl : key.length = 20) {n : Nat}
    (h0 : kloop k 256 (ident <<< 24) ≠ 0) (h : state k (n + 1) ≠ 0) : Spec.rc4Byte key n = out (state k (n + 1)) := by
  obtain ⟨h1, h2, h3⟩ := state_codes hk hl h0 h
  unfold Spec.rc4Byte out
  have hi : (Spec.rc4Gen key (n + 1)).2.1 < 256 := by rw [← h2]; exact Nat.mod_lt _ (by decide)
  have hj : (Spec.rc4Gen key (n + 1)).2.2 < 256 := by rw [← h3]; exact Nat.mod_lt _ (by decide)
  rw [h2, h3, h1 _ hi, h1 _ hj, h1 _ (Nat.mod_lt _ (by decide))]

end Verif.RC4Code
