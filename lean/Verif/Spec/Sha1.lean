/-! The Secure Hash Standard (FIPS 180-4, sections 4.1.1, 4.2.1, 5.1.1, 5.3.1 and 6.1.2), as it is written there. -/

namespace Verif.Spec.Sha1

/-- Rotation to the left by `n` bits, 0 < n < 32. -/
def rotl (x : UInt32) (n : Nat) : UInt32 := UInt32.ofBitVec (x.toBitVec.rotateLeft n)

/-- Section 4.1.1: `Ch`, `Parity`, `Maj`, `Parity`. -/
def f (t : Nat) (x y z : UInt32) : UInt32 :=
  if t < 20 then (x &&& y) ^^^ (~~~x &&& z)
  else if t < 40 then x ^^^ y ^^^ z
  else if t < 60 then (x &&& y) ^^^ (x &&& z) ^^^ (y &&& z)
  else x ^^^ y ^^^ z

/-- Section 4.2.1. -/
def K (t : Nat) : UInt32 :=
  if t < 20 then 0x5a827999 else if t < 40 then 0x6ed9eba1 else if t < 60 then 0x8f1bbcdc else 0xca62c1d6

/-- Section 6.1.2, step 1: the message schedule. -/
def W (M : Nat → UInt32) (t : Nat) : UInt32 :=
  if t < 16 then M t else rotl (W M (t - 3) ^^^ W M (t - 8) ^^^ W M (t - 14) ^^^ W M (t - 16)) 1
termination_by t

/-- The five words of the hash value, or the five working variables. -/
structure Five where
  a : UInt32
  b : UInt32
  c : UInt32
  d : UInt32
  e : UInt32
deriving DecidableEq

/-- Section 6.1.2, steps 2 and 3, `n` rounds. -/
def rounds (M : Nat → UInt32) (h : Five) : Nat → Five
  | 0 => h
  | t + 1 =>
    let s := rounds M h t
    ⟨rotl s.a 5 + f t s.b s.c s.d + s.e + K t + W M t, s.a, rotl s.b 30, s.c, s.d⟩

/-- Section 6.1.2, step 4. -/
def compress (h : Five) (M : Nat → UInt32) : Five :=
  let s := rounds M h 80
  ⟨s.a + h.a, s.b + h.b, s.c + h.c, s.d + h.d, s.e + h.e⟩

/-- Section 5.3.1. -/
def initial : Five := ⟨0x67452301, 0xefcdab89, 0x98badcfe, 0x10325476, 0xc3d2e1f0⟩

/-- `n` written with eight bytes, the highest first. -/
def length8 (n : Nat) : List UInt8 :=
  [n / 2 ^ 56, n / 2 ^ 48, n / 2 ^ 40, n / 2 ^ 32, n / 2 ^ 24, n / 2 ^ 16, n / 2 ^ 8, n].map UInt8.ofNat

/-- Section 5.1.1: a one, the least number of zeros that leaves room for the length, the length in bits. -/
def pad (m : List UInt8) : List UInt8 :=
  m ++ [0x80] ++ List.replicate ((119 - m.length % 64) % 64) 0 ++ length8 (8 * m.length)

/-- Word `t` of block `i`, the highest byte first. -/
def word (p : List UInt8) (i t : Nat) : UInt32 :=
  let b k := (p.getD (64 * i + 4 * t + k) 0).toNat
  UInt32.ofNat (((b 0 * 256 + b 1) * 256 + b 2) * 256 + b 3)

/-- The hash value after `n` blocks. -/
def blocks (p : List UInt8) : Nat → Five
  | 0 => initial
  | n + 1 => compress (blocks p n) (word p n)

def bytes (w : UInt32) : List UInt8 := [w.toNat / 2 ^ 24, w.toNat / 2 ^ 16, w.toNat / 2 ^ 8, w.toNat].map UInt8.ofNat

/-- SHA-1 of a message of fewer than 2^64 bits. -/
def hash (m : List UInt8) : List UInt8 :=
  let r := blocks (pad m) ((pad m).length / 64)
  bytes r.a ++ bytes r.b ++ bytes r.c ++ bytes r.d ++ bytes r.e

end Verif.Spec.Sha1
