import Verif.Common
/-! Independent specifications for the text encodings and RC4. -/

namespace Verif.Spec

/-- Lower-casing of ASCII letters. -/
def lower (c : UInt8) : UInt8 := if chr 'A' ≤ c && c ≤ chr 'Z' then c + 32 else c

/-- RFC 4648 base32 alphabet: value 0..31 to character. -/
def b32Alpha : List UInt8 := ascii "ABCDEFGHIJKLMNOPQRSTUVWXYZ234567"

/-- RFC 4648 base32 of one (possibly short) group of at most five bytes: the group is padded with
zero bits to a 40-bit number, written as eight 5-bit digits, of which the first
`ceil(8*n/5)` are significant. -/
def b32Group (bs : List UInt8) : List UInt8 :=
  let n := beVal (bs ++ List.replicate (5 - bs.length) 0)
  ((List.range 8).map fun k => b32Alpha.getD (n / 32 ^ (7 - k) % 32) 0).take ((8 * bs.length + 4) / 5)

/-- RFC 4648 base32 encoding without padding. -/
def b32Encode : List UInt8 → List UInt8
  | [] => []
  | b :: bs => b32Group ((b :: bs).take 5) ++ b32Encode ((b :: bs).drop 5)
termination_by l => l.length
decreasing_by simp; omega

/-- Number of `=` characters RFC 4648 appends. -/
def b32Pad (n : Nat) : Nat := [0, 6, 4, 3, 1].getD (n % 5) 0

/-! Textbook RC4 on functions over naturals. -/

def swapF (S : Nat → Nat) (i j : Nat) : Nat → Nat :=
  fun k => if k = j then S i else if k = i then S j else S k

/-- State of the key schedule after `n` rounds: the permutation and `j`. -/
def rc4Ksa (key : List UInt8) : Nat → (Nat → Nat) × Nat
  | 0 => (id, 0)
  | i + 1 =>
    let (S, j) := rc4Ksa key i
    let j' := (j + S i + (key.getD (i % key.length) 0).toNat) % 256
    (swapF S i j', j')

/-- Generator state after `n` output bytes: permutation, `i`, `j`. -/
def rc4Gen (key : List UInt8) : Nat → (Nat → Nat) × Nat × Nat
  | 0 => ((rc4Ksa key 256).1, 0, 0)
  | n + 1 =>
    let (S, i, j) := rc4Gen key n
    let i' := (i + 1) % 256
    let j' := (j + S i') % 256
    (swapF S i' j', i', j')

/-- The `n`-th key stream byte (counting from 0). -/
def rc4Byte (key : List UInt8) (n : Nat) : Nat :=
  let (S, i, j) := rc4Gen key (n + 1)
  S ((S i + S j) % 256)

end Verif.Spec
