/-! C105: fresh bytes. -/

namespace Verif.Spec.RandomData

/-- The `i`-th byte of the numbers from the `pos`-th on, each of 8 bytes, least first. -/
def byteOf (draw : Nat → Nat) (pos i : Nat) : UInt8 := UInt8.ofNat (draw (pos + i / 8) / 256 ^ (i % 8))

/-- `size` such bytes at `off`, the others as they were. -/
def filled (draw : Nat → Nat) (pos : Nat) (buf : List UInt8) (off size : Nat) : List UInt8 :=
  buf.take off ++ (List.range size).map (byteOf draw pos) ++ buf.drop (off + size)

end Verif.Spec.RandomData
