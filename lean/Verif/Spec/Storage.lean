/-! Specification of storage: one linear memory holding all bytes of the torrent. -/

namespace Verif.Spec

/-- The bytes of the torrent. -/
abbrev Mem := Nat → UInt8

def Mem.write (m : Mem) (pos : Nat) (d : List UInt8) : Mem :=
  fun g => if h : pos ≤ g ∧ g < pos + d.length then d[g - pos] else m g

def Mem.read (m : Mem) (pos n : Nat) : List UInt8 := (List.range n).map fun j => m (pos + j)

/-- The files hold consecutive parts of the memory, the first one starting at `off`. -/
def Mem.files (m : Mem) : Nat → List Nat → List (Option (List UInt8))
  | _, [] => []
  | off, s :: rest => some (m.read off s) :: m.files (off + s) rest

/-- Position `q` of a piece is inside one of the ranges (begin, size). -/
def inRanges (ranges : List (Nat × Nat)) (q : Nat) : Prop := ∃ r ∈ ranges, r.1 ≤ q ∧ q < r.1 + r.2

instance (ranges : List (Nat × Nat)) (q : Nat) : Decidable (inRanges ranges q) := by
  unfold inRanges; infer_instance

end Verif.Spec
