/-! Specification of the torrent layout: the files are concatenated and cut into pieces. -/

namespace Verif.Spec

/-- First byte of file `k` in the concatenation of all files. -/
def fileStart (sizes : List Nat) (k : Nat) : Nat := (sizes.take k).sum

/-- One past the last byte of file `k`. -/
def fileEnd (sizes : List Nat) (k : Nat) : Nat := (sizes.take (k + 1)).sum

/-- File `k` has at least one byte in piece `p`. -/
def hasData (ps : Nat) (sizes : List Nat) (k p : Nat) : Prop :=
  ∃ b, fileStart sizes k ≤ b ∧ b < fileEnd sizes k ∧ b / ps = p

/-- Number of pieces of a torrent of `total` bytes. -/
def pieceCount (ps total : Nat) : Nat := (total + ps - 1) / ps

/-- Consecutive non-empty ranges (begin, length) of at most `m` bytes from `a` to `b`. -/
inductive Tiles (m : Nat) : Nat → Nat → List (Nat × Nat) → Prop where
  | nil (a) : Tiles m a a []
  | cons (a b n l) : 0 < n → n ≤ m → Tiles m (a + n) b l → Tiles m a b ((a, n) :: l)

end Verif.Spec

namespace Verif.Spec

/-- What can happen to the selection and the pieces of a torrent. -/
inductive SelOp where
  /-- select or unselect one file -/
  | file (idx : Nat) (selected : Bool)
  /-- set the flags of the first files -/
  | files (flags : List Bool)
  /-- piece `p` was received -/
  | received (p : Nat)
  /-- piece `p` was found damaged -/
  | lost (p : Nat)
deriving DecidableEq, Repr

/-- Which files are selected afterwards; requests naming files that do not exist are ignored. -/
def selAfter (sel : List Bool) : SelOp → List Bool
  | .file idx v => sel.set idx v
  | .files l => if l.length ≤ sel.length then l ++ sel.drop l.length else sel
  | _ => sel

/-- The operations name existing pieces. -/
def SelOp.valid (pieces : Nat) : SelOp → Prop
  | .received p => p < pieces
  | .lost p => p < pieces
  | _ => True

instance (n : Nat) (o : SelOp) : Decidable (o.valid n) := by
  cases o <;> unfold SelOp.valid <;> infer_instance

end Verif.Spec
