import Verif.Spec.StorageLayout
/-! What C53 says about checking files. -/

namespace Verif.Spec.FileCheck
open Verif.Spec Layout

/-- The bytes of piece `k` of a torrent of `total` bytes. -/
def pieceBytes (m : Mem) (ps total k : Nat) : List UInt8 := m.read (k * ps) (min ps (total - k * ps))

/-- Piece `k` is to be checked. -/
def Wanted (wanted : List Bool) (k : Nat) : Prop := wanted[k]? = some true

instance (wanted : List Bool) (k : Nat) : Decidable (Wanted wanted k) := by unfold Wanted; infer_instance

/-- The pieces that are asked for are those of whole files: if a piece of a file is to be checked, then the first or the last one. -/
def OfFiles (files : List File) (wanted : List Bool) : Prop :=
  ∀ f ∈ files, ∀ k, f.startPieceIndex ≤ k → k ≤ f.endPieceIndex → Wanted wanted k →
    Wanted wanted f.startPieceIndex ∨ Wanted wanted f.endPieceIndex

/-- The piece is there: its bytes have the hash of the metadata. -/
def There (sha : List UInt8 → List UInt8) (hashes : List (List UInt8)) (m : Mem) (ps total k : Nat) : Prop :=
  hashes[k]? = some (sha (pieceBytes m ps total k))

instance (sha : List UInt8 → List UInt8) (hashes : List (List UInt8)) (m : Mem) (ps total k : Nat) : Decidable (There sha hashes m ps total k) := by
  unfold There; infer_instance

/-- What is stored if of the files with `true` only the rest of the piece they begin in and the beginning of the piece they end in are
kept, as of files that are not selected. -/
def stored (m : Mem) (ps : Nat) : Nat → List Nat → List Bool → List (Option (List UInt8))
  | off, s :: ss, k :: ks =>
    some (if k then m.read off (ps - off % ps) ++ m.read ((off + s) / ps * ps) ((off + s) % ps) else m.read off s) :: stored m ps (off + s) ss ks
  | _, _, _ => []

/-- Every file is stored in one of the two ways; those of which only the ends are kept do not begin and end in the same piece, and the
last file is not one of them. -/
def KeptOk (ps : Nat) : Nat → List Nat → List Bool → Prop
  | _, [], [] => True
  | off, s :: ss, k :: ks => (k = true → off / ps < (off + s) / ps ∧ ss ≠ []) ∧ KeptOk ps (off + s) ss ks
  | _, _, _ => False

/-- Piece `k` is in the middle of a file of which only the ends are kept. -/
def gap (ps : Nat) : Nat → List Nat → List Bool → Nat → Bool
  | off, s :: ss, b :: bs, k => (b && decide (off / ps < k ∧ k < (off + s) / ps)) || gap ps (off + s) ss bs k
  | _, _, _, _ => false

end Verif.Spec.FileCheck
