import Verif.Model.Storage
import Verif.Spec.Storage
/-! Vocabulary of the storage properties: which layouts and blocks are meant. -/

namespace Verif
open Layout Spec Storage

/-- Sizes of the files. -/
def fileSizes : FileList → List Nat
  | .single s => [s]
  | .multi sizes => sizes

/-- The layouts the code gets right: a single non-empty file, or files none of which ends on a piece
boundary. -/
def NoBoundaryEnd (ps : Nat) : FileList → Prop
  | .single s => 0 < s
  | .multi sizes => ∀ k, k < sizes.length → fileEnd sizes k % ps ≠ 0

/-- Bytes of block `b` in the linear address space of the torrent. -/
def blockStart (ps : Nat) (b : Block) : Nat := b.info.index * ps + b.info.begin

/-- A block with its data, inside a piece that exists. -/
structure LegalBlock (ps total : Nat) (b : Block) : Prop where
  len : b.data.length = b.info.length
  inPiece : b.info.begin + b.info.length ≤ ps
  exists_ : b.info.index * ps < total

/-- Storing a block in the linear memory. -/
def memStore (ps : Nat) (m : Mem) (b : Block) : Mem := m.write (blockStart ps b) b.data

end Verif
