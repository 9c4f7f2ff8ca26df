import Verif.Model.State
/-! States that can be saved: what the fields of the code can hold, and the limits of the format. -/

namespace Verif.Spec.Saved
open Verif State

/-- The fields hold what their types in the code allow; strings and vectors have fewer than 2^31 bytes. -/
structure Fits (s : TState) : Prop where
  name : s.name.length < 2 ^ 31
  path : s.downloadPath.length < 2 ^ 31
  pieces : s.pieces.length < 2 ^ 31
  pieceSize : s.pieceSize < 2 ^ 32
  fullSize : s.fullSize < 2 ^ 64
  lastStateTime : s.lastStateTime < 2 ^ 64
  addedTime : s.addedTime < 2 ^ 64
  downloaded : s.downloaded < 2 ^ 64
  uploaded : s.uploaded < 2 ^ 64
  version : s.version < 2 ^ 32
  selection : ∀ x ∈ s.selection, x.2 < 2 ^ 8
  unfinished : ∀ u ∈ s.unfinished, u.blocksState.length < 2 ^ 31 ∧ u.remainingBlocks < 2 ^ 32 ∧
    u.downloadedSize < 2 ^ 32 ∧ u.index < 2 ^ 32

/-- A piece of which blocks have arrived. -/
def hasData (u : PieceState.PState) : Bool := decide (u.blocksState ≠ [] ∧ u.downloadedSize ≠ 0)

/-- The state to come back: all of it; unfinished pieces without data carry nothing. -/
def expected (s : TState) : TState := { s with unfinished := s.unfinished.filter hasData }

end Verif.Spec.Saved
