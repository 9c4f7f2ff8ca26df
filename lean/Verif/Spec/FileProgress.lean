import Verif.Spec.DataLeft
/-! Progress of files, for C101. -/

namespace Verif.Spec.FileProgress
open Verif Layout Downloader Spec.DataLeft

/-- The pieces that hold bytes of a file. -/
def span (f : File) : List Nat := List.range' f.startPieceIndex (f.endPieceIndex + 1 - f.startPieceIndex)

/-- The piece is there. -/
def has (s : St) (p : Nat) : Bool := Progress.hasPiece s.files.progress p = .ok true

/-- What counts of a piece: a piece that is there counts as a full one, of others what arrived. -/
def share (s : St) (p : Nat) : Nat := if has s p then s.files.info.pieceSize else there s p

end Verif.Spec.FileProgress
