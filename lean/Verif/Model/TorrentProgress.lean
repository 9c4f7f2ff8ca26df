import Verif.Model.DataLeft
import Verif.Model.FileProgress
/-! Core/Torrent.cpp:383-425, Core/PiecesProgress.cpp:12-20: the progress of a torrent and of the files selected, as shown.

The C++ code computes in `float`; here a fraction is a pair of numbers. -/

namespace Verif.TorrentProgress
open Verif Layout Progress PieceState Downloader DataLeft FileProgress

/-- A fraction that is not above 1 (Core/Torrent.cpp:393-394, 421-422). -/
def capped (num den : Nat) : Nat × Nat := if num > den then (den, den) else (num, den)

/-- Core/Torrent.cpp:383-397 `progress`, of a torrent with pieces. -/
def progress (s : St) : Nat × Nat :=
  if s.files.info.pieceSize = 0 then capped s.files.progress.receivedPiecesCount.toNat s.files.progress.pieces.length
  else capped (s.files.progress.receivedPiecesCount.toNat * s.files.info.pieceSize + unfinishedTotal s)
    (s.files.progress.pieces.length * s.files.info.pieceSize)

/-- A key of `getUnfinishedPiecesDownloadSizeMap` (Core/Downloader.cpp:157-169, Core/DownloadStorage.cpp:222-231). -/
def keyed (s : St) (p : Nat) : Bool := (s.unfinished.any fun u => u.index = p) || (s.requests.get p).isSome

/-- Core/Torrent.cpp:408-415: those selected, in the order of pieces, added in `uint32_t`; a piece that does not exist is read outside. -/
def selectedUnfinished (s : St) : Res Nat :=
  if (s.unfinished.all fun u => u.index < s.files.progress.pieces.length) && (s.requests.all fun e => e.1 < s.files.progress.pieces.length) then
    .ok (u32 (((List.range s.files.progress.pieces.length).filter fun p =>
      keyed s p && decide (selectedPiece s.files.progress p = .ok true)).map (unfinishedOf s)).sum)
  else .ub

/-- Core/Torrent.cpp:399-425 `selectionProgress`, of a torrent with pieces. -/
def selectionProgress (s : St) : Res (Nat × Nat) :=
  if s.files.progress.selectedPieces = s.files.progress.pieces.length then .ok (progress s)
  else if s.files.info.pieceSize = 0 then
    .ok (capped s.files.progress.selectedReceivedPiecesCount.toNat s.files.progress.selectedPieces.toNat)
  else do
    let u ← selectedUnfinished s
    if s.files.progress.selectedPieces = 0 then pure (0, 1)
    else pure (capped (s.files.progress.selectedReceivedPiecesCount.toNat * s.files.info.pieceSize + u)
      (s.files.info.pieceSize * s.files.progress.selectedPieces.toNat))

end Verif.TorrentProgress
