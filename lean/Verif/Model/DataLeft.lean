import Verif.Model.Downloader
/-! Core/Torrent.cpp:427-440 and Core/Downloader.cpp:129-155: how many bytes are there and how many are left, as shown by the API and told to trackers.

`uint64_t` sums wrap; the sum over pieces being downloaded cannot, for fewer than 2^32 of them. -/

namespace Verif.DataLeft
open Verif Layout Progress PieceState Downloader

/-- Core/Downloader.cpp:129-141 `getUnfinishedSelectedPiecesDownloadSize`: those with a request. -/
def requestedSize (s : St) : Nat := (s.requests.map fun e => e.2.piece.downloadedSize).sum

/-- Core/Downloader.cpp:143-155 `getUnfinishedPiecesDownloadSize`: those with a request and those kept. -/
def unfinishedTotal (s : St) : Nat := unfinishedSize s.unfinished + requestedSize s

/-- Core/Torrent.cpp:427-430 `finishedBytes`. -/
def finishedBytes (s : St) : Res Nat := do
  let r ← getReceivedBytes s.files.progress s.files.info.pieceSize s.files.info.fullSize
  pure ((r + unfinishedTotal s) % 18446744073709551616).toNat

/-- Core/Torrent.cpp:432-435 `finishedSelectedBytes`. -/
def finishedSelectedBytes (s : St) : Res Nat := do
  let r ← getReceivedSelectedBytes s.files.progress s.files.info.pieceSize s.files.info.fullSize
  pure ((r + requestedSize s) % 18446744073709551616).toNat

/-- Core/Torrent.cpp:437-440 `dataLeft`, the number in announces (Core/UdpTrackerComm.cpp:125). -/
def dataLeft (s : St) : Res Nat := do
  let f ← finishedBytes s
  pure (((s.files.info.fullSize : Int) - f) % 18446744073709551616).toNat

end Verif.DataLeft
