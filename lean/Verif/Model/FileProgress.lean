import Verif.Model.Downloader
/-! Core/Files.cpp:228-265 with Core/Downloader.cpp:157-169 and Core/DownloadStorage.cpp:222-231: the progress of files, as shown.

The C++ code computes in `float`; here the fraction is kept as the numbers it is made of.  All files are looked at in one state, in which no message
arrives in between. -/

namespace Verif.FileProgress
open Verif Layout Progress PieceState Downloader

/-- Core/DownloadStorage.cpp:222-231 `getDownloadSizeMap`: the sizes of kept pieces, added in `uint32_t`; 0 stands for no entry as well. -/
def keptSize (us : List PState) (p : Nat) : Nat := u32 ((us.filter fun u => u.index = p).map (·.downloadedSize)).sum

/-- Core/Downloader.cpp:157-169 `getUnfinishedPiecesDownloadSizeMap`: requests replace what is kept. -/
def unfinishedOf (s : St) (p : Nat) : Nat :=
  match s.requests.get p with
  | some q => q.piece.downloadedSize
  | none => keptSize s.unfinished p

/-- What is computed of a file. -/
structure Shown where
  received : Nat := 0
  unfinished : Nat := 0
deriving DecidableEq, Repr

/-- Core/Files.cpp:245-254: the pieces of a file, from one on. -/
def count (s : St) : List Nat → Shown → Res Shown
  | [], a => .ok a
  | p :: ps, a => do
    let h ← hasPiece s.files.progress p
    count s ps (if h then { a with received := u32 (a.received + 1) } else { a with unfinished := u32 (a.unfinished + unfinishedOf s p) })

/-- Core/Files.cpp:243-261: one file.  The last index of 32 bits would never be passed. -/
def shown (s : St) (f : File) : Res Shown :=
  if f.endPieceIndex + 1 < 4294967296 then count s (List.range' f.startPieceIndex (f.endPieceIndex + 1 - f.startPieceIndex)) {} else .diverge

/-- Core/Files.cpp:256: the number of pieces of a file. -/
def pieces (f : File) : Nat := sub32 (u32 (1 + f.endPieceIndex)) f.startPieceIndex

/-- Core/Files.cpp:257-261: the fraction shown is `num / den`. -/
def num (s : St) (a : Shown) : Nat := a.received * s.files.info.pieceSize + a.unfinished

/-- Core/Files.cpp:257-261. -/
def den (s : St) (f : File) : Nat := pieces f * s.files.info.pieceSize

/-- Core/Files.cpp:228-265 `getFilesProgress`. -/
def filesProgress (s : St) : List File → Res (List Shown)
  | [] => .ok []
  | f :: fs => do
    let a ← shown s f
    let r ← filesProgress s fs
    pure (a :: r)

end Verif.FileProgress
