import Verif.Model.Layout
/-! The files a selection needs room for (Core/Interface.cpp, `SelectedFiles`). -/

namespace Verif.SelectedFiles
open Verif Layout

/-- Core/Interface.cpp:10-13: marking the pieces from `a` on.  The last piece number is not the last number there is. -/
def mark : List Bool → Nat → Nat → Res (List Bool)
  | m, _, 0 => .ok m
  | m, a, n + 1 => if a < m.length then mark (m.set a true) (a + 1) n else .ub

/-- Core/Interface.cpp:7-14: the pieces of all selected files. -/
def markAll : List File → List Bool → List Bool → Res (List Bool)
  | [], _, m => .ok m
  | _ :: _, [], _ => .ub
  | f :: fs, s :: ss, m =>
    if s then do
      let m ← mark m f.startPieceIndex (f.endPieceIndex + 1 - f.startPieceIndex)
      markAll fs ss m
    else markAll fs ss m

/-- Core/Interface.cpp:29-44, 75-90: the room for the ends of a file, `first` and `last` tell which. -/
def partSize (pieceSize : Nat) (f : File) (first last : Bool) : Nat :=
  let sz := if first then min (sub32 pieceSize f.startPiecePos) f.size else 0
  if last then min (u64 (sz + f.endPiecePos)) f.size else sz

/-- Core/Interface.cpp:16-49: the loop over the files from number `i` on. -/
def collect (pieceSize : Nat) (m : List Bool) : Nat → List File → List Bool → Res (List (Nat × Nat))
  | _, [], _ => .ok []
  | _, _ :: _, [] => .ub
  | i, f :: fs, s :: ss =>
    if s then do
      let rest ← collect pieceSize m (i + 1) fs ss
      pure ((i, f.size) :: rest)
    else do
      let first ← rd m f.startPieceIndex
      let last ← rd m f.endPieceIndex
      let rest ← collect pieceSize m (i + 1) fs ss
      pure (if partSize pieceSize f first last ≠ 0 then (i, partSize pieceSize f first last) :: rest else rest)

/-- Core/Interface.cpp:4-50 `SelectedFiles` of a selection: the numbers of the files and the room they need. -/
def ofSelection (info : Info) (selection : List Bool) : Res (List (Nat × Nat)) := do
  let m ← markAll info.files selection (List.replicate info.piecesCount false)
  collect info.pieceSize m 0 info.files selection

/-- Core/Interface.cpp:55-62: the first of the files that end in the piece in which the target begins. -/
def back (files : List File) (t : File) : Nat → Nat
  | 0 => 0
  | n + 1 =>
    match files[n]? with
    | some f => if f.endPieceIndex ≠ t.startPieceIndex then n + 1 else back files t n
    | none => n + 1

/-- Core/Interface.cpp:64-97: the loop over the files from number `i` on. -/
def oneLoop (pieceSize idx : Nat) (t : File) : Nat → List File → List (Nat × Nat)
  | _, [] => []
  | i, f :: fs =>
    if f.startPieceIndex > t.endPieceIndex then []
    else if i = idx then (i, f.size) :: oneLoop pieceSize idx t (i + 1) fs
    else
      let sz := partSize pieceSize f (f.startPieceIndex == t.endPieceIndex) (f.endPieceIndex == t.startPieceIndex)
      if sz ≠ 0 then (i, sz) :: oneLoop pieceSize idx t (i + 1) fs else oneLoop pieceSize idx t (i + 1) fs

/-- Core/Interface.cpp:52-98 `SelectedFiles` of one file. -/
def ofFile (info : Info) (idx : Nat) : Res (List (Nat × Nat)) := do
  let t ← rd info.files idx
  pure (oneLoop info.pieceSize idx t (back info.files t idx) (info.files.drop (back info.files t idx)))

end Verif.SelectedFiles
