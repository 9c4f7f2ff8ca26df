import Verif.Model.Storage
/-! Checking the files of a torrent (Core/Storage.cpp `checkStoredPieces`, Core/Files.cpp `checkFiles`, `start`).

Files as in Model/Storage. The check is not stopped while it runs (`rejected`), and the workers, which are threads that share the
progress, add their pieces to it one after another. How many pieces are checked so far (`piecesChecked`) is left out. -/

namespace Verif.FileCheck
open Verif Layout Storage

/-- `std::ifstream` of an open file. -/
structure Stream where
  content : Content
  pos : Nat := 0
  failed : Bool := false
deriving DecidableEq, Repr

/-- `istream::read`: a failed stream reads nothing, a read past the end gets what there is and fails. -/
def Stream.read (s : Stream) (n : Nat) : Stream × List UInt8 :=
  if s.failed then (s, [])
  else
    let d := (s.content.drop s.pos).take n
    ({ s with pos := s.pos + d.length, failed := d.length < n }, d)

/-- `istream::seekg` forward; the end of the file does not matter. -/
def Stream.skip (s : Stream) (n : Nat) : Stream := if s.failed then s else { s with pos := s.pos + n }

/-- What does not change during a check; Core/Storage.cpp:383. `sha` is `_SHA1`. -/
structure Job where
  info : Info
  sha : List UInt8 → List UInt8
  hashes : List (List UInt8)
  wanted : List Bool
  workers : Nat
  worker : Nat

/-- Core/Storage.cpp:385-395: the local variables of a worker, and the pieces it has found. -/
structure Worker where
  idx : Nat := 0
  buf : List UInt8
  found : List Nat := []
deriving DecidableEq, Repr

/-- Core/Storage.cpp:414, :422, :432, :441, :462, :475: is the piece to be checked by this worker? -/
def mine (j : Job) (idx : Nat) : Res Bool := if idx % j.workers = j.worker then rd j.wanted idx else .ok false

/-- Core/Storage.cpp:424-427, :443-446, :466-468: `n` bytes of the buffer are hashed. -/
def verify (j : Job) (idx n : Nat) (w : Worker) : Res Worker :=
  if w.buf.length < n then .ub
  else do
    let h ← rd j.hashes idx
    pure (if j.sha (w.buf.take n) = h then { w with found := w.found ++ [idx] } else w)

/-- Core/Storage.cpp:414-417, :432-435: the next `n` bytes of the file are read to `pos` of the buffer, or skipped. -/
def advance (m : Bool) (pos n : Nat) (w : Worker) (s : Stream) : Res (Worker × Stream) :=
  if m then
    let r := s.read n
    do
      let buf ← putBuf w.buf pos r.2
      pure ({ w with buf := buf }, r.1)
  else .ok (w, s.skip n)

/-- Core/Storage.cpp:420-436, at most `n` turns. -/
def pieceLoop (j : Job) (f : File) : Nat → Worker → Stream → Res (Worker × Stream)
  | 0, w, s => .ok (w, s)
  | n + 1, w, s =>
    if s.failed ∨ f.size < s.pos then .ok (w, s)
    else do
      let m ← mine j w.idx
      let w ← if m then verify j w.idx j.info.pieceSize w else pure w
      let w := { w with idx := w.idx + 1 }
      let m ← mine j w.idx
      let r ← advance m 0 j.info.pieceSize w s
      pieceLoop j f n r.1 r.2

/-- Core/Storage.cpp:438-450: the end of the last file. -/
def lastPiece (j : Job) (last : Bool) (f : File) (w : Worker) : Res Worker :=
  if w.idx = f.endPieceIndex ∧ last then do
    let m ← mine j w.idx
    let w ← if m then verify j w.idx f.endPiecePos w else pure w
    pure { w with idx := w.idx + 1 }
  else .ok w

/-- Core/Storage.cpp:409-451: a file of the right size. -/
def wholeFile (j : Job) (last : Bool) (f : File) (c : Content) (w : Worker) : Res Worker := do
  let m ← mine j w.idx
  let r ← advance m f.startPiecePos (sub32 j.info.pieceSize f.startPiecePos) w { content := c }
  let r ← pieceLoop j f (f.endPieceIndex + 1 - w.idx) r.1 r.2
  lastPiece j last f r.1

/-- Core/Storage.cpp:461-471: the end of the first piece. -/
def partStart (j : Job) (f : File) (n : Nat) (w : Worker) (s : Stream) : Res (Worker × Stream) := do
  let m ← mine j f.startPieceIndex
  let r ← advance m f.startPiecePos n w s
  let w ← if m then verify j f.startPieceIndex j.info.pieceSize r.1 else pure r.1
  pure (w, r.2)

/-- Core/Storage.cpp:452-478: a file of another size, of which perhaps only the first and the last piece are kept. -/
def partFile (j : Job) (f : File) (c : Content) (w : Worker) : Res Worker :=
  let startPieceSize := sub32 j.info.pieceSize f.startPiecePos
  let tempFileSize := u32 (startPieceSize + f.endPiecePos)
  if startPieceSize ≤ c.length ∧ c.length ≤ tempFileSize then do
    let r ← partStart j f startPieceSize w { content := c }
    let m ← if c.length = tempFileSize then mine j f.endPieceIndex else pure false
    if m then do
      let r ← advance true 0 f.endPiecePos r.1 r.2
      pure r.1
    else pure r.1
  else .ok w

/-- Core/Storage.cpp:405-479. -/
def readFile (j : Job) (last : Bool) (f : File) (w : Worker) : Option Content → Res Worker
  | none => .ok w
  | some c => if c.length = f.size then wholeFile j last f c w else partFile j f c w

/-- Core/Storage.cpp:399-490, one turn of the loop over the files. -/
def checkFile (j : Job) (last : Bool) (f : File) (c : Option Content) (w : Worker) : Res Worker := do
  let a ← rd j.wanted f.startPieceIndex
  let b ← if a then pure true else rd j.wanted f.endPieceIndex
  let w ← if b then readFile j last f w c else pure w
  pure { w with idx := if last then f.endPieceIndex + 1 else max w.idx f.endPieceIndex }

/-- Core/Storage.cpp:397-499: the loop over the files. -/
def fileLoop (j : Job) : List File → Fs → Worker → Res Worker
  | f :: files, c :: cs, w =>
    if w.idx < j.hashes.length then do
      let w ← checkFile j files.isEmpty f c w
      fileLoop j files cs { w with idx := match files.head? with | some g => g.startPieceIndex | none => w.idx }
    else .ok w
  | _, _, w => .ok w

/-- Core/Storage.cpp:383-500 `checkStoredPieces`: the pieces a worker finds, in this order. The buffer is filled with zeros. -/
def checkStoredPieces (j : Job) (fs : Fs) : Res (List Nat) := do
  let w ← fileLoop j j.info.files fs { buf := List.replicate j.info.pieceSize 0 }
  pure w.found

/-- Core/Files.cpp:377-390: the pieces found by `n` workers. -/
def findAll (j : Job) (fs : Fs) : Nat → Res (List Nat)
  | 0 => .ok []
  | n + 1 => do
    let a ← findAll j fs n
    let b ← checkStoredPieces { j with worker := n } fs
    pure (a ++ b)

/-- Core/Storage.cpp:427, :446, :468: the pieces are added to the progress. -/
def addAll (p : Progress.PP) : List Nat → Res Progress.PP
  | [] => .ok p
  | k :: ks => do
    let p ← Progress.addPiece p k
    addAll p ks

/-- Core/Files.cpp:337-390 `checkFiles`, after the last worker has finished. `order`: in which the pieces were found; only orders of
the pieces the workers find happen, for others nothing is changed. -/
def checkFiles (j : Job) (fs : Fs) (p : Progress.PP) (order : List Nat) : Res Progress.PP := do
  let q ← Progress.removeReceived p j.wanted
  let l ← findAll { j with workers := 4 } fs 4
  if order.isPerm l then addAll q order else pure p

/-- Core/Files.cpp:50-51: the pieces of a file that has changed. -/
def markFile (f : File) (wanted : List Bool) : Res (List Bool) :=
  if f.startPieceIndex ≤ f.endPieceIndex ∧ wanted.length ≤ f.endPieceIndex then .ub
  else .ok (wanted.mapIdx fun k b => b || (f.startPieceIndex ≤ k && k ≤ f.endPieceIndex))

/-- Core/Files.cpp:40-52: which pieces are to be checked when the torrent is started; `changed`: the files that were written to since
the state was saved. -/
def changedPieces : List File → List Bool → List Bool → Res (List Bool)
  | f :: files, c :: changed, wanted => do
    let wanted ← if c then markFile f wanted else pure wanted
    changedPieces files changed wanted
  | _, _, wanted => .ok wanted

end Verif.FileCheck
