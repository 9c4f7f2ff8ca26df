import Verif.Model.Progress
import Verif.Spec.Layout
/-! Torrent layout: files on pieces, blocks of pieces, file selection. -/

namespace Verif.Layout

/-- Truncation to `uint32_t`. -/
def u32 (n : Nat) : Nat := n % 4294967296
/-- Truncation to `uint64_t`. -/
def u64 (n : Nat) : Nat := n % 18446744073709551616

/-- `a - b` in `uint32_t`. -/
def sub32 (a b : Nat) : Nat := u32 (a + 4294967296 - b % 4294967296)

/-- Core/Interface.h:13. -/
def BlockMaxSize : Nat := 16384

/-- Api/Interface.h:22-32 (`name`, `path` are modelled with the bencode layer). -/
structure File where
  size : Nat
  startPieceIndex : Nat
  startPiecePos : Nat
  endPieceIndex : Nat
  endPiecePos : Nat
deriving DecidableEq, Repr

/-- Api/Interface.h:46-71, the numeric part. `piecesCount` is `pieces.size()`. -/
structure Info where
  files : List File := []
  piecesCount : Nat := 0
  pieceSize : Nat := 0
  fullSize : Nat := 0
  lastPieceIndex : Nat := 0
  lastPieceSize : Nat := 0
  lastPieceLastBlockIndex : Nat := 0
  lastPieceLastBlockSize : Nat := 0
deriving DecidableEq, Repr

/-- utils/TorrentFileParser.cpp:25-33. -/
def getPieceIndex (pos pieceSize : Nat) (end' : Bool) : Nat :=
  let idx := u32 (pos / pieceSize)
  if end' && pos % pieceSize == 0 then sub32 idx 1 else idx

/-- utils/TorrentFileParser.cpp:210-217: one turn of the file loop. -/
def makeFile (ps sizeSum size : Nat) : File :=
  let startId := getPieceIndex sizeSum ps false
  let sum' := u64 (sizeSum + size)
  { size := size
    startPieceIndex := startId
    startPiecePos := u32 (sizeSum % ps)
    endPieceIndex := if size ≠ 0 then getPieceIndex sum' ps true else startId
    endPiecePos := u32 (sum' % ps) }

/-- utils/TorrentFileParser.cpp:188-219: the file loop; returns the files and the final sum. -/
def fileLoop (ps : Nat) : Nat → List Nat → List File × Nat
  | sum, [] => ([], sum)
  | sum, size :: rest =>
    let r := fileLoop ps (u64 (sum + size)) rest
    (makeFile ps sum size :: r.1, r.2)

/-- The entries of the info dictionary that determine the layout: `piece length` (as the 32-bit
number stored), the number of 20-byte hashes, and the file lengths (`files`) or single `length`. -/
inductive FileList where
  | multi (sizes : List Nat)
  | single (size : Nat)
deriving DecidableEq, Repr

/-- utils/TorrentFileParser.cpp:233-239: geometry of the last piece. -/
def finishInfo (i : Info) : Info :=
  match i.files.getLast? with
  | none => i
  | some f =>
    let lastIdx := sub32 f.endPiecePos 1 / BlockMaxSize
    { i with
      lastPieceIndex := f.endPieceIndex
      lastPieceSize := f.endPiecePos
      lastPieceLastBlockIndex := lastIdx
      lastPieceLastBlockSize := sub32 f.endPiecePos (u32 (lastIdx * BlockMaxSize)) }

/-- utils/TorrentFileParser.cpp:159-242 `parseTorrentInfo`, layout part. Dividing by a zero piece
length is undefined behaviour (an empty `files` list never divides). -/
def parseInfo (pieceSize piecesCount : Nat) : FileList → Res Info
  | .multi sizes =>
    if sizes ≠ [] ∧ pieceSize = 0 then .ub
    else
      let r := fileLoop pieceSize 0 sizes
      .ok (finishInfo { files := r.1, piecesCount := piecesCount, pieceSize := pieceSize, fullSize := r.2 })
  | .single size =>
    if pieceSize = 0 then .ub
    else
      let endPos := size % pieceSize
      .ok (finishInfo {
        files := [{ size := size, startPieceIndex := 0, startPiecePos := 0
                    endPieceIndex := sub32 (u32 piecesCount) 1
                    endPiecePos := u32 (if endPos ≠ 0 then endPos else pieceSize) }]
        piecesCount := piecesCount, pieceSize := pieceSize, fullSize := size })

/-- Api/Interface.h:39-44. -/
structure BlockInfo where
  index : Nat
  begin : Nat
  length : Nat
deriving DecidableEq, Repr

/-- Core/Api/InterfaceImpl.cpp:68-71. -/
def getPieceSize (i : Info) (idx : Nat) : Nat :=
  if idx = i.lastPieceIndex then i.lastPieceSize else i.pieceSize

/-- Core/Api/InterfaceImpl.cpp:73-76. -/
def getPieceBlocksCount (i : Info) (idx : Nat) : Nat :=
  if idx = i.lastPieceIndex then u32 (i.lastPieceLastBlockIndex + 1)
  else u32 (i.pieceSize + BlockMaxSize - 1) / BlockMaxSize

/-- Core/Api/InterfaceImpl.cpp:55-66. -/
def getPieceBlockInfo (i : Info) (idx blockIdx : Nat) : BlockInfo :=
  let begin := u32 (blockIdx * BlockMaxSize)
  { index := idx
    begin := begin
    length := if idx = i.lastPieceIndex ∧ blockIdx = i.lastPieceLastBlockIndex then i.lastPieceLastBlockSize
              else min BlockMaxSize (sub32 i.pieceSize begin) }

/-- Core/Api/InterfaceImpl.cpp:36-53. -/
def makePieceBlocksInfo (i : Info) (idx : Nat) : List BlockInfo :=
  (List.range (getPieceBlocksCount i idx)).map (getPieceBlockInfo i idx)

/-! ### File selection (Core/Files.cpp) -/

open Progress in
/-- Core/Files.h: the selection flags (priorities do not matter here) and the progress object. -/
structure FilesState where
  info : Info
  selection : List Bool
  progress : PP
deriving DecidableEq, Repr

/-- Core/Files.cpp:105-116: does an earlier selected file end in piece `start`? Walks back from file
`i - 1` while files end there. -/
def keepStart (files : List File) (sel : List Bool) (start : Nat) : Nat → Res Bool
  | 0 => .ok false
  | i + 1 => do
    let f ← rd files i
    if f.endPieceIndex = start then do
      let s ← rd sel i
      if s then pure true else keepStart files sel start i
    else pure false

/-- Core/Files.cpp:118-133: the loop meant to look for a later selected file starting in piece
`end'`. It walks with `i--`, i.e. back from `idx + 1`; below zero the unsigned index becomes
2^32-1 and the loop ends. The argument is `i + 1`. -/
def keepEnd (files : List File) (sel : List Bool) (end' : Nat) : Nat → Res Bool
  | 0 => .ok false
  | i + 1 =>
    if i < files.length then do
      let f ← rd files i
      if f.startPieceIndex = end' then do
        let s ← rd sel i
        if s then pure true else keepEnd files sel end' i
      else pure false
    else .ok false

/-- Core/Files.cpp:92-138 `Files::select`. -/
def filesSelect (s : FilesState) (idx : Nat) (selected : Bool) : Res FilesState := do
  let cur ← rd s.selection idx
  if cur ≠ selected then do
    let sel := s.selection.set idx selected
    let f ← rd s.info.files idx
    let start := f.startPieceIndex
    let end' := f.endPieceIndex
    if !selected then do
      let ks ← keepStart s.info.files sel start idx
      let start := if ks then u32 (start + 1) else start
      let ke ← keepEnd s.info.files sel end' (idx + 2)
      let (start, end') :=
        if ke then (if end' = 0 then (u32 (start + 1), end') else (start, end' - 1)) else (start, end')
      let p ← Progress.select s.progress start end' selected
      pure { s with selection := sel, progress := p }
    else do
      let p ← Progress.select s.progress start end' selected
      pure { s with selection := sel, progress := p }
  else pure s

/-- Core/Files.cpp:145-153 `selectFiles` (the storage and refresh calls that follow do not touch
the flags). `none`: rejected with E_InvalidInput. -/
def selectFiles (s : FilesState) (l : List Bool) : Res FilesState :=
  if s.info.files.length < l.length then .ok s
  else (List.range l.length).foldl (fun r i => do
    let s ← r
    let v ← rd l i
    filesSelect s i v) (.ok s)

/-- Core/Files.cpp:172-179 `selectFile`. -/
def selectFile (s : FilesState) (idx : Nat) (selected : Bool) : Res FilesState :=
  if s.info.files.length ≤ idx then .ok s else filesSelect s idx selected

/-- Core/Files.cpp:11-21 `Files::initialize()` on a new torrent. -/
def filesInit (i : Info) : FilesState :=
  { info := i, selection := i.files.map fun _ => true, progress := Progress.init {} i.piecesCount }

/-- One API call or progress event on the files of a torrent: Core/Files.cpp:145-196 and the
progress updates of Core/Downloader.cpp:202, 313. -/
def selStep (s : FilesState) : Spec.SelOp → Res FilesState
  | .file idx v => selectFile s idx v
  | .files l => selectFiles s l
  | .received p => do
    let q ← Progress.addPiece s.progress p
    pure { s with progress := q }
  | .lost p => do
    let q ← Progress.removePiece s.progress p
    pure { s with progress := q }

def selRun (s : FilesState) : List Spec.SelOp → Res FilesState
  | [] => .ok s
  | o :: os => do
    let s ← selStep s o
    selRun s os

end Verif.Layout
