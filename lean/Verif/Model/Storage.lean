import Verif.Model.Layout
/-! Storage of piece blocks in files (Core/Storage.cpp).

The file system is modelled as the list of the contents of the torrent's files, in the order of
`info.files` (`none`: the file does not exist). Assumed: different files of a torrent have different
paths, opening an existing file and reading or writing it succeeds. -/

namespace Verif.Storage
open Verif Layout

/-- Public/Status.h, the values used here. -/
inductive Status where
  | Success | I_Mismatch | E_InvalidInput | E_FileWriteError | E_FileReadError | E_FileLockedError
  | E_NotEnoughSpace | E_AllocationProblem | E_InvalidPath
deriving DecidableEq, Repr

abbrev Content := List UInt8
abbrev Fs := List (Option Content)

/-- Core/Storage.h:21-25 `PieceBlockData`: the bytes at `data` and the block they are for. -/
structure Block where
  info : BlockInfo
  data : List UInt8
deriving DecidableEq, Repr

/-- Core/Storage.h:28-32. -/
structure BlockOffset where
  begin : Nat
  size : Nat
deriving DecidableEq, Repr

/-- Core/Storage.h:67-72. -/
structure BlockPos where
  dataPos : Nat := 0
  dataSize : Nat := 0
  fileDataPos : Nat := 0
deriving DecidableEq, Repr

/-- Core/Storage.cpp:96-99 `FileContainsPiece`. -/
def fileContainsPiece (f : File) (p : Nat) : Bool := f.startPieceIndex ≤ p && p ≤ f.endPieceIndex

/-- Core/Storage.cpp:278-318 `getFileBlockPosition`, in the arithmetic of the C++ types. -/
def getFileBlockPosition (i : Info) (f : File) (index offset size : Nat) : BlockPos :=
  let blockEndPos := u32 (offset + size)
  -- :285-303
  let r : Option BlockPos :=
    if f.startPieceIndex = index then
      if f.startPiecePos > blockEndPos then none
      else if f.startPiecePos > offset then
        let dataPos := sub32 f.startPiecePos offset
        some { dataPos := dataPos, dataSize := sub32 size dataPos, fileDataPos := 0 }
      else some { dataPos := 0, dataSize := size, fileDataPos := sub32 offset f.startPiecePos }
    else
      let p := u32 (sub32 i.pieceSize f.startPiecePos + offset)
      some { dataPos := 0, dataSize := size
             fileDataPos :=
               if index > u32 (f.startPieceIndex + 1)
               then u64 (p + sub32 (sub32 index f.startPieceIndex) 1 * i.pieceSize) else p }
  match r with
  | none => {}
  | some r =>
    -- :305-315
    if f.endPieceIndex = index then
      if f.endPiecePos < offset then {}
      else if f.endPiecePos < blockEndPos then
        { r with dataSize := sub32 r.dataSize (sub32 blockEndPos f.endPiecePos) }
      else r
    else r

/-- `seekp(pos); write(d)`: overwrites in place, the gap after the old end reads as zero. -/
def fileWrite (c : Content) (pos : Nat) (d : List UInt8) : Content :=
  if d = [] then c
  else (c ++ List.replicate (pos - c.length) 0).take pos ++ d ++ c.drop (pos + d.length)

/-- `n` bytes at `data + pos`; outside the buffer is undefined behaviour. -/
def slice (data : List UInt8) (pos n : Nat) : Res (List UInt8) :=
  if pos + n ≤ data.length then .ok ((data.drop pos).take n) else .ub

/-- Writing `d` at `buf + pos`. -/
def putBuf (buf : List UInt8) (pos : Nat) (d : List UInt8) : Res (List UInt8) :=
  if pos + d.length ≤ buf.length then .ok (buf.take pos ++ d ++ buf.drop (pos + d.length)) else .ub

/-- Core/Storage.cpp:366-380, one turn of the write loop. `existing` is the size of the file when it
was opened. -/
def storeOne (i : Info) (f : File) (existing : Nat) (c : Content) (b : Block) (p : BlockPos) : Res Content :=
  if existing = f.size ∨ b.info.index = f.startPieceIndex then do
    let d ← slice b.data p.dataPos p.dataSize
    pure (fileWrite c p.fileDataPos d)
  else if b.info.index = f.endPieceIndex then do
    let d ← slice b.data 0 p.dataSize
    pure (fileWrite c (u32 (sub32 i.pieceSize f.startPiecePos + b.info.begin)) d)
  else .ok c

/-- Core/Storage.cpp:364-380: the write loop. -/
def storeAll (i : Info) (f : File) (existing : Nat) : Content → List (Block × BlockPos) → Res Content
  | c, [] => .ok c
  | c, (b, p) :: rest => do
    let c ← storeOne i f existing c b p
    storeAll i f existing c rest

/-- Core/Storage.cpp:328-342: the blocks with data in the file. -/
def blocksInfo (i : Info) (f : File) (blocks : List Block) : List (Block × BlockPos) :=
  blocks.filterMap fun b =>
    if !fileContainsPiece f b.info.index then none
    else
      let p := getFileBlockPosition i f b.info.index b.info.begin b.info.length
      if p.dataSize = 0 then none else some (b, p)

/-- Core/Storage.cpp:320-381 `storePieceBlocks(file, blocks)`. -/
def storeFile (i : Info) (f : File) (blocks : List Block) (c : Option Content) : Res (Status × Option Content) :=
  let bi := blocksInfo i f blocks
  if bi = [] then .ok (.Success, c)
  else match c with
    | none => .ok (.E_FileWriteError, none)
    | some c => do
      let c' ← storeAll i f c.length c bi
      pure (.Success, some c')

/-- Core/Storage.cpp:112-121: the loop over the files. -/
def storeLoop (i : Info) (blocks : List Block) (lastIndex : Nat) : List File → Fs → Status → Res (Status × Fs)
  | f :: files, c :: cs, st =>
    if f.startPieceIndex > lastIndex then .ok (st, c :: cs)
    else do
      let r ← storeFile i f blocks c
      if r.1 ≠ .Success then pure (r.1, r.2 :: cs)
      else do
        let q ← storeLoop i blocks lastIndex files cs r.1
        pure (q.1, r.2 :: q.2)
  | _, cs, st => .ok (st, cs)

/-- Core/Storage.cpp:110 `lower_bound` over the files, which are ordered by their last piece: index
of the first file whose last piece is not before `idx`. -/
def lowerFile (i : Info) (idx : Nat) : Nat := (i.files.takeWhile fun f => f.endPieceIndex < idx).length

/-- The comparison of Core/Storage.cpp:104. -/
def blockLt (l r : Block) : Bool :=
  l.info.index < r.info.index || (l.info.index == r.info.index && l.info.begin < r.info.begin)

/-- `sorted` is a possible result of `std::sort` (which need not be stable). -/
def IsSortOf (sorted blocks : List Block) : Prop :=
  sorted.Perm blocks ∧ sorted.Pairwise fun a b => blockLt b a = false

/-- Core/Storage.cpp:101-124 `storePieceBlocks(blocks)`, after the sort. `front()` of an empty
vector is undefined behaviour. -/
def storeSorted (i : Info) (fs : Fs) (sorted : List Block) : Res (Status × Fs) :=
  match sorted.head?, sorted.getLast? with
  | some first, some last => do
    let n := lowerFile i first.info.index
    let r ← storeLoop i sorted last.info.index (i.files.drop n) (fs.drop n) .E_InvalidInput
    pure (r.1, fs.take n ++ r.2)
  | _, _ => .ub

/-- A history of `storePieceBlocks` calls, each given by its blocks after the sort; the statuses
returned and the files afterwards. -/
def storeRun (i : Info) : Fs → List (List Block) → Res (List Status × Fs)
  | fs, [] => .ok ([], fs)
  | fs, blocks :: rest => do
    let r ← storeSorted i fs blocks
    let q ← storeRun i r.2 rest
    pure (r.1 :: q.1, q.2)

/-- Core/Storage.cpp:155-172, the read loop. The stream is marked failed by a short read; a failed
stream reads nothing more. `base`: the caller's buffer starts at piece position `base`. -/
def loadOffsets (i : Info) (f : File) (c : Content) (idx base : Nat) : Bool → List BlockOffset → List UInt8 → Res (List UInt8)
  | _, [], buf => .ok buf
  | failed, o :: os, buf =>
    let p := getFileBlockPosition i f idx o.begin o.size
    if p.dataSize > 0 then
      let pos := if idx = f.endPieceIndex ∧ c.length < f.size
        then u32 (sub32 i.pieceSize f.startPiecePos + o.begin) else p.fileDataPos
      let d := if failed then [] else (c.drop pos).take p.dataSize
      if o.begin + p.dataPos < base then .ub
      else do
        let buf ← putBuf buf (o.begin + p.dataPos - base) d
        loadOffsets i f c idx base (d.length < p.dataSize) os buf
    else loadOffsets i f c idx base failed os buf

/-- Core/Storage.cpp:148-176 `loadPieceBlocks(file, ...)`. -/
def loadFile (i : Info) (f : File) (c : Option Content) (idx base : Nat) (offsets : List BlockOffset)
    (buf : List UInt8) : Res (Status × List UInt8) :=
  match c with
  | none => .ok (.E_FileReadError, buf)
  | some c => do
    let buf ← loadOffsets i f c idx base false offsets buf
    pure (.Success, buf)

/-- Core/Storage.cpp:137-143: the loop over the files. -/
def loadLoop (i : Info) (idx base : Nat) (offsets : List BlockOffset) :
    List File → Fs → Status → List UInt8 → Res (Status × List UInt8)
  | f :: files, c :: cs, st, buf =>
    if st ≠ .Success ∨ fileContainsPiece f idx = false then .ok (st, buf)
    else do
      let r ← loadFile i f c idx base offsets buf
      loadLoop i idx base offsets files cs r.1 r.2
  | _, _, st, buf => .ok (st, buf)

/-- Core/Storage.cpp:132-146 `loadPieceBlocks`. -/
def loadPieceBlocks (i : Info) (fs : Fs) (idx : Nat) (offsets : List BlockOffset) (buf : List UInt8) (base : Nat := 0) :
    Res (Status × List UInt8) :=
  let n := lowerFile i idx
  loadLoop i idx base offsets (i.files.drop n) (fs.drop n) .Success buf

/-- Core/Storage.cpp:127-130 `loadPieceBlock`. -/
def loadPieceBlock (i : Info) (fs : Fs) (b : BlockInfo) (buf : List UInt8) : Res (Status × List UInt8) :=
  loadPieceBlocks i fs b.index [⟨b.begin, b.length⟩] buf b.begin

/-- Core/Storage.cpp:502-565 `preallocate`, with enough free space. -/
def preallocate (i : Info) (f : File) (size : Nat) (c : Option Content) : Option Content :=
  let existing := match c with | some c => c.length | none => 0
  if c.isNone ∨ existing ≠ size then
    if existing > size then
      if size = f.size then c.map (·.take f.size) else c
    else
      let startPieceSize := sub32 i.pieceSize f.startPiecePos
      let endPieceSize := f.endPiecePos
      let tempFileSize := u32 (startPieceSize + f.endPiecePos)
      let old := c.getD []   -- a file that does not exist is created empty
      if c.isSome ∧ existing = tempFileSize ∧ endPieceSize ≠ 0 then
        -- :541-549; the whole end piece is there because of the size
        some (fileWrite old (f.size - 1) ((old.drop startPieceSize).take endPieceSize))
      else if size ≠ 0 then some (fileWrite old (size - 1) [0])
      else some old
  else c

end Verif.Storage
