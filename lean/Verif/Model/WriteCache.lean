import Verif.Model.Storage
/-! The download write cache (Core/DownloadStorage.cpp, class WriteCache, and `checkPieceFunc`).

Background tasks are explicit: a posted `flush(group)` first writes the group to the storage, later
clears it under the mutex; other calls may run between these steps, in any order. Each step is
atomic; the unlocked access of the write step to `group->blocks` is taken to be free of data races. -/

namespace Verif.WriteCache
open Verif Layout Storage

/-- A `PieceBlockData` in a group: `off` is the position of `data` in the group's buffer. -/
structure CBlock where
  off : Nat
  info : BlockInfo
deriving DecidableEq, Repr

/-- Core/DownloadStorage.h:27-35 `Group`; `id` stands for the list iterator. -/
structure Group where
  id : Nat
  buffer : List UInt8
  pos : Nat
  blocks : List CBlock
deriving DecidableEq, Repr

/-- A posted `flush(group)`; `written`: the storage call has been made. -/
structure Task where
  gid : Nat
  written : Bool
deriving DecidableEq, Repr

structure St where
  groups : List Group
  tasks : List Task
  fs : Fs
  next : Nat
deriving DecidableEq, Repr

/-- `a - b` in `size_t`. -/
def sub64 (a b : Nat) : Nat := u64 (a + 18446744073709551616 - b % 18446744073709551616)

/-- Core/DownloadStorage.cpp:182-185 `Group::full`. -/
def full (g : Group) : Bool := decide (sub64 g.buffer.length g.pos < BlockMaxSize)

/-- Core/DownloadStorage.cpp:86-101, from the loop over the groups on: the first group that is not
full takes the block (`getBufferPart` :172-180, `memcpy` :94, `emplace_back` :96). Returns the groups
and the group to flush, if it became full. No group: `memcpy` to a null pointer. -/
def storeInto (b : Block) : List Group → Res (List Group × Option Nat)
  | [] => .ub
  | g :: gs =>
    if full g then do
      let r ← storeInto b gs
      pure (g :: r.1, r.2)
    else do
      let buffer ← putBuf g.buffer g.pos b.data
      let g' := { g with buffer := buffer, pos := g.pos + b.data.length, blocks := g.blocks ++ [⟨g.pos, b.info⟩] }
      pure (g' :: gs, if full g' then some g.id else none)

/-- Core/DownloadStorage.cpp:88-92: a new group is put in front when all are full. -/
def groupsFor (groupSize : Nat) (s : St) : List Group :=
  if s.groups.all full then ⟨s.next, List.replicate groupSize 0, 0, []⟩ :: s.groups else s.groups

/-- Core/DownloadStorage.cpp:98-103: post a flush of the group that became full. -/
def postFlush (ts : List Task) : Option Nat → List Task
  | some id => ts ++ [⟨id, false⟩]
  | none => ts

/-- Core/DownloadStorage.cpp:75-101 `storeBlock`. -/
def storeBlock (groupSize : Nat) (s : St) (b : Block) : Res St := do
  let r ← storeInto b (groupsFor groupSize s)
  pure { groups := r.1, tasks := postFlush s.tasks r.2, fs := s.fs
         next := if s.groups.all full then s.next + 1 else s.next }

/-- Core/DownloadStorage.cpp:70-73: the size of a group's buffer for the configured value. -/
def groupBufferSize (downloadCachePerGroup : Nat) : Nat := max BlockMaxSize downloadCachePerGroup

/-- The bytes a `PieceBlockData` of the group points to. -/
def blockOf (g : Group) (c : CBlock) : Block := ⟨c.info, (g.buffer.drop c.off).take c.info.length⟩

/-- Core/DownloadStorage.cpp:135-147 `flush()`. -/
def flushAll (s : St) : St :=
  { s with tasks := s.tasks ++
      (s.groups.filter fun g => !full g && !g.blocks.isEmpty).map fun g => ⟨g.id, false⟩ }

/-- Is `cs` an order `std::sort` may leave the blocks of the group in (Core/Storage.cpp:104)? -/
def sortOk (g : Group) (cs : List CBlock) : Bool :=
  cs.isPerm g.blocks && decide ((cs.map (blockOf g)).Pairwise fun a b => blockLt b a = false)

def setGroup (gs : List Group) (g : Group) : List Group := gs.map fun x => if x.id = g.id then g else x

/-- Marks one posted flush of the group as written. -/
def setWritten : List Task → Nat → List Task
  | [], _ => []
  | t :: ts, gid => if t = ⟨gid, false⟩ then ⟨gid, true⟩ :: ts else t :: setWritten ts gid

/-- Core/DownloadStorage.cpp:154-162, the storage call of a posted flush (the file is not locked; the
status is ignored by the code). Runs only if the task is posted and `cs` is a possible sort result. -/
def writeStep (i : Info) (s : St) (gid : Nat) (cs : List CBlock) : Res St :=
  match s.groups.find? (fun g => g.id == gid) with
  | none => .ok s
  | some g =>
    if ⟨gid, false⟩ ∈ s.tasks ∧ sortOk g cs then do
      let r ← storeSorted i s.fs (cs.map (blockOf g))
      pure { s with fs := r.2, groups := setGroup s.groups { g with blocks := cs }, tasks := setWritten s.tasks gid }
    else .ok s

/-- Core/DownloadStorage.cpp:164-169, the end of a posted flush. -/
def clearStep (s : St) (gid : Nat) : St :=
  match s.groups.find? (fun g => g.id == gid) with
  | none => s
  | some g =>
    if ⟨gid, true⟩ ∈ s.tasks then
      { s with groups := (s.groups.filter fun x => x.id != gid) ++ [{ g with pos := 0, blocks := [] }]
               tasks := s.tasks.erase ⟨gid, true⟩ }
    else s

/-- What can happen to the cache. -/
inductive Ev where
  | store (b : Block)
  | write (gid : Nat) (cs : List CBlock)
  | clear (gid : Nat)
  | flushAll
deriving DecidableEq, Repr

def step (i : Info) (groupSize : Nat) (s : St) : Ev → Res St
  | .store b => storeBlock groupSize s b
  | .write gid cs => writeStep i s gid cs
  | .clear gid => .ok (clearStep s gid)
  | .flushAll => .ok (flushAll s)

def run (i : Info) (groupSize : Nat) (s : St) : List Ev → Res St
  | [] => .ok s
  | e :: es => do
    let s ← step i groupSize s e
    run i groupSize s es

/-- A new cache over the files. -/
def init (fs : Fs) : St := ⟨[], [], fs, 0⟩

/-- The blocks in the cache, in the order `readBlocks` visits them. -/
def cached (s : St) : List Block := s.groups.flatMap fun g => g.blocks.map (blockOf g)

/-- Core/DownloadStorage.cpp:106-121: copies the cached blocks of the piece. -/
def copyBlocks (idx : Nat) : List Block → List UInt8 → Res (List UInt8)
  | [], buf => .ok buf
  | b :: bs, buf =>
    if b.info.index = idx then do
      let buf ← putBuf buf b.info.begin b.data
      copyBlocks idx bs buf
    else copyBlocks idx bs buf

/-- The ranges of the cached blocks of the piece, before sorting. -/
def offsetsOf (idx : Nat) (bs : List Block) : List BlockOffset :=
  (bs.filter fun b => b.info.index == idx).map fun b => ⟨b.info.begin, b.info.length⟩

/-- Core/DownloadStorage.cpp:124-132: the ranges between the cached ones, and the end position. -/
def gaps (pos : Nat) : List BlockOffset → List BlockOffset × Nat
  | [] => ([], pos)
  | o :: os =>
    let r := gaps (u32 (o.begin + o.size)) os
    (if o.begin > pos then ⟨pos, o.begin - pos⟩ :: r.1 else r.1, r.2)

/-- Core/DownloadStorage.cpp:103-133 `readBlocks` and :42-45 of `checkPieceFunc`: fills the buffer
from the cache and returns what has to be loaded. `os` is the sorted list of offsets. -/
def readCache (s : St) (idx : Nat) (os : List BlockOffset) (buf : List UInt8) : Res (List UInt8 × List BlockOffset) := do
  let b ← copyBlocks idx (cached s) buf
  let r := gaps 0 os
  pure (b, if r.2 < buf.length then r.1 ++ [⟨r.2, buf.length - r.2⟩] else r.1)

/-- Core/DownloadStorage.cpp:47: the rest of the buffer. -/
def loadMissing (i : Info) (fs : Fs) (idx : Nat) (r : List UInt8 × List BlockOffset) : Res (Status × List UInt8) :=
  if r.2.isEmpty then .ok (.Success, r.1) else loadPieceBlocks i fs idx r.2 r.1

/-- `os` is a possible result of the `std::sort` of :123. -/
def OffsetsSorted (os : List BlockOffset) (idx : Nat) (bs : List Block) : Prop :=
  os.Perm (offsetsOf idx bs) ∧ os.Pairwise fun a b => a.begin ≤ b.begin

end Verif.WriteCache
