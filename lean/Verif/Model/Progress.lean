import Verif.Common
import Verif.Spec.Progress
/-! Piece progress: Core/PiecesProgress.cpp, Bitfield in Core/Api/InterfaceImpl.cpp. -/

namespace Verif.Progress

/-- Core/PiecesProgress.cpp:4. -/
def HasFlag : UInt8 := 1
/-- Core/PiecesProgress.cpp:5. -/
def UnselectedFlag : UInt8 := 8

/-- Core/PiecesProgress.h:35-41. The counters are `size_t`; they are integers here, and C10 shows
that they never go below zero, so the wrap-around of `size_t` never matters. -/
structure PP where
  pieces : List UInt8 := []
  selectedPieces : Int := 0
  receivedPiecesCount : Int := 0
  selectedReceivedPiecesCount : Int := 0
deriving DecidableEq, Repr

/-- Core/PiecesProgress.cpp:22-25. -/
def finished (s : PP) : Bool := !s.pieces.isEmpty && s.receivedPiecesCount == s.pieces.length

/-- Core/PiecesProgress.cpp:27-30. -/
def selectedFinished (s : PP) : Bool :=
  !s.pieces.isEmpty && s.selectedReceivedPiecesCount == s.selectedPieces

/-- Core/PiecesProgress.cpp:7-10. -/
def empty (s : PP) : Bool := s.receivedPiecesCount == 0

/-- Core/PiecesProgress.cpp:195-198. -/
def getReceivedPiecesCount (s : PP) : Int := s.receivedPiecesCount

/-- Core/PiecesProgress.cpp:168-171. The index is not looked at when everything is received. -/
def hasPiece (s : PP) (index : Nat) : Res Bool :=
  if finished s then .ok true
  else do
    let p ← rd s.pieces index
    pure (p &&& HasFlag != 0)

/-- Core/PiecesProgress.cpp:185-188. -/
def selectedPiece (s : PP) (index : Nat) : Res Bool := do
  let p ← rd s.pieces index
  pure (p &&& UnselectedFlag == 0)

/-- Core/PiecesProgress.cpp:190-193. -/
def wantedPiece (s : PP) (index : Nat) : Res Bool := do
  let p ← rd s.pieces index
  pure (p == 0)

/-- Core/PiecesProgress.cpp:68-87. -/
def calculatePieces (s : PP) : PP :=
  s.pieces.foldl (fun s p =>
    let s := if p &&& HasFlag != 0 then { s with receivedPiecesCount := s.receivedPiecesCount + 1 } else s
    if p &&& UnselectedFlag == 0 then
      let s := { s with selectedPieces := s.selectedPieces + 1 }
      if p &&& HasFlag != 0 then
        { s with selectedReceivedPiecesCount := s.selectedReceivedPiecesCount + 1 } else s
    else s)
    { s with receivedPiecesCount := 0, selectedReceivedPiecesCount := 0, selectedPieces := 0 }

/-- Core/PiecesProgress.cpp:89-99. -/
def init (s : PP) (size : Nat) : PP :=
  { pieces := s.pieces ++ List.replicate (size - s.pieces.length) 0
    selectedPieces := size, receivedPiecesCount := 0, selectedReceivedPiecesCount := 0 }

/-- Core/PiecesProgress.cpp:101-114. -/
def resize (s : PP) (size : Nat) : PP :=
  if s.pieces.length ≠ size then
    calculatePieces { s with
      pieces := s.pieces.take size ++ List.replicate (size - s.pieces.length) 0 }
  else s

/-- Core/PiecesProgress.cpp:153-166. `index + 1` is a 32-bit sum. -/
def addPiece (s : PP) (index : Nat) : Res PP := do
  let s := if index ≥ s.pieces.length then resize s ((index + 1) % 4294967296) else s
  let has ← hasPiece s index
  if !has then do
    let wanted ← wantedPiece s index
    let p ← rd s.pieces index
    pure { s with
      selectedReceivedPiecesCount :=
        if wanted then s.selectedReceivedPiecesCount + 1 else s.selectedReceivedPiecesCount
      pieces := s.pieces.set index (p ||| HasFlag)
      receivedPiecesCount := s.receivedPiecesCount + 1 }
  else pure s

/-- Core/PiecesProgress.cpp:173-183. -/
def removePiece (s : PP) (index : Nat) : Res PP := do
  let has ← hasPiece s index
  if has then do
    let sel ← selectedPiece s index
    let p ← rd s.pieces index
    pure { s with
      selectedReceivedPiecesCount :=
        if sel then s.selectedReceivedPiecesCount - 1 else s.selectedReceivedPiecesCount
      pieces := s.pieces.set index (p &&& ~~~ HasFlag)
      receivedPiecesCount := s.receivedPiecesCount - 1 }
  else pure s

/-- Core/PiecesProgress.cpp:118-122: the loop of `removeReceived` from index `i`, `n` steps left. -/
def removeReceivedLoop (wh : List Bool) : Nat → Nat → PP → Res PP
  | _, 0, s => .ok s
  | i, n + 1, s => do
    let w ← rd wh i
    let s ← if w then removePiece s i else pure s
    removeReceivedLoop wh (i + 1) n s

/-- Core/PiecesProgress.cpp:116-123. -/
def removeReceived (s : PP) (wh : List Bool) : Res PP := removeReceivedLoop wh 0 s.pieces.length s

/-- Core/PiecesProgress.cpp:129-149: body of the `select` loop. -/
def selectOne (s : PP) (i : Nat) (selected : Bool) : Res PP := do
  let cur ← selectedPiece s i
  if cur == selected then pure s
  else do
    let p ← rd s.pieces i
    let s := if p &&& HasFlag != 0 then
        { s with selectedReceivedPiecesCount :=
          if selected then s.selectedReceivedPiecesCount + 1 else s.selectedReceivedPiecesCount - 1 }
      else s
    if selected then
      pure { s with selectedPieces := s.selectedPieces + 1, pieces := s.pieces.set i (p &&& ~~~ UnselectedFlag) }
    else
      pure { s with selectedPieces := s.selectedPieces - 1, pieces := s.pieces.set i (p ||| UnselectedFlag) }

/-- Core/PiecesProgress.cpp:127-150, `n` iterations from `i`. -/
def selectLoop (selected : Bool) : Nat → Nat → PP → Res PP
  | _, 0, s => .ok s
  | i, n + 1, s => do
    let s ← selectOne s i selected
    selectLoop selected (i + 1) n s

/-- Core/PiecesProgress.cpp:125-151: every index from `a` to `b` inclusive. (For `b = 2^32-1` the
C++ loop has no exit, but it leaves the table first, which is undefined behaviour here too.) -/
def select (s : PP) (a b : Nat) (selected : Bool) : Res PP := selectLoop selected a (b + 1 - a) s

/-- Conversion of an integer to `float` (round to nearest, ties to even, 24-bit mantissa). -/
def toFloat (n : Nat) : Nat :=
  if n < 16777216 then n
  else
    let e := n.log2 - 23
    let q := n / 2 ^ e
    let r := n % 2 ^ e
    let h := 2 ^ (e - 1)
    (if r > h ∨ (r = h ∧ q % 2 = 1) then q + 1 else q) * 2 ^ e

/-- `static_cast<size_t>(i / 8.0f)`: division by 8 is exact in `float`, then truncation. -/
def byteIdx (i : Nat) : Nat := toFloat i / 8

/-- `128 >> i % 8`. -/
def bitMask (i : Nat) : UInt8 := 128 >>> UInt8.ofNat (i % 8)

/-- Core/Api/InterfaceImpl.cpp:224-228 `Bitfield::init`: `ceil(size / 8.0f)` zero bytes. -/
def bfInit (size : Nat) : List UInt8 := List.replicate ((toFloat size + 7) / 8) 0

/-- Core/Api/InterfaceImpl.cpp:216-222 `Bitfield::put`. -/
def bfPut (data : List UInt8) (idx : Nat) : Res (List UInt8) := do
  let b ← rd data (byteIdx idx)
  pure (data.set (byteIdx idx) (b ||| bitMask idx))

/-- Core/Api/InterfaceImpl.cpp:208-214 `Bitfield::has`. -/
def bfHas (data : List UInt8) (idx : Nat) : Res Bool := do
  let b ← rd data (byteIdx idx)
  pure (b &&& bitMask idx != 0)

/-- Core/PiecesProgress.cpp:248-254, `n` iterations from `i`. -/
def toBitfieldLoop (s : PP) : Nat → Nat → List UInt8 → Res (List UInt8)
  | _, 0, d => .ok d
  | i, n + 1, d => do
    let h ← hasPiece s i
    let d ← if h then bfPut d i else pure d
    toBitfieldLoop s (i + 1) n d

/-- Core/PiecesProgress.cpp:235-255 `toBitfieldData`, `toBitfield`. -/
def toBitfield (s : PP) : Res (List UInt8) := toBitfieldLoop s 0 s.pieces.length (bfInit s.pieces.length)

/-- Core/PiecesProgress.cpp:206-215, `n` iterations from `i`. -/
def fromBitfieldLoop (bf : List UInt8) : Nat → Nat → PP → Res PP
  | _, 0, s => .ok s
  | i, n + 1, s => do
    let b ← rd bf (byteIdx i)
    let value := b &&& bitMask i != 0
    let _ ← rd s.pieces i
    fromBitfieldLoop bf (i + 1) n { s with
      pieces := s.pieces.set i (if value then HasFlag else 0)
      receivedPiecesCount := s.receivedPiecesCount + (if value then 1 else 0) }

/-- Core/PiecesProgress.cpp:200-216. -/
def fromBitfieldData (s : PP) (bf : List UInt8) : Res PP :=
  let maxPiecesCount := if s.pieces.isEmpty then bf.length * 8 else s.pieces.length
  fromBitfieldLoop bf 0 maxPiecesCount (init s maxPiecesCount)

/-- Core/PiecesProgress.cpp:222-232. -/
def fromListLoop (l : List UInt8) : Nat → Nat → PP → Res PP
  | _, 0, s => .ok s
  | i, n + 1, s => do
    let v ← rd l i
    let p ← rd s.pieces i
    if v != 0 then do
      let sel ← selectedPiece s i
      fromListLoop l (i + 1) n { s with
        pieces := s.pieces.set i (p ||| HasFlag)
        receivedPiecesCount := s.receivedPiecesCount + 1
        selectedReceivedPiecesCount :=
          if sel then s.selectedReceivedPiecesCount + 1 else s.selectedReceivedPiecesCount }
    else
      fromListLoop l (i + 1) n { s with pieces := s.pieces.set i (p &&& ~~~ HasFlag) }

/-- Core/PiecesProgress.cpp:218-233. No caller in the repository. -/
def fromList (s : PP) (l : List UInt8) : Res PP := fromListLoop l 0 l.length (init s l.length)

/-- Core/PiecesProgress.cpp:32-48. Division by zero is undefined behaviour. -/
def getReceivedBytes (s : PP) (pieceSize fullSize : Nat) : Res Int :=
  match s.pieces.getLast? with
  | none => .ok 0
  | some last =>
    if last &&& HasFlag != 0 then
      if pieceSize = 0 then .ub
      else .ok ((fullSize % pieceSize : Nat) + (s.receivedPiecesCount - 1) * pieceSize)
    else .ok (s.receivedPiecesCount * pieceSize)

/-- Core/PiecesProgress.cpp:50-66. -/
def getReceivedSelectedBytes (s : PP) (pieceSize fullSize : Nat) : Res Int :=
  match s.pieces.getLast? with
  | none => .ok 0
  | some last =>
    if last == HasFlag then
      if pieceSize = 0 then .ub
      else .ok ((fullSize % pieceSize : Nat) + (s.selectedReceivedPiecesCount - 1) * pieceSize)
    else .ok (s.selectedReceivedPiecesCount * pieceSize)

/-- The operations clients of the progress object perform on the torrent's own progress:
Core/Downloader.cpp:313 and Core/Storage.cpp:427-468 (add), Core/Downloader.cpp:202, Core/Files.cpp:57 (remove),
Core/Files.cpp:373 (removeReceived), Core/Files.cpp:136 (select), Core/Peers.cpp:388 (resize). -/
def step (s : PP) : Spec.ProgOp → Res PP
  | .add i => addPiece s i
  | .remove i => removePiece s i
  | .removeWhere w => removeReceived s w
  | .select a b sel => select s a b sel
  | .resize n => .ok (resize s n)

def run (s : PP) : List Spec.ProgOp → Res PP
  | [] => .ok s
  | o :: os => do
    let s ← step s o
    run s os

/-- How a history starts: a new torrent (`Files::initialize`, Core/Files.cpp:11-21, on the empty
progress) or a saved one (`Files::initialize(state)`, Core/Files.cpp:23-31, after the saved flag
bytes were put into `pieces`). -/
inductive Start where
  | fresh (n : Nat)
  | saved (flags : List UInt8)
deriving DecidableEq, Repr

def start : Start → PP
  | .fresh n => init {} n
  | .saved l => calculatePieces { pieces := l }

end Verif.Progress
