import Verif.Common
/-! TCP connections (utils/TcpAsyncStream.h, utils/TcpAsyncStream.cpp). Handlers run one after another; the socket is the world around. -/

namespace Verif.Tcp
open Verif

/-! ### What was received -/

/-- utils/TcpAsyncStream.h:68-81 `ReadBuffer`. -/
structure Buffer where
  data : List UInt8 := []
  pos : Nat := 0
  counter : Nat := 0
deriving DecidableEq, Repr

/-- utils/TcpAsyncStream.cpp:535-549 `reserve`: room behind `pos`. Both branches keep what is in front of it; what is behind it is
overwritten or cut off. -/
def reserve (b : Buffer) (n : Nat) : Buffer := { b with data := b.data.take b.pos ++ List.replicate (b.pos + n - (b.data.take b.pos).length) 0 }

/-- What the socket writes to the memory behind `pos`; more than there is room for is undefined. -/
def fill (b : Buffer) (bs : List UInt8) : Res Buffer :=
  if b.pos + bs.length ≤ b.data.length then .ok { b with data := b.data.take b.pos ++ bs ++ b.data.drop (b.pos + bs.length) } else .ub

/-- utils/TcpAsyncStream.cpp:515-520 `advanceBuffer`. -/
def advance (b : Buffer) (n : Nat) : Buffer := { b with pos := b.pos + n, counter := b.counter + n }

/-- utils/TcpAsyncStream.cpp:522-533 `consume`: the difference has 64 bits; moving memory that is not in the vector is
undefined. -/
def consume (b : Buffer) (n : Nat) : Res Buffer :=
  let p := (b.pos + 18446744073709551616 - n) % 18446744073709551616
  if p ≠ 0 ∧ n ≠ 0 then
    if n + p ≤ b.data.length then .ok { b with pos := p, data := (b.data.drop n).take p } else .ub
  else .ok { b with pos := p }

/-! ### The stream -/

/-- utils/TcpAsyncStream.h:57. -/
inductive Phase where
  | clear | connecting | connected | disconnected
deriving DecidableEq, Repr

/-- utils/TcpAsyncStream.h:45-126. `queue`: `write_msgs`; `writing`: whether the socket is writing; `requested`: the size of the
receive under way. Names, addresses and the timer are left out. -/
structure Stream where
  phase : Phase := .clear
  buffer : Buffer := {}
  queue : List (List UInt8) := []
  writing : Option (List UInt8) := none
  quota : Nat := 0
  waitBw : Bool := false
  waitData : Bool := false
  requested : Nat := 0
  expecting : Nat := 100
  channels : Nat := 0
  speed : Nat := 0
  last : Nat := 0
deriving DecidableEq, Repr

/-- A difference, a sum of 32 bits. -/
def sub32 (a b : Nat) : Nat := (a + 4294967296 - b % 4294967296) % 4294967296
def add32 (a b : Nat) : Nat := (a + b) % 4294967296

/-- utils/TcpAsyncStream.cpp:422-430 `appendData` at a time in seconds; `lastReceiveTime` is set nowhere. -/
def appendData (s : Stream) (n now : Nat) : Res Stream :=
  let d := sub32 (now % 4294967296) s.last * 1000 % 4294967296
  if d = 0 then .ub
  else .ok { s with buffer := advance s.buffer n, speed := n % 4294967296 / d, quota := min (sub32 s.quota n) 0 }

/-- utils/TcpAsyncStream.cpp:440-449 `wantedTransfer`. -/
def wanted (s : Stream) : Nat := min (max s.expecting s.speed) 1048576

/-- utils/TcpAsyncStream.cpp:451-472 `requestBandwidth`; `grant` is the answer of the bandwidth manager. -/
def requestBandwidth (s : Stream) (bytes grant : Nat) : Stream :=
  if s.waitBw then s
  else if bytes ≤ s.quota then s
  else
    let ret := if s.channels = 0 then bytes - s.quota else grant
    if ret = 0 then { s with waitBw := true } else { s with quota := add32 s.quota ret }

/-- utils/TcpAsyncStream.cpp:474-496 `startReceive`. -/
def startReceive (s : Stream) (grant : Nat) : Stream :=
  if s.phase ≠ .connected then s
  else
    let s := requestBandwidth s (wanted s) grant
    if s.waitData || s.waitBw then s
    else { s with waitData := true, requested := s.quota, buffer := reserve s.buffer s.quota }

/-- utils/TcpAsyncStream.cpp:194-233 `postFail`. The callbacks are cleared; what the socket was doing ends. -/
def fail (s : Stream) : Stream := { s with phase := .disconnected, writing := none }

/-- Handing a message to the socket; while it is writing another one the two are mixed. -/
def startWrite (s : Stream) (m : List UInt8) : Res Stream :=
  match s.writing with
  | none => .ok { s with writing := some m }
  | some _ => .ub

/-- utils/TcpAsyncStream.cpp:138-157 `initializeInfo`, for :235-246. -/
def info (s : Stream) (ok : Bool) : Stream := if ok then { s with phase := .connected } else fail s

/-- utils/TcpAsyncStream.cpp:159-192 `setAsConnected`, for :235-246. -/
def setConnected (s : Stream) (ok : Bool) (grant : Nat) : Res Stream :=
  if !ok then .ok (fail s)
  else match s.queue with
    | [] => .ok (startReceive s grant)
    | m :: _ => do
      let s ← startWrite s m
      pure (startReceive s grant)

/-- utils/TcpAsyncStream.cpp:293-323 `do_write`, where the address or the name is known. -/
def doWrite (s : Stream) (m : List UInt8) : Res Stream :=
  let s := { s with queue := s.queue ++ [m] }
  match s.phase with
  | .connected => if 1 < s.queue.length then .ok s else match s.queue with
    | [] => .ok s
    | m :: _ => startWrite s m
  | .clear => .ok { s with phase := .connecting }
  | _ => .ok s

/-- utils/TcpAsyncStream.cpp:325-344 `handle_write`; taking from an empty queue is undefined. -/
def handleWrite (s : Stream) (ok : Bool) : Res Stream :=
  if !ok then .ok (fail s)
  else match s.queue with
    | [] => .ub
    | _ :: q =>
      let s := { s with queue := q, writing := none }
      match q with
      | [] => .ok s
      | m :: _ => startWrite s m

/-- utils/TcpAsyncStream.cpp:346-375 `readAvailableData`: `available` is there, of which at most `k` bytes are read; or there is an error. -/
def readAvailable (s : Stream) (now : Nat) (available : List UInt8) (k : Nat) (error : Bool) (grant : Nat) : Res (Stream × Bool) :=
  let s := requestBandwidth s (available.length % 4294967296) grant
  let n := min (available.length % 4294967296) s.quota
  if n = 0 then .ok (s, true)
  else if error then .ok ({ s with buffer := reserve s.buffer n }, false)
  else do
    let b ← fill (reserve s.buffer n) (available.take (min n k))
    let s := { s with buffer := b }
    if min n k = 0 then pure (s, true)
    else do
      let s ← appendData s (min n k) now
      pure (s, true)

/-- utils/TcpAsyncStream.cpp:390-402: more is read only after as much arrived as was asked for. -/
def readMore (s : Stream) (n now : Nat) (available : List UInt8) (k : Nat) (error : Bool) (grant : Nat) : Res (Stream × Bool) :=
  if n = s.requested then readAvailable s now available k error grant else .ok (s, true)

/-- What happens with data: the stream after it and what the receiver was shown. -/
structure Received where
  stream : Stream
  shown : Option (List UInt8) := none
  used : Nat := 0
deriving DecidableEq, Repr

/-- utils/TcpAsyncStream.cpp:377-420 `handle_receive` of `bs`; `use` says how much the receiver uses of what it is shown. `grants`: the
answers of the bandwidth manager. -/
def handleReceive (s : Stream) (bs : List UInt8) (now : Nat) (available : List UInt8) (k : Nat) (error : Bool) (grants : Nat × Nat)
    (use : List UInt8 → Nat) : Res Received :=
  let s := { s with waitData := false }
  if s.phase = .disconnected then .ok { stream := s }
  else do
    let b ← fill s.buffer bs
    let s ← appendData { s with buffer := b } bs.length now
    let r ← readMore s bs.length now available k error grants.1
    if r.2 = false then pure { stream := fail r.1 }
    else do
      let shown := r.1.buffer.data.take r.1.buffer.pos
      let b ← consume r.1.buffer (use shown)
      pure { stream := startReceive { r.1 with buffer := b } grants.2, shown := some shown, used := use shown }

/-- utils/TcpAsyncStream.cpp:503-513 `assignBandwidth`. -/
def assign (s : Stream) (amount grant : Nat) : Stream := startReceive { s with waitBw := false, quota := add32 s.quota amount } grant

/-- utils/TcpAsyncStream.cpp:18-31 `connect` to an address. -/
def connect (s : Stream) : Stream := if s.phase ≠ .clear then s else { s with phase := .connecting }

/-- utils/TcpAsyncStream.cpp:248-286: the addresses of a host that are tried, when each of them fails; the number of the next one. Behind
the last one is undefined. -/
def nextAddress (n counter : Nat) : Res (Option Nat) :=
  if n < counter then (if counter < n then .ok (some counter) else .ub) else .ok none

end Verif.Tcp
