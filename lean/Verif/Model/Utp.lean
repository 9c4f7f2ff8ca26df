import Verif.Common
/-! uTP: datagrams, Core/Utp/UtpManager.cpp:90-121 and Core/Utp/UtpStream.cpp:891-913, and streams,
Core/Utp/UtpStream.cpp.

Times are microseconds. Within one call the clock stands still. The work of other threads between the lines
of a call is not modelled: every call of `Stream` is one step. -/

namespace Verif.Utp
open Verif

/-! ### Datagrams -/

/-- Core/Utp/UtpStream.h:215-232 `MessageHeader`; `typ` is `getType()`. -/
structure Header where
  typ : Nat
  ext : Nat := 0
  conn : Nat := 0
  ts : Nat := 0
  tsDiff : Nat := 0
  wnd : Nat := 0
  seq : Nat := 0
  ack : Nat := 0
deriving DecidableEq, Repr

/-- The 20 bytes of a header, Core/Utp/UtpStream.h:191-231. -/
def Header.bytes (h : Header) : List UInt8 :=
  [UInt8.ofNat (h.typ * 16 + 1), UInt8.ofNat h.ext] ++ be16 h.conn ++ be32 h.ts ++ be32 h.tsDiff ++ be32 h.wnd ++ be16 h.seq ++ be16 h.ack

/-- Core/Utp/UtpStream.cpp:891-913, the loop of `parseHeaderSize`: `mem` is the memory at `ext`, `left` is
`dataLeft`. The result is `dataLeft`, nothing if 0 is returned. -/
def extensionsLeft : Nat → List UInt8 → Nat → Nat → Res (Option Nat)
  | _, _, left, 0 => .ok (some left)
  | 0, _, _, _ => .diverge
  | n + 1, mem, left, _ =>
    if left < 2 then .ok none
    else do
      let len ← rd mem 1
      if left - 2 < len.toNat then pure none
      else do
        let next ← rd mem 0
        extensionsLeft n (mem.drop (2 + len.toNat)) (left - 2 - len.toNat) next.toNat

/-- Core/Utp/UtpStream.cpp:891-913 `parseHeaderSize` of a datagram of at least 20 bytes; `after` is the memory
behind it. -/
def parseHeaderSize (data after : List UInt8) : Res Nat := do
  let t ← rd data 1
  let r ← extensionsLeft data.length ((data ++ after).drop 20) (data.length - 20) t.toNat
  match r with
  | some left => pure ((data.length - left) % 4294967296)
  | none => pure 0

/-- Core/Utp/UtpManager.cpp:95-106. -/
def packetHeaderSize (data after : List UInt8) : Res Nat :=
  if data.length < 20 then .ok 0
  else do
    let t ← rd data 0
    if t.toNat % 16 ≠ 1 ∨ t.toNat / 16 > 4 then pure 0 else parseHeaderSize data after

/-- Core/Utp/UtpStream.cpp:495-505 and 582-590: the extensions `updateState` looks at, type and content. -/
def readExtensions : Nat → List UInt8 → Nat → Res (List (Nat × List UInt8))
  | _, _, 0 => .ok []
  | 0, _, _ => .diverge
  | n + 1, mem, t => do
    let len ← rd mem 1
    let next ← rd mem 0
    if t = 1 ∧ (mem.drop 2).length < len.toNat then .ub
    else do
      let r ← readExtensions n (mem.drop (2 + len.toNat)) next.toNat
      pure ((t, (mem.drop 2).take len.toNat) :: r)

/-- The fields of a datagram, through the cast in Core/Utp/UtpManager.cpp:155 and 159. -/
def Header.read (data : List UInt8) : Header where
  typ := beVal (data.take 1) / 16
  ext := beVal ((data.drop 1).take 1)
  conn := beVal ((data.drop 2).take 2)
  ts := beVal ((data.drop 4).take 4)
  tsDiff := beVal ((data.drop 8).take 4)
  wnd := beVal ((data.drop 12).take 4)
  seq := beVal ((data.drop 16).take 2)
  ack := beVal ((data.drop 18).take 2)

structure Packet where
  head : Header
  exts : List (Nat × List UInt8) := []
  data : List UInt8 := []
deriving DecidableEq, Repr

/-- What a stream sees of a datagram: Core/Utp/UtpManager.cpp:112-118 and 149-159, Core/Utp/UtpStream.cpp:495-505.
Nothing if it is not a uTP packet. -/
def readDatagram (data after : List UInt8) : Res (Option Packet) := do
  let n ← packetHeaderSize data after
  if n = 0 then pure none
  else do
    let e ← readExtensions data.length ((data ++ after).drop 20) (Header.read data).ext
    pure (some ⟨Header.read data, e, data.drop n⟩)

/-! ### Sequence numbers -/

/-- Core/Utp/UtpStream.cpp:15-21 `idLowerThan`. -/
def idLower (l r : Nat) : Bool := (r + 65536 - l) % 65536 < (l + 65536 - r) % 65536

/-- Core/Utp/UtpStream.cpp:22-28 `idHigherThan`. -/
def idHigher (l r : Nat) : Bool := (r + 65536 - l) % 65536 > (l + 65536 - r) % 65536

def inc16 (n : Nat) : Nat := (n + 1) % 65536

/-! ### Streams -/

/-- Core/Utp/UtpStream.h:71 `StateType`. -/
inductive Step where
  | clean | synSend | synRecv | connected | closing | closed
deriving DecidableEq, Repr

def Step.num : Step → Nat
  | .clean => 0 | .synSend => 1 | .synRecv => 2 | .connected => 3 | .closing => 4 | .closed => 5

/-- Core/Utp/UtpStream.h:111-118 `SentDataPacket` without its time. -/
structure Sent where
  idx : Nat
  seq : Nat
  resent : Bool := false
  needResend : Bool := false
deriving DecidableEq, Repr

/-- Core/Utp/UtpStream.h:158-162 `ReceivedDataUnsynced`. -/
structure Stored where
  idx : Nat
  seq : Nat
deriving DecidableEq, Repr

/-- Core/Utp/UtpStream.h:71-188. Fields that the code does not have: `clock`, `closePosted` (the lambda of
`close` waits in the queue), `wire` (what was handed to the writer), `taken` (what the receive callback has
consumed). -/
structure Stream where
  step : Step := .clean
  sequence : Nat := 100
  ack : Nat := 0
  idRecv : Nat := 0
  idSend : Nat := 0
  peerWnd : Nat := 1048576
  replyDelay : Nat := 0
  lastAck : Nat := 0
  eofAck : Nat := 0
  timeoutCount : Nat := 0
  nextTimeout : Nat := 0
  lastReceive : Nat := 0
  wasConnected : Bool := false
  sentData : List Sent := []
  unacked : Nat := 0
  dupAck : Nat := 0
  prepared : List UInt8 := []
  preparedPos : Nat := 0
  maxSize : Nat := 576
  probeId : Nat := 0
  probeFinished : Bool := false
  receiveBuffer : List UInt8 := []
  receivedData : List Stored := []
  received : Bool := false
  appended : Bool := false
  bytesSize : Nat := 0
  buffers : List (List UInt8) := []
  clock : Nat := 0
  closePosted : Bool := false
  wire : List (List UInt8) := []
  taken : List UInt8 := []
deriving DecidableEq, Repr

/-- Core/Utp/UtpStream.cpp:915-923. -/
def Stream.now32 (s : Stream) : Nat := s.clock % 4294967296

/-- Core/Utp/UtpStream.cpp:592-606 `createDataBuffer`, with the content its callers give it. The index of the
loop has 16 bits: with 65536 buffers in use it never ends. -/
def createBuffer (bufs : List (List UInt8)) (b : List UInt8) : Res (List (List UInt8) × Nat) :=
  match bufs.findIdx? (· == []) with
  | some i => .ok (bufs.set i b, i)
  | none => if bufs.length ≥ 65536 then .diverge else .ok (bufs ++ [b], bufs.length)

/-- Core/Utp/UtpStream.cpp:608-624 `packetTimeout`, in milliseconds; overflow of the shifted `int` is
undefined. -/
def Stream.packetTimeout (s : Stream) : Res Nat :=
  if s.step.num < 3 then .ok 3000
  else if s.timeoutCount = 0 then .ok 500
  else if 2 ^ (s.timeoutCount - 1) * 1000 ≥ 2147483648 then .ub
  else .ok (min (500 + 2 ^ (s.timeoutCount - 1) * 1000) 30000)

/-! #### Sending -/

/-- Core/Utp/UtpStream.cpp:626-637: the size of the next packet and whether it is a probe. -/
def Stream.sendSize (s : Stream) (n : Nat) : Nat × Bool :=
  if n > s.maxSize then
    if s.probeFinished = false ∧ s.probeId = 0 ∧ s.sequence ≠ 0 then (min n ((s.maxSize + 1452) / 2), true) else (s.maxSize, false)
  else (n, false)

/-- Core/Utp/UtpStream.cpp:626-665 `sendData` of the start of `data`: how much was taken. -/
def Stream.sendData (s : Stream) (data : List UInt8) : Res (Stream × Nat) := do
  let z := s.sendSize data.length
  let h : Header := { typ := 0, conn := s.idSend, seq := s.sequence, ack := s.ack, wnd := 1048576, ts := s.now32, tsDiff := s.replyDelay }
  let b ← createBuffer s.buffers (h.bytes ++ data.take z.1)
  pure ({ s with probeId := if z.2 then s.sequence else s.probeId
                 buffers := b.1
                 sequence := inc16 s.sequence
                 sentData := s.sentData ++ [⟨b.2, s.sequence, false, false⟩]
                 unacked := s.unacked + (20 + (data.take z.1).length)
                 wire := s.wire ++ [h.bytes ++ data.take z.1] }, z.1)

/-- Core/Utp/UtpStream.cpp:120-147: the loop of `write` on the data that is left; `grow` says whether the
prepared buffer is too small. Both ways are the same up to the bytes already sent. -/
def Stream.writeLoop : Nat → Stream → List UInt8 → Bool → Res Stream
  | _, s, [], _ => .ok s
  | 0, _, _, _ => .diverge
  | n + 1, s, data, grow =>
    if 1048576 < s.unacked ∨ s.prepared ≠ [] then
      if grow then .ok { s with prepared := s.prepared.drop s.preparedPos ++ data, preparedPos := 0 }
      else .ok { s with prepared := s.prepared ++ data }
    else do
      let r ← s.sendData data
      Stream.writeLoop n r.1 (data.drop r.2) grow

/-- Core/Utp/UtpStream.cpp:114-148 `write`. -/
def Stream.write (s : Stream) (data : List UInt8) (grow : Bool) : Res Stream :=
  if s.step = .closed then .ok s else Stream.writeLoop data.length s data grow

/-- Core/Utp/UtpStream.cpp:781-785: the fields of a packet that change when it is sent again. -/
def patch (b : List UInt8) (ack ts tsDiff : Nat) : List UInt8 :=
  b.take 4 ++ be32 ts ++ be32 tsDiff ++ (b.drop 12).take 6 ++ be16 ack ++ b.drop 20

/-- Core/Utp/UtpStream.cpp:771-790: the loop of `resendPackets`. -/
def resendLoop (last : Nat) : List Sent → Stream → Res (List Sent × Stream)
  | [], s => .ok ([], s)
  | p :: ps, s =>
    if idHigher p.seq last then .ok (p :: ps, s)
    else if p.resent = true ∧ p.needResend = false then do
      let r ← resendLoop last ps s
      pure (p :: r.1, r.2)
    else do
      let b ← rd s.buffers p.idx
      if b.length < 20 then .ub
      else do
        let b := patch b s.ack s.now32 s.replyDelay
        let r ← resendLoop last ps { s with buffers := s.buffers.set p.idx b, wire := s.wire ++ [b] }
        pure ({ p with resent := true, needResend := false } :: r.1, r.2)

/-- Core/Utp/UtpStream.cpp:767-793 `resendPackets`. -/
def Stream.resend (s : Stream) (last : Nat) : Res Stream := do
  let r ← resendLoop last s.sentData s
  pure { r.2 with sentData := r.1, dupAck := 0 }

/-- Core/Utp/UtpStream.cpp:738-765 `ackSentPacket`. -/
def Stream.ackPacket (s : Stream) (p : Sent) : Res Stream := do
  let b ← rd s.buffers p.idx
  let probe := p.seq = s.probeId ∧ p.seq ≠ 0
  let size := (b.length + 4294967296 - 20) % 4294967296
  pure { s with maxSize := if probe then size else s.maxSize
                probeId := if probe then 0 else s.probeId
                probeFinished := if probe ∧ size > 1400 then true else s.probeFinished
                unacked := (s.unacked + 18446744073709551616 - b.length) % 18446744073709551616
                buffers := s.buffers.set p.idx [] }

/-- Core/Utp/UtpStream.cpp:669-677: packets acknowledged at the front, and those left. -/
def ackLoop (ack : Nat) : List Sent → Stream → Res (List Sent × Stream)
  | [], s => .ok ([], s)
  | p :: ps, s =>
    if idHigher p.seq ack then .ok (p :: ps, s)
    else do
      let s ← s.ackPacket p
      ackLoop ack ps s

/-- Core/Utp/UtpStream.cpp:667-691 `ackSentDataBuffer`. -/
def Stream.ackSent (s : Stream) (h : Header) : Res Stream := do
  let r ← ackLoop h.ack s.sentData s
  if r.1.length ≠ s.sentData.length then pure { r.2 with sentData := r.1, dupAck := 0, lastAck := h.ack }
  else if h.typ ≠ 0 ∧ s.lastAck = h.ack then pure { s with dupAck := s.dupAck + 1 }
  else pure s

/-- Core/Utp/UtpStream.cpp:698-704 and 723-724: the numbers acknowledged by one byte. -/
def sackByte (first : Nat) (b : UInt8) : List Nat :=
  (List.range 8).filterMap fun j => if b.toNat / 2 ^ j % 2 = 1 then some ((first + j) % 65536) else none

/-- Core/Utp/UtpStream.cpp:698-704: the numbers acknowledged, in order. -/
def sackSeqs : Nat → List UInt8 → List Nat
  | _, [] => []
  | first, b :: bs => sackByte first b ++ sackSeqs (first + 8) bs

/-- Core/Utp/UtpStream.cpp:707-721: one number. -/
def Stream.sackOne (s : Stream) (q : Nat) : Res Stream :=
  match s.sentData.findIdx? (fun p => !idLower p.seq q) with
  | none => .ok s
  | some i => do
    let p ← rd s.sentData i
    if p.seq = q then do
      let s ← s.ackPacket p
      pure { s with sentData := s.sentData.eraseIdx i }
    else pure s

def Stream.sackAll : List Nat → Stream → Res Stream
  | [], s => .ok s
  | q :: qs, s => do
    let s ← s.sackOne q
    Stream.sackAll qs s

/-- Core/Utp/UtpStream.cpp:693-736 `ackSentDataBuffer` with selective acks. -/
def Stream.sack (s : Stream) (h : Header) (bytes : List UInt8) : Res Stream := do
  let qs := sackSeqs (h.ack + 2) bytes
  let s ← Stream.sackAll qs s
  if qs.length > 2 then do
    let q ← rd qs (qs.length - 3)
    s.resend ((q + 65535) % 65536)
  else pure s

/-- Core/Utp/UtpStream.cpp:430-436: the loop that sends prepared data, `data` being what is left of it. -/
def Stream.flushLoop (limit : Nat) : Nat → Stream → List UInt8 → Res (Stream × List UInt8)
  | _, s, [] => .ok (s, [])
  | 0, _, _ => .diverge
  | n + 1, s, data =>
    if s.unacked < limit then do
      let r ← s.sendData data
      Stream.flushLoop limit n r.1 (data.drop r.2)
    else .ok (s, data)

/-- Core/Utp/UtpStream.cpp:411-428. -/
def Stream.flushResend (s : Stream) : Res Stream :=
  if s.dupAck > 2 then s.resend (inc16 s.lastAck)
  else
    let n := (s.sentData.takeWhile (·.needResend)).length % 65536
    if n ≠ 0 then s.resend ((s.lastAck + min n 100) % 65536) else .ok s

/-- Core/Utp/UtpStream.cpp:407-463 `flushSendData`. -/
def Stream.flushSend (s : Stream) : Res Stream := do
  let s ← s.flushResend
  let r ← Stream.flushLoop (s.unacked + s.peerWnd) (s.prepared.length - s.preparedPos) s (s.prepared.drop s.preparedPos)
  let pos := s.prepared.length - r.2.length
  if pos ≠ s.preparedPos then
    if r.2 = [] then pure { r.1 with prepared := [], preparedPos := 0 }
    else if pos > 100000 then pure { r.1 with prepared := s.prepared.drop pos, preparedPos := 0 }
    else pure { r.1 with preparedPos := pos }
  else pure r.1

/-- Core/Utp/UtpStream.cpp:795-808 `clearSendData`. -/
def Stream.clearSend (s : Stream) : Res Stream :=
  if s.sentData.all (fun p => p.idx < s.buffers.length) then
    .ok { s with prepared := [], preparedPos := 0, unacked := 0, sentData := []
                 buffers := s.sentData.foldl (fun b p => b.set p.idx []) s.buffers }
  else .ub

/-! #### States sent -/

/-- Core/Utp/UtpStream.cpp:361-374 `getSelectiveAckDataSize`. -/
def Stream.sackSize (s : Stream) : Nat :=
  match s.receivedData.getLast? with
  | none => 0
  | some d =>
    let e := if d.seq < s.ack then d.seq + 65536 else d.seq
    let diff := (e + 4294967296 - (s.ack + 1)) % 4294967296
    min ((diff + 7) % 4294967296 / 8 + 2) 100

/-- Core/Utp/UtpStream.cpp:390-405: the bits of one byte from bit `8 - n` on; `k` is the place of the iterator
and `q` is `ackSeq`. -/
def sackBits (l : List Stored) : Nat → Nat → Nat → Nat → Res (Nat × Nat × Nat)
  | 0, q, k, v => .ok (v, q, k)
  | n + 1, q, k, v => do
    let d ← rd l k
    if d.seq = q then
      if k + 1 = l.length then pure (v + 2 ^ (7 - n), q, k + 1)
      else sackBits l n (inc16 q) (k + 1) (v + 2 ^ (7 - n))
    else sackBits l n (inc16 q) k v

/-- Core/Utp/UtpStream.cpp:387-405. -/
def sackBytes (l : List Stored) : Nat → Nat → Nat → Res (List UInt8)
  | 0, _, _ => .ok []
  | n + 1, q, k => do
    let r ← sackBits l 8 q k 0
    let bs ← sackBytes l n r.2.1 r.2.2
    pure (UInt8.ofNat r.1 :: bs)

/-- Core/Utp/UtpStream.cpp:336-359 and 376-405: `prepareStateHeader`, `prepareSelectiveAckData`. -/
def Stream.stateBytes (s : Stream) (typ ack : Nat) : Res (List UInt8) := do
  let h : Header := { typ := typ, conn := s.idSend, seq := s.sequence, ack := ack, wnd := 1048576, ts := s.now32, tsDiff := s.replyDelay }
  if s.sackSize = 0 then pure h.bytes
  else do
    let bs ← sackBytes s.receivedData (s.sackSize - 2) ((s.ack + 2) % 65536) 0
    pure ({ h with ext := 1 }.bytes ++ [0, UInt8.ofNat (s.sackSize - 2)] ++ bs)

/-- Core/Utp/UtpStream.cpp:321-326 `sendState`. -/
def Stream.sendState (s : Stream) : Res Stream := do
  let b ← s.stateBytes 2 s.ack
  pure { s with wire := s.wire ++ [b] }

/-- Core/Utp/UtpStream.cpp:328-334 `sendFin`. -/
def Stream.sendFin (s : Stream) : Res Stream := do
  let b ← s.stateBytes 1 s.eofAck
  pure { s with wire := s.wire ++ [b] }

/-- Core/Utp/UtpStream.cpp:303-319 `sendSyn`. -/
def Stream.sendSyn (s : Stream) : Stream :=
  let h : Header := { typ := 4, conn := s.idRecv, seq := s.sequence, ack := s.ack, wnd := 1048576, ts := s.now32 }
  { s with sequence := inc16 s.sequence, wire := s.wire ++ [h.bytes] }

/-! #### Opening and closing -/

/-- Core/Utp/UtpStream.cpp:79-92 `init` with the random numbers drawn. -/
def Stream.init (id seq clock : Nat) : Stream :=
  { step := .synSend, idRecv := id, idSend := inc16 id, sequence := seq, clock := clock }

/-- Core/Utp/UtpStream.cpp:98 and the same elsewhere. -/
def Stream.schedule (s : Stream) : Res Stream := do
  let t ← s.packetTimeout
  pure { s with lastReceive := s.clock, nextTimeout := s.clock + t * 1000 }

/-- Core/Utp/UtpStream.cpp:94-99 `connect`. -/
def Stream.connect (s : Stream) : Res Stream := s.sendSyn.schedule

/-- Core/Utp/UtpStream.cpp:101-112 `connectRemote`. -/
def Stream.connectRemote (s : Stream) (h : Header) : Res Stream := do
  let s ← Stream.sendState { s with step := .synRecv, idSend := h.conn, idRecv := inc16 h.conn, ack := h.seq }
  s.schedule

/-- Core/Utp/UtpStream.cpp:281-301 `close`. -/
def Stream.close (s : Stream) : Stream := if s.step = .closed then s else { s with closePosted := true }

/-- Core/Utp/UtpStream.cpp:289-300: the lambda of `close`. -/
def Stream.runClose (s : Stream) : Stream := if s.closePosted then { s with step := .closed, closePosted := false } else s

/-- Core/Utp/UtpStream.cpp:810-817 `checkEof`. -/
def Stream.checkEof (s : Stream) : Res Stream :=
  if inc16 s.ack = s.eofAck then do
    let s ← s.sendFin
    pure s.close
  else .ok s

/-! #### Receiving -/

/-- Core/Utp/UtpStream.cpp:495-505 and 582-590. -/
def Stream.handleExts (h : Header) : List (Nat × List UInt8) → Stream → Res Stream
  | [], s => .ok s
  | e :: es, s => do
    let s ← if e.1 = 1 then s.sack h e.2 else pure s
    Stream.handleExts h es s

/-- Core/Utp/UtpStream.cpp:485-493. -/
def Stream.setConnected (s : Stream) (h : Header) : Stream :=
  if s.step.num < 3 then
    { s with ack := if s.step = .synSend then (h.seq + 65535) % 65536 else s.ack, step := .connected, lastAck := h.ack, wasConnected := true }
  else s

/-- Core/Utp/UtpStream.cpp:465-524 `updateState`; nothing if the packet is too old. The connect callback is
not modelled (what it writes is a step of its own). -/
def Stream.updateState (s : Stream) (p : Packet) : Res (Option Stream) :=
  if p.head.typ = 0 ∧ idLower p.head.seq s.ack then .ok none
  else do
    let s ← s.ackSent p.head
    let s := { s with replyDelay := (s.now32 + 4294967296 - p.head.ts) % 4294967296, peerWnd := p.head.wnd }
    let s := s.setConnected p.head
    let s ← Stream.handleExts p.head p.exts s
    let s ← s.flushSend
    let s ← s.schedule
    pure (some s)

/-- Core/Utp/UtpStream.cpp:819-846: the loop of `flushReceivedData`. The sum `state.ack + (uint16_t)1` has
type `int`, so it can be 65536. -/
def recvLoop : List Stored → Stream → Res (List Stored × Stream)
  | [], s => .ok ([], s)
  | d :: ds, s =>
    if d.seq = s.ack + 1 then do
      let b ← rd s.buffers d.idx
      recvLoop ds { s with receiveBuffer := s.receiveBuffer ++ b, ack := inc16 s.ack }
    else .ok (d :: ds, s)

/-- Core/Utp/UtpStream.cpp:819-846 `flushReceivedData`. -/
def Stream.flushReceived (s : Stream) : Res Stream := do
  let r ← recvLoop s.receivedData s
  pure { r.2 with receivedData := r.1 }

/-- Core/Utp/UtpStream.cpp:872-881: the ordered insert; nothing if the number is there already. -/
def insertStored (d : Stored) : List Stored → Option (List Stored)
  | [] => some [d]
  | e :: es =>
    if e.seq = d.seq then none
    else if idHigher e.seq d.seq then some (d :: e :: es)
    else (insertStored d es).map (e :: ·)

/-- Core/Utp/UtpStream.cpp:865-884 `storeReceivedData`. -/
def Stream.store (s : Stream) (seq : Nat) (data : List UInt8) : Res Stream := do
  let b ← createBuffer s.buffers data
  match insertStored ⟨b.2, seq⟩ s.receivedData with
  | some l => pure { s with buffers := b.1, receivedData := l }
  | none => pure { s with buffers := b.1 }

/-- Core/Utp/UtpStream.cpp:552-553. -/
def Stream.dataEnd (s : Stream) : Res Stream :=
  if s.step = .closing then Stream.checkEof { s with received := true } else .ok { s with received := true }

/-- Core/Utp/UtpStream.cpp:531-554 `handleDataMessage`. -/
def Stream.handleData (s : Stream) (p : Packet) : Res Stream :=
  if p.data = [] then .ok s
  else do
    match ← s.updateState p with
    | none => pure s
    | some s =>
      if s.step = .closed then pure s
      else if p.head.seq = inc16 s.ack then do
        let s ← Stream.flushReceived { s with receiveBuffer := s.receiveBuffer ++ p.data, ack := inc16 s.ack }
        Stream.dataEnd { s with appended := true }
      else if idHigher p.head.seq s.ack then do
        let s ← s.store p.head.seq p.data
        s.dataEnd
      else pure s

/-- Core/Utp/UtpStream.cpp:556-570 `handleFinMessage`. -/
def Stream.handleFin (s : Stream) (h : Header) : Res Stream := do
  let s ← if s.step ≠ .closed then Stream.clearSend { s with eofAck := h.seq, step := .closing } else pure s
  s.checkEof

/-- Core/Utp/UtpStream.cpp:150-174 `readUdpPacket`, and 526-529, 572-580. -/
def Stream.readPacket (s : Stream) (p : Packet) : Res Stream :=
  let s := { s with bytesSize := s.bytesSize + p.data.length }
  match p.head.typ with
  | 0 => s.handleData p
  | 1 => s.handleFin p.head
  | 2 => do
    match ← s.updateState p with
    | none => pure s
    | some s => pure s
  | 3 => do
    let s ← s.clearSend
    pure s.close
  | _ => .ok s

/-- Core/Utp/UtpStream.cpp:176-206 `readFinish`; `used` is what the receive callback returns, nothing if there is no
callback. -/
def Stream.readFinish (s : Stream) (used : Option Nat) : Res Stream := do
  let s ← if s.received then s.sendState else pure s
  let s := match s.appended, used with
    | true, some n => { s with taken := s.taken ++ s.receiveBuffer.take n, receiveBuffer := s.receiveBuffer.drop n }
    | _, _ => s
  pure { s with received := false, appended := false }

/-- Core/Utp/UtpStream.cpp:208-248 `refresh`, called with the time of the clock. -/
def Stream.refresh (s : Stream) : Res Stream :=
  if s.nextTimeout < s.clock ∧ s.step ≠ .closed then do
    let s ←
      if s.lastReceive + 30000000 < s.clock ∨ s.step.num ≥ 4 then pure s.close
      else if s.unacked > 0 then
        match s.sentData with
        | [] => pure s
        | p :: ps => Stream.resend { s with sentData := (p :: ps).map fun q => { q with needResend := true } } p.seq
      else if s.step = .synSend then
        if s.timeoutCount > 0 then pure s.close else pure s.sendSyn
      else if s.step = .synRecv then
        if s.timeoutCount > 0 then pure s.close else s.sendState
      else pure s
    let s := { s with timeoutCount := (s.timeoutCount + 1) % 4294967296 }
    let t ← s.packetTimeout
    pure { s with nextTimeout := s.clock + t * 1000 }
  else .ok s

/-! ### Histories -/

/-- What happens to a stream: time passes, a packet arrives, a batch of packets ends, the application writes,
the timer of the manager fires, the stream is closed, the lambda of `close` runs. -/
inductive Event where
  | tick (t : Nat)
  | packet (p : Packet)
  | finish (used : Option Nat)
  | write (data : List UInt8) (grow : Bool)
  | refresh
  | close
  | runClose
deriving DecidableEq, Repr

def Stream.next (s : Stream) : Event → Res Stream
  | .tick t => .ok { s with clock := s.clock + t }
  | .packet p => s.readPacket p
  | .finish used => s.readFinish used
  | .write data grow => s.write data grow
  | .refresh => s.refresh
  | .close => .ok s.close
  | .runClose => .ok s.runClose

def Stream.run : List Event → Stream → Res Stream
  | [], s => .ok s
  | e :: es, s => do
    let s ← s.next e
    Stream.run es s

end Verif.Utp
