import Verif.Common
/-! Connections to peers (Core/PeerStream.h, Core/PeerStream.cpp): over TCP or uTP, plain or encrypted. The two kinds of streams and the
sockets below are the world around; what is asked of them are actions. -/

namespace Verif.PeerStream
open Verif

/-! ### Encryption -/

/-- Data combined with a key stream from its `n`-th byte on (utils/RC4.h; Model/RC4 has the key stream of a key). -/
def crypt (key : Nat → UInt8) : Nat → List UInt8 → List UInt8
  | _, [] => []
  | n, b :: l => (b ^^^ key n) :: crypt key (n + 1) l

/-- Core/ProtocolEncryption.h:12-23 `ProtocolEncryption`: both key streams and how much of them is used. -/
structure Cipher where
  inKey : Nat → UInt8
  inPos : Nat
  outKey : Nat → UInt8
  outPos : Nat

/-- Core/ProtocolEncryption.h:44-93 `ProtocolEncryptionHandshake`, as the stream uses it. Model/Encryption has what it does. `initiate`: the first
message; `read`: how much was used, what is to be answered, and the object afterwards. -/
structure Machine (H : Type) where
  initiate : List UInt8 → H × List UInt8
  read : H → List UInt8 → Nat × List UInt8 × H
  failed : H → Bool
  established : H → Bool
  plain : H → Bool
  cipher : H → Cipher

/-! ### The connection -/

/-- Core/PeerStream.h:66-70 `Type`. -/
inductive Transport where
  | tcp | utp
deriving DecidableEq, Repr

/-- Api/Configuration.h:20 `Encryption`. -/
inductive Policy where
  | refuse | allow | require
deriving DecidableEq, Repr

/-- Api/Configuration.h:38-45, what is used here. -/
structure Config where
  tcpOut : Bool
  utpOut : Bool
  preferUtp : Bool
  policy : Policy
deriving DecidableEq, Repr

/-- Core/PeerStream.h:43-97. `tcp`, `utp`: the streams there are, with the number of bytes they received. The addresses, the flags of
getFlags and the log are left out. -/
structure State (H : Type) where
  tcp : Option Nat := none
  utp : Option Nat := none
  manualClose : Bool := false
  connected : Bool := false
  remote : Bool := false
  tcpTried : Bool := false
  utpTried : Bool := false
  reconnect : Bool := false
  firstWrite : Bool := true
  holepunch : Bool := false
  hs : Option H := none
  pe : Option Cipher := none
  initial : List UInt8 := []
  unhandled : Nat := 0

/-- What is asked of the streams below (`connect`, `send`, `shut`) and what the layer above is told (`opened`, `closed`). -/
inductive Act where
  | connect (t : Transport)
  | send (data : List UInt8)
  | shut
  | opened
  | closed
deriving DecidableEq, Repr

variable {H : Type}

/-- Core/PeerStream.cpp:189-214 `initializeTcpStream`, `openTcpStream`; bandwidth is left out. -/
def openTcp (s : State H) : State H × List Act :=
  ({ s with tcp := if s.tcp.isNone || s.reconnect then some 0 else s.tcp, tcpTried := true }, [.connect .tcp])

/-- Core/PeerStream.cpp:216-236 `initializeUtpStream`, `openUtpStream`. -/
def openUtp (s : State H) : State H × List Act :=
  ({ s with utp := if s.utp.isNone || s.reconnect then some 0 else s.utp, utpTried := true }, [.connect .utp])

/-- Core/PeerStream.cpp:41-58 `open`. -/
def opening (c : Config) (s : State H) : State H × List Act :=
  if c.utpOut && (s.holepunch || c.preferUtp || !c.tcpOut) then openUtp s
  else if c.tcpOut && !s.holepunch then openTcp s
  else (s, [.closed])

/-- Core/PeerStream.cpp:76-89, the part of `write` that hands data to the stream. -/
def push (s : State H) (data : List UInt8) : State H × List Act :=
  let s := if s.remote then s else { s with firstWrite := false }
  let out := match s.pe with
    | none => data
    | some c => crypt c.outKey c.outPos data
  let s := { s with pe := s.pe.map fun c => { c with outPos := c.outPos + data.length } }
  (s, if s.tcp.isSome || s.utp.isSome then [.send out] else [])

/-- Core/PeerStream.cpp:366-373 `startProtocolEncryption`; the handshake is there, so `write` is only its second part. -/
def startEncryption (m : Machine H) (s : State H) (data : List UInt8) : State H × List Act :=
  push { s with hs := some (m.initiate data).1 } (m.initiate data).2

/-- Core/PeerStream.cpp:60-89 `write`. -/
def write (m : Machine H) (c : Config) (s : State H) (data : List UInt8) : State H × List Act :=
  if !s.remote && s.firstWrite && s.hs.isNone then
    let s := { s with initial := data }
    if c.policy = .require then startEncryption m s data else push s data
  else push s data

/-- Core/PeerStream.cpp:238-250 `reconnectStream`. -/
def reconnectStream (s : State H) : State H × List Act :=
  let s := { s with reconnect := true }
  if s.tcp.isSome then openTcp s else if s.utp.isSome then openUtp s else (s, [])

/-- Core/PeerStream.cpp:252-258 `closeStream`. -/
def closeStream (s : State H) : List Act := if s.tcp.isSome || s.utp.isSome then [.shut] else []

/-- Core/PeerStream.cpp:91-98 `close`. -/
def close (s : State H) : State H × List Act := ({ s with manualClose := true }, closeStream s)

/-- Core/PeerStream.cpp:135-143 `getReceivedDataCount`. -/
def received (s : State H) : Nat :=
  match s.tcp, s.utp with
  | some n, _ => n
  | none, some n => n
  | none, none => 0

/-- Core/PeerStream.cpp:399-415 `sendEncryptionMethodRetry`. -/
def sendRetry (m : Machine H) (c : Config) (s : State H) : State H × List Act :=
  let data := s.initial
  let s := { s with initial := [] }
  if s.hs.isSome then write m c { s with hs := none } data else startEncryption m s data

/-- Core/PeerStream.cpp:260-271 `connectionOpened`. -/
def connectionOpened (m : Machine H) (c : Config) (s : State H) : State H × List Act :=
  let s := { s with connected := true }
  if s.reconnect then sendRetry m c s else (s, [.opened])

/-- Core/PeerStream.cpp:375-397 `retryEncryptionMethod`: what is kept to be sent again. -/
def kept (m : Machine H) (c : Config) (s : State H) : List UInt8 :=
  match s.hs with
  | some h => if !m.failed h && c.policy ≠ .require then s.initial else []
  | none => if received s = 0 ∧ c.policy ≠ .refuse then s.initial else []

/-- Core/PeerStream.cpp:375-397, 297-300. -/
def retryOrClose (m : Machine H) (c : Config) (s : State H) : State H × List Act :=
  let data := kept m c s
  if data = [] then ({ s with initial := [] }, [.closed]) else reconnectStream { s with initial := data }

/-- Core/PeerStream.cpp:273-312 `connectionClosed`. -/
def connectionClosed (m : Machine H) (c : Config) (s : State H) (t : Transport) : State H × List Act :=
  if !s.remote && !s.manualClose then
    if !s.connected then
      if t = .utp && !s.tcpTried && c.tcpOut then
        let r := openTcp s
        ({ r.1 with utp := none }, r.2)
      else if t = .tcp && !s.utpTried && c.utpOut then
        let r := openUtp s
        ({ r.1 with tcp := none }, r.2)
      else (s, [.closed])
    else retryOrClose m c s
  else (s, [.closed])

/-! ### Data -/

/-- What happens with the data of a stream: the memory of the stream afterwards (data is decrypted where it is), how much of it is used,
and what the layer above is shown. -/
structure Got (H : Type) where
  state : State H
  buffer : List UInt8
  used : Nat
  shown : Option (List UInt8) := none
  acts : List Act := []

/-- Core/PeerStream.cpp:321-334, the part of `dataReceived` behind the handshake; `use`: how much the layer above uses. What is decrypted begins
behind what was shown before; if that is more than there is, memory that is not the buffer's is changed. -/
def deliver (s : State H) (buffer : List UInt8) (use : List UInt8 → Nat) : Res (Got H) :=
  match s.pe with
  | none => .ok { state := { s with initial := [], unhandled := buffer.length - use buffer }, buffer := buffer, used := use buffer, shown := some buffer }
  | some c =>
    if buffer.length < s.unhandled then .ub
    else
      let b := buffer.take s.unhandled ++ crypt c.inKey c.inPos (buffer.drop s.unhandled)
      .ok { state := { s with initial := [], unhandled := b.length - use b, pe := some { c with inPos := c.inPos + (buffer.length - s.unhandled) } },
            buffer := b, used := use b, shown := some b }

/-- Core/PeerStream.cpp:336-364 `dataReceivedPeHandshake`; the handshake was `h`. -/
def shake (m : Machine H) (c : Config) (s : State H) (h : H) (buffer : List UInt8) (use : List UInt8 → Nat) : Res (Got H) :=
  let r := m.read h buffer
  let s := { s with hs := some r.2.2 }
  if m.failed r.2.2 then .ok { state := s, buffer := buffer, used := r.1, acts := closeStream s }
  else
    let w := if r.2.1 = [] then (s, []) else write m c s r.2.1
    if m.established r.2.2 then
      let s := { w.1 with pe := if m.plain r.2.2 then w.1.pe else some (m.cipher r.2.2), hs := none }
      if r.1 < buffer.length then
        (deliver s (buffer.drop r.1) use).map' fun g =>
          { g with buffer := buffer.take r.1 ++ g.buffer, used := r.1 + g.used, acts := w.2 }
      else .ok { state := s, buffer := buffer, used := r.1, acts := w.2 }
    else .ok { state := w.1, buffer := buffer, used := r.1, acts := w.2 }

/-- Core/PeerStream.cpp:314-334 `dataReceived`. The layer above may write and close while it is shown data; here that happens before or
after. -/
def dataReceived (m : Machine H) (c : Config) (s : State H) (buffer : List UInt8) (use : List UInt8 → Nat) : Res (Got H) :=
  match s.hs with
  | some h => shake m c s h buffer use
  | none => deliver s buffer use

/-- The count of a stream when data arrives (Core/PeerStream.cpp:135-143). -/
def count (s : State H) (n : Nat) : State H :=
  { s with tcp := s.tcp.map (· + n), utp := s.utp.map (· + n) }

end Verif.PeerStream
