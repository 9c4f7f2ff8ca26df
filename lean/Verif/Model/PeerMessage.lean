import Verif.Common
import Verif.Model.Layout
/-! Peer wire messages: builders (Core/PeerCommunication.cpp), parser (Core/PeerMessage.cpp), the
receive loop and the flags of a connection. -/

namespace Verif.Peer
open Verif Layout

/-- Core/PeerMessage.h:10-26 `PeerMessage::Id`. -/
def idInterested : Nat := 2
def idNotInterested : Nat := 3
def idHave : Nat := 4
def idBitfield : Nat := 5
def idRequest : Nat := 6
def idPiece : Nat := 7
def idCancel : Nat := 8
def idPort : Nat := 9
def idExtended : Nat := 20
def idHandshake : Nat := 21
def idKeepAlive : Nat := 22
def idInvalid : Nat := 23

/-- Core/PeerMessage.h:32-38. -/
structure HandshakeInfo where
  reserved : List UInt8
  info : List UInt8
  peerId : List UInt8
deriving DecidableEq, Repr

/-- Core/PeerMessage.h:8-56. `none` is an uninitialised member. -/
structure Msg where
  id : Nat := idInvalid
  havePiece : Option Nat := none
  bitfield : List UInt8 := []
  handshake : Option HandshakeInfo := none
  request : Option BlockInfo := none
  piece : Option BlockInfo := none
  pieceData : List UInt8 := []
  port : Option Nat := none
  extendedId : Option Nat := none
  extendedData : List UInt8 := []
  messageSize : Nat := 0
deriving DecidableEq, Repr

/-- The bytes `pos .. pos + n` of a buffer; outside is undefined behaviour. -/
def view (b : List UInt8) (pos n : Nat) : Res (List UInt8) :=
  if pos + n ≤ b.length then .ok ((b.drop pos).take n) else .ub

/-- utils/PacketHelper.h:18-37 `pop16`, `pop32` at a position. -/
def popN (b : List UInt8) (pos n : Nat) : Res Nat := do
  let v ← view b pos n
  pure (beVal v)

/-- "BitTorrent protocol". -/
def protocolName : List UInt8 := ascii "BitTorrent protocol"

/-- Core/PeerMessage.cpp:88-91 `startsAsHandshake`. -/
def startsAsHandshake (b : List UInt8) : Bool := b.length ≥ 20 && b.take 20 == 19 :: protocolName

/-- Core/PeerMessage.cpp:41-78: the part after the id byte, for a message of length `size`. -/
def parseBody (b : List UInt8) (m : Msg) (size : Nat) : Res Msg :=
  if m.id = idHave ∧ size = 5 then do
    let i ← popN b 5 4
    pure { m with havePiece := some i }
  else if m.id = idBitfield then do
    let v ← view b 5 (size - 1)
    pure { m with bitfield := v }
  else if m.id = idRequest ∧ size = 13 then do
    let i ← popN b 5 4
    let g ← popN b 9 4
    let l ← popN b 13 4
    pure { m with request := some ⟨i, g, l⟩ }
  else if m.id = idPiece ∧ size > 9 then do
    let i ← popN b 5 4
    let g ← popN b 9 4
    let v ← view b 13 (size - 9)
    pure { m with piece := some ⟨i, g, u32 v.length⟩, pieceData := v }
  else if m.id = idCancel ∧ size = 13 then do
    let i ← popN b 5 4
    let g ← popN b 9 4
    let l ← popN b 13 4
    pure { m with request := some ⟨i, g, l⟩ }
  else if m.id = idPort ∧ size = 3 then do
    let p ← popN b 5 2
    pure { m with port := some p }
  else if m.id = idExtended ∧ size > 2 then do
    let i ← popN b 5 1
    let v ← view b 6 (size - 2)
    pure { m with extendedId := some i, extendedData := v }
  else pure m

/-- Core/PeerMessage.cpp:6-86, the constructor. `messageSize` is 16 bits wide. -/
def parse (b : List UInt8) : Res Msg :=
  if b.length < 4 then pure { messageSize := 1 }
  else if b.length ≥ 68 ∧ startsAsHandshake b = true then do
    let r ← view b 20 8
    let i ← view b 28 20
    let p ← view b 48 20
    pure { id := idHandshake, messageSize := 68, handshake := some ⟨r, i, p⟩ }
  else do
    let size ← popN b 0 4
    let ms := (size + 4) % 65536
    if b.length - 4 < size then pure { messageSize := ms }
    else if size = 0 then pure { id := idKeepAlive, messageSize := ms }
    else do
      let id ← popN b 4 1
      let m ← parseBody b { id := id, messageSize := ms } size
      if m.id ≥ idInvalid then pure { m with id := idInvalid, messageSize := 0 } else pure m

/-! ### Builders -/

/-- Core/PeerCommunication.cpp:15-33 `createHandshake`; `dht` is `config.dht.enabled`. -/
def createHandshake (dht : Bool) (torrentHash clientHash : List UInt8) : List UInt8 :=
  [19] ++ protocolName ++ [0, 0, 0, 0, 0, 0x10, 0, if dht then 0x80 else 0] ++ torrentHash ++ clientHash
/-- Core/PeerCommunication.cpp:35-42 `createStateMessage`. -/
def createStateMessage (id : Nat) : List UInt8 := be32 1 ++ [UInt8.ofNat id]
/-- Core/PeerCommunication.cpp:44-54 `createBlockRequest`. -/
def createBlockRequest (b : BlockInfo) : List UInt8 :=
  be32 13 ++ [UInt8.ofNat idRequest] ++ be32 b.index ++ be32 b.begin ++ be32 b.length
/-- Core/PeerCommunication.cpp:56-64 `createHave`. -/
def createHave (idx : Nat) : List UInt8 := be32 5 ++ [UInt8.ofNat idHave] ++ be32 idx
/-- Core/PeerCommunication.cpp:66-74 `createPort`. -/
def createPort (port : Nat) : List UInt8 := be32 3 ++ [UInt8.ofNat idPort] ++ be16 port
/-- Core/PeerCommunication.cpp:76-84 `createBitfield`. -/
def createBitfield (bits : List UInt8) : List UInt8 := be32 (u32 (1 + u32 bits.length)) ++ [UInt8.ofNat idBitfield] ++ bits
/-- Core/PeerCommunication.cpp:86-97 `createPiece`. -/
def createPiece (b : BlockInfo) (data : List UInt8) : List UInt8 :=
  be32 (u32 (1 + 8 + u32 data.length)) ++ [UInt8.ofNat idPiece] ++ be32 b.index ++ be32 b.begin ++ data
/-- Core/PeerCommunication.cpp:305-312 `sendKeepAlive`. -/
def keepAliveMessage : List UInt8 := [0, 0, 0, 0]

/-! ### Receiving -/

/-- Core/PeerCommunication.cpp:207-226: the loop of `dataReceived` from `consumed` on; returns the
messages handed to `handleMessage` and the consumed size. -/
def receiveLoop (buf : List UInt8) : Nat → Nat → Res (List Msg × Nat)
  | 0, _ => .diverge
  | n + 1, consumed => do
    let m ← parse (buf.drop consumed)
    if m.id ≠ idInvalid then do
      let r ← receiveLoop buf n (consumed + m.messageSize)
      pure (m :: r.1, r.2)
    else if m.messageSize = 0 then pure ([], buf.length)
    else pure ([], consumed)

/-- Core/PeerCommunication.cpp:203-229 `dataReceived`. -/
def dataReceived (fuel : Nat) (buf : List UInt8) : Res (List Msg × Nat) := receiveLoop buf fuel 0

/-- utils/TcpAsyncStream.cpp:377-420, 515-549: received bytes are appended to the ones not consumed
yet, the callback gets all of them, and what it consumed is dropped. `pending` are the bytes left over. -/
def streamChunk (fuel : Nat) (pending chunk : List UInt8) : Res (List Msg × List UInt8) := do
  let buf := pending ++ chunk
  let r ← dataReceived fuel buf
  pure (r.1, buf.drop r.2)

/-- A stream arriving in chunks: the messages handled, and the bytes left over at the end. -/
def streamAll (fuel : Nat) (pending : List UInt8) : List (List UInt8) → Res (List Msg × List UInt8)
  | [] => .ok ([], pending)
  | c :: cs => do
    let r ← streamChunk fuel pending c
    let rs ← streamAll fuel r.2 cs
    pure (r.1 ++ rs.1, rs.2)

/-! ### Flags -/

/-- Api/Interface.h:149-168, the flags; `established` is `action == Established`. -/
structure Flags where
  amChoking : Bool := true
  amInterested : Bool := false
  peerChoking : Bool := true
  peerInterested : Bool := false
  established : Bool := false
deriving DecidableEq, Repr

/-- Core/PeerCommunication.cpp:363-439 `handleMessage`, the flags: message ids 0, 1 are choke and
unchoke. A handshake establishes the connection (the states before it are merged). -/
def handleMessage (f : Flags) (id : Nat) : Flags :=
  if id = 1 then { f with peerChoking := false }
  else if id = 0 then { f with peerChoking := true }
  else if id = idNotInterested then { f with peerInterested := true }
  else if id = idInterested then { f with peerInterested := false }
  else if id = idHandshake then { f with established := true }
  else f

/-- Core/PeerCommunication.cpp:262-274 `setInterested`: the new flags and the bytes sent. -/
def setInterested (f : Flags) (enabled : Bool) : Flags × List UInt8 :=
  if !f.established then (f, [])
  else if f.amInterested == enabled then (f, [])
  else ({ f with amInterested := enabled }, createStateMessage (if enabled then idInterested else idNotInterested))

/-- Core/PeerCommunication.cpp:276-288 `setChoke`. -/
def setChoke (f : Flags) (enabled : Bool) : Flags × List UInt8 :=
  if !f.established then (f, [])
  else if f.amChoking == enabled then (f, [])
  else ({ f with amChoking := enabled }, createStateMessage (if enabled then 0 else 1))

/-- What happens to the flags of a connection. -/
inductive FlagOp where
  | message (id : Nat)
  | interested (b : Bool)
  | choke (b : Bool)
deriving DecidableEq, Repr

/-- A history; returns also the state messages sent. -/
def runFlags (f : Flags) : List FlagOp → Flags × List (List UInt8)
  | [] => (f, [])
  | .message id :: ops => runFlags (handleMessage f id) ops
  | .interested b :: ops =>
    let r := setInterested f b
    let rs := runFlags r.1 ops
    (rs.1, r.2 :: rs.2)
  | .choke b :: ops =>
    let r := setChoke f b
    let rs := runFlags r.1 ops
    (rs.1, r.2 :: rs.2)

end Verif.Peer
