import Verif.Model.PeerStream
/-! Connections that peers make (Core/IncomingPeersListener.cpp:175-264), until they are handed to a torrent. -/

namespace Verif.Incoming
open Verif

/-- Core/ProtocolEncryption.h:44-93 `ProtocolEncryptionHandshake`, as the listener uses it; Model/Encryption has what it does. `read`: how much was
used, what is to be answered, and the object afterwards. `hash`: `getTorrentHash`, `message`: `getInitialBtMessage`. -/
structure Machine (H : Type) where
  fresh : H
  read : H → List UInt8 → Nat × List UInt8 × H
  failed : H → Bool
  established : H → Bool
  hash : H → List UInt8
  message : H → List UInt8

/-- Core/PeerMessage.cpp:88-91 `startsAsHandshake`. -/
def startsAsHandshake (data : List UInt8) : Bool := data.take 20 == 19 :: ascii "BitTorrent protocol"

/-- The torrent that a handshake names (Core/PeerMessage.cpp:14-24, Core/IncomingPeersListener.cpp:183-188). Of one that has not arrived whole
the field was never set; `junk` is what is there. -/
def named (data junk : List UInt8) : List UInt8 := if 68 ≤ data.length then (data.drop 28).take 20 else junk

/-- A connection. `waiting`: in `pendingPeers`, with its handshake if it started one and what arrived and was not used. `handed`: given to the torrent
with this hash, with data the torrent reads at once; `left` is what arrived and was not used; `encrypted`: it has ciphers. `left`: no longer
in `pendingPeers`, but not handed to any torrent; what arrives is kept. -/
inductive Conn (H : Type) where
  | waiting (h : Option H) (buffer : List UInt8)
  | handed (hash data left : List UInt8) (encrypted : Bool)
  | closed
  | left (buffer : List UInt8)
deriving DecidableEq, Repr

variable {H : Type}

/-- Core/IncomingPeersListener.cpp:183-193, 235-253, for a plain handshake; `runs`: whether there is a torrent with this hash and it is active
(Core/Core.cpp:298-302, Core/Peers.cpp:217-220); `take`: how much the torrent's end of the connection uses at once (Core/PeerCommunication.cpp:163-173). A handshake
that was started before is kept and gives the ciphers it has. -/
def readPlain (runs : List UInt8 → Bool) (junk : List UInt8) (take : List UInt8 → Nat) (h : Option H) (data : List UInt8) : Conn H :=
  if runs (named data junk) then
    if take data = 0 then .closed else .handed (named data junk) data (data.drop (take data)) h.isSome
  else .closed

/-- Core/IncomingPeersListener.cpp:195-219, 235-268. What the torrent's end of the connection does not use of the message in the handshake is
lost; if there is no such torrent, nothing is closed. -/
def readEncrypted (m : Machine H) (runs : List UInt8 → Bool) (h : Option H) (data : List UInt8) : Conn H × List UInt8 :=
  let r := m.read (h.getD m.fresh) data
  let conn := if m.established r.2.2 then
      if runs (m.hash r.2.2) then .handed (m.hash r.2.2) (m.message r.2.2) (data.drop r.1) true else .left (data.drop r.1)
    else if m.failed r.2.2 then .closed
    else .waiting (some r.2.2) (data.drop r.1)
  (conn, r.2.1)

/-- Data arrives (Core/IncomingPeersListener.cpp:175-222, with what was not used before in front of it, Core/PeerStream.cpp:327-333): the connection and
what is answered. The setting for encryption is not looked at. Connections that were handed on are not the listener's; on one that is neither handed on nor
closed, the data is that which was decrypted. -/
def arrives (_policy : PeerStream.Policy) (m : Machine H) (runs : List UInt8 → Bool) (junk : List UInt8) (take : List UInt8 → Nat) (conn : Conn H) (chunk : List UInt8) : Conn H × List UInt8 :=
  match conn with
  | .waiting h buffer =>
    let data := buffer ++ chunk
    if data.length < 20 then (.waiting h data, [])
    else if startsAsHandshake data then (readPlain runs junk take h data, [])
    else readEncrypted m runs h data
  | .left buffer =>
    let data := buffer ++ chunk
    if data.length < 20 then (.left data, []) else if startsAsHandshake data then (.closed, []) else (.left data, [])
  | .handed hash data left e => (.handed hash data left e, [])
  | .closed => (.closed, [])

/-- Data arrives in pieces. -/
def arriveAll (policy : PeerStream.Policy) (m : Machine H) (runs : List UInt8 → Bool) (junk : List UInt8) (take : List UInt8 → Nat) (conn : Conn H) : List (List UInt8) → Conn H × List UInt8
  | [] => (conn, [])
  | c :: cs =>
    let r := arrives policy m runs junk take conn c
    let q := arriveAll policy m runs junk take r.1 cs
    (q.1, r.2 ++ q.2)

end Verif.Incoming
