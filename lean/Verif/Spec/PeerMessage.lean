import Verif.Model.PeerMessage
/-! The peer wire protocol (BEP 3, BEP 5, BEP 10). -/

namespace Verif.Spec
open Verif

/-- Messages on the wire. -/
inductive Wire where
  | keepAlive
  | choke
  | unchoke
  | interested
  | notInterested
  | have_ (index : Nat)
  | bitfield (bits : List UInt8)
  | request (index begin length : Nat)
  | piece (index begin : Nat) (data : List UInt8)
  | cancel (index begin length : Nat)
  | port (p : Nat)
  | extended (id : UInt8) (data : List UInt8)
  | handshake (reserved info peerId : List UInt8)
deriving DecidableEq, Repr

/-- A message with its four length bytes. -/
def framed (body : List UInt8) : List UInt8 := be32 body.length ++ body

/-- The encoding of a message. -/
def Wire.encode : Wire → List UInt8
  | .keepAlive => framed []
  | .choke => framed [0]
  | .unchoke => framed [1]
  | .interested => framed [2]
  | .notInterested => framed [3]
  | .have_ i => framed (4 :: be32 i)
  | .bitfield bits => framed (5 :: bits)
  | .request i b l => framed (6 :: (be32 i ++ be32 b ++ be32 l))
  | .piece i b data => framed (7 :: (be32 i ++ be32 b ++ data))
  | .cancel i b l => framed (8 :: (be32 i ++ be32 b ++ be32 l))
  | .port p => framed (9 :: be16 p)
  | .extended id data => framed (20 :: id :: data)
  | .handshake r i p => 19 :: (ascii "BitTorrent protocol" ++ r ++ i ++ p)

/-- Field values fit their width, handshake fields have their size, blocks and extension data are not
empty, and the whole message is below 64 KiB. -/
def Wire.Ok (w : Wire) : Prop :=
  w.encode.length < 65536 ∧
  match w with
  | .have_ i => i < 4294967296
  | .request i b l => i < 4294967296 ∧ b < 4294967296 ∧ l < 4294967296
  | .piece i b data => i < 4294967296 ∧ b < 4294967296 ∧ data ≠ []
  | .cancel i b l => i < 4294967296 ∧ b < 4294967296 ∧ l < 4294967296
  | .port p => p < 65536
  | .extended _ data => data ≠ []
  | .handshake r i p => r.length = 8 ∧ i.length = 20 ∧ p.length = 20
  | _ => True

/-- What a user of a decoded message reads: the members belonging to its id. Using a member that was
not set is no message. -/
def toWire (m : Peer.Msg) : Option Wire :=
  match m.id with
  | 0 => some .choke
  | 1 => some .unchoke
  | 2 => some .interested
  | 3 => some .notInterested
  | 4 => m.havePiece.map .have_
  | 5 => some (.bitfield m.bitfield)
  | 6 => m.request.map fun b => .request b.index b.begin b.length
  | 7 => m.piece.bind fun b => if b.length = m.pieceData.length then some (.piece b.index b.begin m.pieceData) else none
  | 8 => m.request.map fun b => .cancel b.index b.begin b.length
  | 9 => m.port.map .port
  | 20 => m.extendedId.map fun i => .extended (UInt8.ofNat i) m.extendedData
  | 21 => m.handshake.map fun h => .handshake h.reserved h.info h.peerId
  | 22 => some .keepAlive
  | _ => none

/-- A piece of the byte stream: a framed message or a handshake. -/
inductive Frame where
  | body (b : List UInt8)
  | handshake (b : List UInt8)
deriving DecidableEq, Repr

def Frame.bytes : Frame → List UInt8
  | .body b => framed b
  | .handshake b => b

/-- Frames below 64 KiB with an id up to 22, and handshakes. -/
def Frame.Ok : Frame → Prop
  | .body b => b.length < 65532 ∧ ∀ i, b.head? = some i → i.toNat < 23
  | .handshake b => b.length = 68 ∧ b.take 20 = 19 :: ascii "BitTorrent protocol"

/-- What sent bytes tell the peer about our interest. -/
def interestSent (b : List UInt8) : Option Bool :=
  if b = Wire.interested.encode then some true else if b = Wire.notInterested.encode then some false else none
/-- What sent bytes tell the peer about our choking. -/
def chokeSent (b : List UInt8) : Option Bool :=
  if b = Wire.choke.encode then some true else if b = Wire.unchoke.encode then some false else none

end Verif.Spec
