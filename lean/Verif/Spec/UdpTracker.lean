import Verif.Spec.Http
/-! The UDP tracker protocol (BEP 15) and what C42 asks of a client. -/

namespace Verif.Spec
open Verif

/-- The reply to a connect request. -/
def connectReply (tx id : Nat) : List UInt8 := be32 0 ++ be32 tx ++ be64 id

/-- The reply to an announce request, with peers given by four address bytes and a port. -/
def announceReply (tx interval leechers seeders : Nat) (peers : List (List UInt8 × Nat)) : List UInt8 :=
  be32 1 ++ be32 tx ++ be32 interval ++ be32 leechers ++ be32 seeders ++ peers.flatMap compactPeer

/-- A connect request. -/
def connectRequest (tx : Nat) : List UInt8 := be64 0x41727101980 ++ be32 0 ++ be32 tx

/-- An announce request; the event is 1 for a finished torrent and 2 for another. -/
def announceRequest (id tx : Nat) (hash peerId : List UInt8) (downloaded left uploaded : Nat) (finished : Bool) (key numWant port : Nat) : List UInt8 :=
  be64 id ++ be32 1 ++ be32 tx ++ hash ++ peerId ++ be64 downloaded ++ be64 left ++ be64 uploaded
    ++ be32 (if finished then 1 else 2) ++ be32 0 ++ be32 key ++ be32 numWant ++ be16 port

/-- A datagram with the transaction id `tx`. -/
def HasTx (tx : Nat) (d : List UInt8) : Prop := ∃ a rest, a.length = 4 ∧ d = a ++ be32 tx ++ rest

/-- A datagram with an action and a transaction id. -/
def CarriesMsg (action tx : Nat) (d : List UInt8) : Prop := ∃ rest, d = be32 action ++ be32 tx ++ rest

end Verif.Spec
