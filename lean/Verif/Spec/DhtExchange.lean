import Verif.Spec.DhtResponse
import Verif.Spec.DhtTable
namespace Verif.Spec
open Dht Net Bencode

/-- A `get_peers` query (BEP 5) for nodes of both families, as a value. -/
def getPeersValue (me hash name transaction : List UInt8) : BVal :=
  .dict [(ascii "a", .dict [(ascii "id", .str me), (ascii "info_hash", .str hash), (ascii "want", .list [.str (ascii "n4"), .str (ascii "n6")])]),
    (ascii "q", .str (ascii "get_peers")), (ascii "v", .str name), (ascii "t", .str transaction), (ascii "y", .str (ascii "q"))]

/-- A `find_node` query. -/
def findNodeValue (me target transaction : List UInt8) : BVal :=
  .dict [(ascii "a", .dict [(ascii "id", .str me), (ascii "target", .str target), (ascii "want", .list [.str (ascii "n4"), .str (ascii "n6")])]),
    (ascii "q", .str (ascii "find_node")), (ascii "t", .str transaction), (ascii "y", .str (ascii "q"))]

/-- A `ping` query. -/
def pingValue (me transaction : List UInt8) : BVal :=
  .dict [(ascii "a", .dict [(ascii "id", .str me)]), (ascii "q", .str (ascii "ping")), (ascii "t", .str transaction), (ascii "y", .str (ascii "q"))]

/-- An `announce_peer` query. -/
def announceValue (me hash token transaction : List UInt8) (port : Nat) (implied : Bool) : BVal :=
  .dict [(ascii "a", .dict ((ascii "id", .str me) :: ((if implied then [(ascii "implied_port", .int 1)] else []) ++
      [(ascii "port", .int port), (ascii "info_hash", .str hash), (ascii "token", .str token)]))),
    (ascii "q", .str (ascii "announce_peer")), (ascii "t", .str transaction), (ascii "y", .str (ascii "q"))]

/-- An address that fits its fields. -/
def GoodAddr (a : Addr) : Prop := a.bytes.length = 16 ∧ a.port < 65536

/-- A responder whose nodes and peers have addresses and ids of the right size. -/
structure GoodResponder (me : Id) (r : Responder) : Prop where
  table : GoodTable me r.table
  nodes : ∀ b ∈ r.table, ∀ n ∈ b.nodes, n.info.id.length = 20 ∧ GoodAddr n.info.addr
  peers : ∀ kv ∈ r.values, ∀ s ∈ kv.2, GoodAddr s.addr

end Verif.Spec
