import Verif.Model.DhtQuery
import Verif.Spec.Addr
namespace Verif.Spec
open Verif Dht

/-- The place of the highest set bit of the XOR distance to the target. -/
def logDistance (target : Id) (n : NodeInfo) : Nat := Nat.log2 (xorDistance n.id target)

/-- A node a lookup may query: not this one and not the one with the zero id. -/
def Usable (me : Id) (n : NodeInfo) : Prop := n.id ≠ me ∧ n.id ≠ List.replicate 20 0

/-- The state of a lookup started with `nodes`: at most 32 candidates, no id twice among the candidates and
the nodes taken from them to be queried, all of them usable, the queries sent are those of the start and
one for each node taken, and the requests counted are at most 5 or those of the start. -/
structure GoodLookup (me : Id) (nodes : List NodeInfo) (l : Lookup) : Prop where
  bounded : l.received.length ≤ 32
  distinct : ((l.received ++ l.used).map (·.id)).Nodup
  usable : ∀ n ∈ l.received ++ l.used, Usable me n
  sent : l.sent = nodes ++ l.used
  requests : l.requests.length ≤ max 5 nodes.length

end Verif.Spec
