import Verif.Model.DhtTable
import Verif.Spec.Addr
namespace Verif.Spec
open Dht

/-- The ids of a bucket, live and spare. -/
def bucketIds (b : Bucket) : List Id := (b.nodes ++ b.cache).map (·.info.id)

/-- A bucket for nodes at logarithmic distance `k` from `me`: at most eight live and eight spare nodes,
no id twice, all at that distance. -/
def GoodBucket (me : Id) (k : Nat) (b : Bucket) : Prop :=
  b.nodes.length ≤ 8 ∧ b.cache.length ≤ 8 ∧ (bucketIds b).Nodup ∧ ∀ id ∈ bucketIds b, bucketId me id = k

/-- The routing table invariant. -/
def GoodTable (me : Id) (t : Table) : Prop := t.length = 160 ∧ ∀ (k : Nat) (b : Bucket), t[k]? = some b → GoodBucket me k b

/-- What the file format can hold of a node. -/
def StorableNode (n : TNode) : Prop := n.info.id.length = 20 ∧ n.info.addr.bytes.length = 16 ∧ n.info.addr.port < 65536

end Verif.Spec
