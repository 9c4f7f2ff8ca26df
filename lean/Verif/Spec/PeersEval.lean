import Verif.Model.PeersEval
/-! What is meant by connections that are old enough, idle and useful. -/

namespace Verif.Spec.PeersEval
open Verif.PeersEval

/-- The connection was made at least ten seconds ago. -/
def Old (now : Nat) (p : Peer) : Prop := p.connectionTime ≠ 0 ∧ p.connectionTime + 10 ≤ now

/-- Nothing came for more than twenty seconds. -/
def Idle (now : Nat) (p : Peer) : Prop := p.lastActivity + 20 < now

/-- `q` is a better upload than `p`. -/
def Better (p q : Peer) : Prop := p.uploadSpeed < q.uploadSpeed ∨ p.uploadSpeed = q.uploadSpeed ∧ p.uploaded < q.uploaded

/-- More came from `q`. -/
def More (p q : Peer) : Prop := p.downloaded < q.downloaded

/-- The function sorts: the same connections, none before a lesser one. -/
def Sorts (lt : Peer → Peer → Prop) (f : List Peer → List Peer) : Prop :=
  ∀ l, (f l).Perm l ∧ (f l).Pairwise fun a b => ¬ lt b a

instance (now : Nat) (p : Peer) : Decidable (Old now p) := by unfold Old; infer_instance
instance (now : Nat) (p : Peer) : Decidable (Idle now p) := by unfold Idle; infer_instance
instance (p q : Peer) : Decidable (Better p q) := by unfold Better; infer_instance

end Verif.Spec.PeersEval
