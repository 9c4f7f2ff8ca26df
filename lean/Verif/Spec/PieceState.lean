import Verif.Model.Layout
/-! Vocabulary for the blocks of one piece. -/

namespace Verif.Spec
open Layout

/-- Block `k` of the piece is among the blocks that arrived. -/
def Arrived (bs : List BlockInfo) (k : Nat) : Prop := ∃ b ∈ bs, b.begin = k * 16384

/-- The blocks that are the first to arrive at their position inside a piece of `n` blocks. -/
def firstArrivals (n : Nat) : List BlockInfo → List BlockInfo → List BlockInfo
  | _, [] => []
  | seen, b :: bs =>
    if b.begin < n * 16384 ∧ b.begin ∉ seen.map (·.begin) then b :: firstArrivals n (b :: seen) bs
    else firstArrivals n (b :: seen) bs

/-- The offset is a multiple of the block size (as in every request), below 2^32. -/
def Aligned (b : BlockInfo) : Prop := b.begin % 16384 = 0 ∧ b.begin < 4294967296

instance (b : BlockInfo) : Decidable (Aligned b) := by unfold Aligned; infer_instance

instance (bs : List BlockInfo) (k : Nat) : Decidable (Arrived bs k) := by unfold Arrived; infer_instance

end Verif.Spec
