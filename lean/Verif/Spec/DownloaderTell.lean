import Verif.Spec.Downloader
import Verif.Spec.Progress
/-! What a peer was told of the pieces we have. -/

namespace Verif.Spec.Tell
open Verif Downloader Spec.Download

/-- The message tells peer `p` that we have piece `i`. -/
def tells (p i : Nat) : Act → Bool
  | .have q j => q == p && j == i
  | .bitfield q d => q == p && bit d i
  | _ => false

/-- Is the connection with peer `p` over at this event? -/
def ends (p : Nat) : Ev → Bool
  | .closed q => q == p
  | .stop => true
  | _ => false

/-- On the connection that is there now, peer `p` was told that we have piece `i`. -/
def told (h : History) (p i : Nat) : Bool :=
  h.foldl (fun b x => (b && !ends p x.1) || x.2.any (tells p i)) false

/-- The connection with the peer is there, its handshake done. -/
def Connected (s : St) (p : Nat) : Prop := ∃ peer, s.peers.get p = some peer ∧ peer.action = .established

end Verif.Spec.Tell
