import Verif.Model.Uploader
/-! Requests for blocks, grants and the order of sending, for C20. -/

namespace Verif.Spec
open Verif Storage Layout Uploader

/-- The requests of a history, in order: peer and block. The place in this list is the number of the request. -/
def asked : List Uploader.Ev → List (Nat × BlockInfo)
  | [] => []
  | .request p b _ :: es => (p, b) :: asked es
  | _ :: es => asked es

/-- Bytes granted later, by `assignBandwidth`. -/
def given : List Uploader.Ev → Int
  | [] => 0
  | .grant a :: es => a + given es
  | _ :: es => given es

/-- The event ends requests of the peer `p`: the torrent stops, the peer leaves, or is found not to be connected. -/
def Ends (p : Nat) : Uploader.Ev → Prop
  | .stop => True
  | .cancel q => q = p
  | .refresh est => p ∉ est
  | .send _ est _ => p ∉ est
  | _ => False

/-- Bytes of the blocks sent. -/
def sentBytes (l : List Sent) : Nat := (l.map (·.block.length)).sum

/-- Bytes of the blocks waiting. -/
def waitingBytes (l : List Req) : Nat := (l.map (·.block.length)).sum

end Verif.Spec
