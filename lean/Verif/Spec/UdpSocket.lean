import Verif.Model.UdpSocket
/-! What the properties C85 and C86 say about datagrams. -/

namespace Verif.Spec.UdpSocket
open Verif.UdpSocket

variable {E : Type}

/-- The datagrams that arrived, with their senders, in order; empty ones say nothing. -/
def arrived : List (Recv E) → List (E × List UInt8)
  | [] => []
  | .data e (b :: bs) :: vs => (e, b :: bs) :: arrived vs
  | _ :: vs => arrived vs

/-- The datagrams that were handed on, each with the address it was handed on with. -/
def handed (calls : List (Option E × List (List UInt8))) : List (Option E × List UInt8) := calls.flatMap fun c => c.2.map (c.1, ·)

/-- No datagram is longer than 2048 bytes. -/
def Short (vs : List (Recv E)) : Prop := ∀ e bs, Recv.data e bs ∈ vs → bs.length ≤ 2048

/-- All datagrams have one sender. -/
def From (e : E) (vs : List (Recv E)) : Prop := ∀ e' bs, Recv.data e' bs ∈ vs → e' = e

/-- The messages written, the addresses set. -/
def written : List (Event E) → List (List UInt8)
  | [] => []
  | .write d _ :: es => d :: written es
  | .writeView d _ :: es => d :: written es
  | _ :: es => written es

def addresses : List (Event E) → List E
  | [] => []
  | .setAddress e :: es => e :: addresses es
  | .resolved (some e) _ :: es => e :: addresses es
  | _ :: es => addresses es

end Verif.Spec.UdpSocket
