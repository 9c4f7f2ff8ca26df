import Verif.Model.Measures
/-! C104: bytes of each second. -/

namespace Verif.Spec.Measures
open Verif.Measures

/-- Bytes that count as downloaded for the torrent. -/
def gains : Ev → Nat
  | .gained n => n
  | _ => 0

/-- Bytes that count as uploaded for the torrent. -/
def gifts : Ev → Nat
  | .given n => n
  | _ => 0

/-- Bytes that the connection at `a` received. -/
def gotFrom (a : Nat) : Ev → Nat
  | .received b n => if b = a then n else 0
  | _ => 0

/-- Bytes sent to the connection at `a`. -/
def sentTo (a : Nat) : Ev → Nat
  | .sent b n => if b = a then n else 0
  | _ => 0

/-- The sums of what `f` says between measures, after `acc` at the start. -/
def perSecond (f : Ev → Nat) : Nat → List Ev → List Nat
  | _, [] => []
  | acc, e :: es => if e = .measure then acc :: perSecond f 0 es else perSecond f (acc + f e) es

/-- The torrent goes on running. -/
def goesOn (e : Ev) : Prop := e ≠ .start ∧ e ≠ .stop

/-- Within one second, in which the connection at `a` stays. -/
def stays (a : Nat) (e : Ev) : Prop := e ≠ .measure ∧ e ≠ .stop ∧ e ≠ .closed a

end Verif.Spec.Measures
