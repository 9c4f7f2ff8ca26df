import Verif.Model.Trackers
/-! Tracker addresses and what a running tracker waits for, for C41, C65 and C66. -/

namespace Verif.Spec
open Verif Trackers

def portText : Option (List UInt8) → List UInt8
  | none => []
  | some p => chr ':' :: p

/-- The text of an address; the port is optional. -/
def address (protocol host : List UInt8) (port : Option (List UInt8)) (path : List UInt8) : List UInt8 :=
  protocol ++ ascii "://" ++ host ++ portText port ++ path

/-- Host and port of an address. -/
def place (addr : List UInt8) : List UInt8 × List UInt8 := ((Uri.parse addr).host, (Uri.parse addr).port)

/-- Each host has one port in all addresses that have one, and no https address is without port. -/
def OnePort (addrs : List (List UInt8)) : Prop :=
  (∀ a ∈ addrs, (place a).2 = [] → (Uri.parse a).protocol ≠ ascii "https") ∧
    ∀ a ∈ addrs, ∀ b ∈ addrs, (place b).1 = (place a).1 → (place b).2 ≠ [] → (place a).2 ≠ [] → (place b).2 = (place a).2

/-- What is posted concerns the tracker at the place `p` with the tracker object `c`. -/
def concerns (p : Ptr) (c : Nat) : Task → Bool
  | .startAll => false
  | .announced c' _ => c' == c
  | .failed c' => c' == c
  | .restart p' => p' == p

/-- The number of things under way for the tracker at the place `k` with the tracker object `c`: announces without
answer, answers or failures not yet handled, restarts not yet carried out, and running timers. -/
def underWay (s : State) (k c : Nat) : Nat :=
  s.announcing.count c + s.tasks.countP (concerns ⟨s.mem, k⟩ c) + s.armed.countP (fun a => a.1.ptr == ⟨s.mem, k⟩)

/-- Something that will start trackers is posted. -/
def Starting (s : State) : Prop := Task.startAll ∈ s.tasks ∨ ∃ p, Task.restart p ∈ s.tasks

/-- Trackers are added and started only when nothing runs, stopped only when nothing that starts trackers is posted, and
never asked by the user. Everything else may happen at any time. -/
def OrderlyEv (s : State) : Ev → Prop
  | .add _ => s.callback = false
  | .start => s.callback = false
  | .stop => ¬ Starting s
  | .refresh _ => False
  | _ => True

/-- An orderly history. -/
def OrderlyRun (ssl : Bool) : State → List Ev → Prop
  | _, [] => True
  | s, e :: es => OrderlyEv s e ∧ ∀ s', step ssl s e = some (.ok s') → OrderlyRun ssl s' es

end Verif.Spec
