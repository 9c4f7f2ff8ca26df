import Verif.Model.Bandwidth
/-! Bytes granted on a channel and the time that passes, for C39. -/

namespace Verif.Spec
open Verif Bandwidth

/-- The bytes granted to users on the channel `c`. -/
def granted (c : Nat) : List Grant → Int
  | [] => 0
  | g :: gs => (if c ∈ g.asked then g.amount else 0) + granted c gs

/-- Milliseconds that pass, by the ticks. -/
def elapsed : List Ev → Int
  | [] => 0
  | .tick dt _ :: es => dt + elapsed es
  | _ :: es => elapsed es

def ticks : List Ev → Int
  | [] => 0
  | .tick _ _ :: es => 1 + ticks es
  | _ :: es => ticks es

/-- Amounts and limits are positive `int`s, or 0 for a limit; a request has at most two channels. -/
def SaneEv : Ev → Prop
  | .setLimit _ l => l < 2147483648
  | .request _ a p ks => 0 < a ∧ a < 2147483648 ∧ 0 < p ∧ p < 2147483648 ∧ ks.length ≤ 2
  | .tick _ _ => True
  | .close => True

def Sane (es : List Ev) : Prop := ∀ e ∈ es, SaneEv e

/-- The limit of the channel `c` stays `l`. -/
def Keeps (c l : Nat) (es : List Ev) : Prop := ∀ k m, .setLimit k m ∈ es → k = c → m = l

/-- The bytes set aside for a request on the channel `c`: those assigned to it, on every place where it waits for the
channel, or all of them, if it needs not wait for this one. -/
def setAside (c : Nat) (r : Request) : Int :=
  if c ∈ r.channels then r.channels.count c * r.assigned else if c ∈ r.asked then r.size else 0

/-- What the channel `c` may be used for at once: its quota and what is set aside for waiting requests. -/
def burst (c : Nat) (s : State) : Int := (s.channels c).quota + (s.queue.map (setAside c)).sum

/-- The requests of a history: user, channels, bytes. -/
def requests : List Ev → List (Nat × List Nat × Int)
  | [] => []
  | .request u a _ ks :: es => (u, ks, a) :: requests es
  | _ :: es => requests es

/-- The user is given at least nothing and at most the bytes asked for. -/
def Answers (g : Grant) (q : Nat × List Nat × Int) : Prop := g.user = q.1 ∧ g.asked = q.2.1 ∧ 0 ≤ g.amount ∧ g.amount ≤ q.2.2

def pending (s : State) : List (Nat × List Nat × Int) := s.queue.map fun r => (r.user, r.asked, r.size)

end Verif.Spec
