import Verif.Model.Tcp
/-! The two sides of a connection: what is sent and what arrives. -/

namespace Verif.Spec.Tcp
open Verif Tcp

/-- The stream, and what happened: what the receiver has used, what it was shown (with what it had used before), what was
to be sent, and what the socket has sent. -/
structure World where
  stream : Stream := {}
  taken : List UInt8 := []
  shown : List (List UInt8 × List UInt8) := []
  asked : List (List UInt8) := []
  sent : List (List UInt8) := []

/-- What may happen. `received`: `k` bytes arrive at a time, `a` more are there and at most `j` of them can be read, or none for
an error; what the bandwidth manager answers, and how much the receiver uses of what it is shown. -/
inductive Event where
  | connect
  | write (m : List UInt8)
  | connected (grant : Nat)
  | received (k a j : Nat) (error : Bool) (now : Nat) (grants : Nat × Nat) (use : List UInt8 → Nat)
  | wrote
  | broken
  | assigned (amount grant : Nat)

/-- One event; `src` is what the other side sends. Events that the socket or the bandwidth manager do not cause at the time change
nothing. -/
def World.step (src : List UInt8) (w : World) : Event → Res World
  | .connect => .ok { w with stream := connect w.stream }
  | .write m => do
    let s ← doWrite w.stream m
    pure { w with stream := s, asked := w.asked ++ [m] }
  | .connected grant =>
    if w.stream.phase = .connecting then do
      let s ← setConnected (info w.stream true) true grant
      pure { w with stream := s }
    else .ok w
  | .received k a j error now grants use =>
    let c := w.stream.buffer.counter
    if w.stream.phase = .connected ∧ w.stream.waitData = true ∧ k ≤ w.stream.requested ∧ c + k ≤ src.length then do
      let r ← handleReceive w.stream ((src.drop c).take k) now ((src.drop (c + k)).take a) j error grants use
      match r.shown with
      | some bs => pure { w with stream := r.stream, taken := w.taken ++ bs.take r.used, shown := w.shown ++ [(w.taken, bs)] }
      | none => pure { w with stream := r.stream }
    else .ok w
  | .wrote =>
    match w.stream.writing with
    | some m => do
      let s ← handleWrite w.stream true
      pure { w with stream := s, sent := w.sent ++ [m] }
    | none => .ok w
  | .broken => .ok { w with stream := fail w.stream }
  | .assigned amount grant => if w.stream.waitBw = true then .ok { w with stream := assign w.stream amount grant } else .ok w

/-- From the beginning. -/
def runFrom (src : List UInt8) : List Event → World → Res World
  | [], w => .ok w
  | e :: es, w => (w.step src e).bind (runFrom src es)

def run (src : List UInt8) (es : List Event) (channels : Nat) : Res World := runFrom src es { stream := { channels := channels } }

/-- Not a multiple of 2^29 seconds since 1970: one second every 17 years, the next one in 2038. -/
def Timely (now : Nat) : Prop := now % 536870912 ≠ 0

/-- The receiver does not use more than it is shown, bandwidth is granted in numbers of 31 bits, and the time is a usual one. -/
def Fair : Event → Prop
  | .received _ _ _ _ now grants use => (∀ l, use l ≤ l.length) ∧ Timely now ∧ grants.1 < 2 ^ 31 ∧ grants.2 < 2 ^ 31
  | .connected grant => grant < 2 ^ 31
  | .assigned amount grant => amount < 2 ^ 31 ∧ grant < 2 ^ 31
  | _ => True

end Verif.Spec.Tcp
