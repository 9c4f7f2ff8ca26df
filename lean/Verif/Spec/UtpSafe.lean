import Verif.Spec.Utp
namespace Verif.Spec
open Utp

/-- What the rest of the program does with a stream: numbers come from 16-bit fields, nothing is written
before the other side answers, and the lambda posted by `close` runs before the timer fires again (the timer
fires every 500 ms). Which packets arrive and when is left open. -/
def Orderly : List Event → Stream → Prop
  | [], _ => True
  | e :: es, s =>
    (∀ p, e = .packet p → p.head.seq < 65536) ∧ (∀ data grow, e = .write data grow → s.step ≠ .synSend) ∧
    (e = .refresh → s.closePosted = false) ∧ ∀ s', s.next e = .ok s' → Orderly es s'

/-- A stream as it is opened: by us, or by a packet from a peer. -/
def Starts (s : Stream) : Prop :=
  ∃ id seq clock, id < 65536 ∧ seq < 65536 ∧
    ((Stream.init id seq clock).connect = .ok s ∨ ∃ h : Header, h.seq < 65536 ∧ (Stream.init id seq clock).connectRemote h = .ok s)

end Verif.Spec
