import Verif.Model.PeerStream
/-! A connection to a peer: what arrives and what the layer above gets of it; and peers of which it is known how they can be reached. -/

namespace Verif.Spec.PeerStream
open Verif PeerStream

variable {H : Type}

/-! ### Data -/

/-- A connection, the memory of the stream below, and what happened: `raw` arrived; the handshake used the first `base` bytes of it;
`taken` was used by the layer above, which was shown `shown` (with what it had used before). `said` was written since the handshake and `sent` went
out for it. `inKey`, `outKey`: the key streams, if any. -/
structure World (H : Type) where
  state : State H
  buffer : List UInt8 := []
  raw : List UInt8 := []
  base : Nat := 0
  taken : List UInt8 := []
  shown : List (List UInt8 × List UInt8) := []
  said : List UInt8 := []
  sent : List UInt8 := []
  inKey : Option (Nat → UInt8) := none
  outKey : Option (Nat → UInt8) := none

/-- Data arrives and the layer above uses some of what it is shown, or it writes. -/
inductive Event where
  | arrives (chunk : List UInt8) (use : List UInt8 → Nat)
  | writes (data : List UInt8)

/-- The bytes that go out. -/
def bytes (acts : List Act) : List UInt8 := acts.flatMap fun a => match a with | .send d => d | _ => []

def World.step (m : Machine H) (c : Config) (w : World H) : Event → Res (World H)
  | .arrives chunk use =>
    let buffer := w.buffer ++ chunk
    (dataReceived m c (count w.state chunk.length) buffer use).map' fun g =>
      let shown := match g.shown with | some bs => [(w.taken, bs)] | none => []
      let taken := match g.shown with | some bs => w.taken ++ bs.take (use bs) | none => w.taken
      match w.state.hs with
      | none => { w with state := g.state, buffer := g.buffer.drop g.used, raw := w.raw ++ chunk, taken := taken, shown := w.shown ++ shown }
      | some h =>
        let r := m.read h buffer
        let ciphers := if g.state.hs.isNone && !m.plain r.2.2 then some (m.cipher r.2.2) else none
        { w with state := g.state, buffer := g.buffer.drop g.used, raw := w.raw ++ chunk, base := w.base + r.1, taken := taken, shown := w.shown ++ shown,
                 inKey := ciphers.map fun k => fun i => k.inKey (k.inPos + i), outKey := ciphers.map fun k => fun i => k.outKey (k.outPos + i) }
  | .writes data =>
    let r := write m c w.state data
    match w.state.hs with
    | none => .ok { w with state := r.1, said := w.said ++ data, sent := w.sent ++ bytes r.2 }
    | some _ => .ok { w with state := r.1 }

def runFrom (m : Machine H) (c : Config) : List Event → World H → Res (World H)
  | [], w => .ok w
  | e :: es, w => (w.step m c e).bind (runFrom m c es)

/-- A key stream, if there is one, applied to data. -/
def apply (key : Option (Nat → UInt8)) (l : List UInt8) : List UInt8 :=
  match key with
  | none => l
  | some k => crypt k 0 l

/-- A handshake that does not use more than it is given. -/
def Modest (m : Machine H) : Prop := ∀ h l, (m.read h l).1 ≤ l.length

/-- The layer above does not use more than it is shown. -/
def Fair : Event → Prop
  | .arrives _ use => ∀ l, use l ≤ l.length
  | .writes _ => True

/-! ### Reaching a peer -/

/-- A peer: how it can be reached, and whether it answers plain and encrypted handshakes. It closes connections it does not want, and says
nothing on them. -/
structure Peer where
  tcp : Bool
  utp : Bool
  plain : Bool
  encrypted : Bool
deriving DecidableEq, Repr

def Peer.reached (p : Peer) : Transport → Bool
  | .tcp => p.tcp
  | .utp => p.utp

/-- How an attempt ends. -/
inductive Outcome where
  | talking (encrypted : Bool)
  | closed
  | unfinished
deriving DecidableEq, Repr

/-- What happens with an action: the number of connections tried and the outcome. The layer above writes `msg` when it is told that the connection
is open. `fuel` bounds the number of steps. -/
def follow (m : Machine H) (c : Config) (p : Peer) (msg : List UInt8) (t : Transport) : Nat → State H → List Act → Nat × Outcome
  | 0, _, _ => (0, .unfinished)
  | _, _, [] => (0, .unfinished)
  | n + 1, s, a :: _ =>
    match a with
    | .connect t =>
      let r := if p.reached t then connectionOpened m c s else connectionClosed m c s t
      let q := follow m c p msg t n r.1 r.2
      (q.1 + 1, q.2)
    | .opened =>
      let r := write m c s msg
      follow m c p msg t n r.1 r.2
    | .send _ =>
      if (s.hs.isNone && p.plain) || (s.hs.isSome && p.encrypted) then (0, .talking s.hs.isSome)
      else
        let r := connectionClosed m c s t
        follow m c p msg t n r.1 r.2
    | .shut => (0, .unfinished)
    | .closed => (0, .closed)

/-- From `open` on. -/
def attempt (m : Machine H) (c : Config) (p : Peer) (hole : Bool) (msg : List UInt8) : Nat × Outcome :=
  let r := opening c ({ holepunch := hole } : State H)
  follow m c p msg .tcp 20 r.1 r.2

end Verif.Spec.PeerStream
