import Verif.Model.Metadata
import Verif.Spec.Metadata
/-! Core/MetadataDownload.cpp:26-222: whom the download of metadata asks, and when.

Not modelled: the log of events, and closing connections (a connection that is to be closed is an output). -/

namespace Verif.Metadata
open Verif Layout Bencode Spec

/-- Core/MetadataDownload.h:40-64: the download, `activeComms` (peers by number) and `lastActivityTime`. -/
structure Net where
  d : Dl := {}
  comms : List Nat := []
  last : Nat := 0
deriving DecidableEq, Repr

/-- What goes out: a request for a piece to a peer, or the end of a connection. -/
inductive Out where
  | request (peer piece : Nat)
  | disconnect (peer : Nat)
deriving DecidableEq, Repr

/-- The requests among what goes out. -/
def asks : List Out → List (Nat × Nat)
  | [] => []
  | .request p k :: l => (p, k) :: asks l
  | .disconnect _ :: l => asks l

/-- Core/MetadataDownload.cpp:179-189 `requestPiece`. -/
def requestPiece (s : Net) (p now : Nat) : Net × List Out :=
  if s.d.active && !s.d.finishedFlag then
    let r := getMissing s.d.md
    ({ s with d := { s.d with md := r.2 }, last := now }, [.request p r.1])
  else (s, [])

/-- Core/MetadataDownload.cpp:78-84: a handshake; `ext` tells whether extensions are supported. -/
def shook (s : Net) (p : Nat) (ext : Bool) : Net × List Out := if ext then (s, []) else (s, [.disconnect p])

/-- Core/MetadataDownload.cpp:158-177 `extendedHandshakeFinished`; `utm` is `enabled()`. -/
def extShook (s : Net) (p size : Nat) (utm : Bool) (now : Nat) : Net × List Out :=
  if size ≠ 0 ∧ utm = true then
    requestPiece { s with d := handshake s.d size, comms := s.comms ++ [p] } p now
  else (s, [.disconnect p])

/-- Core/MetadataDownload.cpp:105-156 `extendedMessageReceived` for a message that was loaded (`ok`). -/
def message (s : Net) (ok : Bool) (msg : Msg) (p now : Nat) : Res (Net × List Out) :=
  if !s.d.active then .ok (s, [])
  else if !ok then .ok (s, [])
  else match msg.type with
    | none => .ub
    | some 1 =>
      match msg.piece, msg.totalSize with
      | some piece, some total =>
        if s.d.md.buffer.length ≠ total then .ok (s, [])
        else do
          let r ← addPiece s.d.md msg.metadata piece
          if finished r.2 then
            pure ({ s with d := { s.d with md := r.2, finishedFlag := true, stopPosted := s.d.stopPosted || !s.d.finishedFlag } }, [])
          else pure (requestPiece { s with d := { s.d with md := r.2 } } p now)
      | _, _ => .ub
    | some 2 => .ok (s, [.disconnect p])
    | some _ => .ok (s, [])

/-- Core/MetadataDownload.cpp:86-99 `connectionClosed`. -/
def gone (s : Net) (p : Nat) : Net := { s with comms := s.comms.erase p }

/-- Core/MetadataDownload.cpp:33-36: the loop of the timer. -/
def askAll : List Nat → Nat → Net → Net × List Out
  | [], _, s => (s, [])
  | p :: ps, now, s =>
    let r := requestPiece s p now
    let r' := askAll ps now r.1
    (r'.1, r.2 ++ r'.2)

/-- Core/MetadataDownload.cpp:27-39: the timer, every five seconds. -/
def tick (s : Net) (now : Nat) : Net × List Out :=
  if s.d.active && !s.d.finishedFlag && (s.last + 5) % 18446744073709551616 < now then askAll s.comms now s else (s, [])

/-! ### The download together with peers that have the metadata -/

/-- The program, requests that are on their way or being answered, and how many were answered; `asked` counts requests that were not sent
upon an answer. -/
structure World where
  s : Net := {}
  flight : List (Nat × Nat) := []
  answers : Nat := 0
  asked : Nat := 0
deriving DecidableEq, Repr

/-- What may happen: a peer that has the metadata shakes hands, answers the `i`-th request on its way, leaves; the timer fires; a request or its answer is
lost. -/
inductive Ev where
  | join (p now : Nat)
  | answer (i now : Nat)
  | tick (now : Nat)
  | leave (p : Nat)
  | lose (i : Nat)
deriving DecidableEq, Repr

/-- One event; `m` is the metadata the peers have.  A peer shakes hands once on a connection. -/
def World.step (m : List UInt8) (w : World) : Ev → Res World
  | .join p now =>
    if p ∈ w.s.comms then .ok w
    else
      let r := extShook w.s p m.length true now
      .ok { w with s := r.1, flight := w.flight ++ asks r.2, asked := w.asked + (asks r.2).length }
  | .answer i now =>
    match w.flight[i]? with
    | none => .ok w
    | some (p, k) => do
      let r ← message w.s true { type := some 1, piece := some k, metadata := mdPiece m k, totalSize := some m.length } p now
      pure { w with s := r.1, flight := w.flight.eraseIdx i ++ asks r.2, answers := w.answers + 1 }
  | .tick now =>
    let r := Metadata.tick w.s now
    .ok { w with s := r.1, flight := w.flight ++ asks r.2, asked := w.asked + (asks r.2).length }
  | .leave p => .ok { w with s := gone w.s p, flight := w.flight.filter fun q => q.1 ≠ p }
  | .lose i => .ok { w with flight := w.flight.eraseIdx i }

/-- Events one after the other. -/
def World.run (m : List UInt8) : World → List Ev → Res World
  | w, [] => .ok w
  | w, e :: es => do
    let w' ← w.step m e
    World.run m w' es

end Verif.Metadata
