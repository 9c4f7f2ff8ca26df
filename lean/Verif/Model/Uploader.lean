import Verif.Model.Storage
/-! The queue of blocks to upload, Core/Uploader.cpp. Each function runs under the lock of the uploader and is one step.
Answers of the bandwidth manager (see Model/Bandwidth.lean) and the state of the peers are parts of the events. -/

namespace Verif.Uploader
open Verif Layout Storage

/-- Core/Uploader.h:34-38 `UploadRequest`. `id` is not in the code: how many requests came before this one. -/
structure Req where
  id : Nat
  peer : Nat
  block : BlockInfo
deriving DecidableEq, Repr

/-- A block given to `PeerCommunication::sendPieceBlock`. -/
structure Sent where
  id : Nat
  peer : Nat
  block : BlockInfo
  data : List UInt8
deriving DecidableEq, Repr

/-- Core/Uploader.h:22-43. `posted`: calls of `sendRequests` that wait in the service of the torrent. `count`: requests
so far, not in the code. -/
structure State where
  pending : List Req := []
  buffer : List UInt8 := []
  requesting : Bool := false
  available : Nat := 0
  uploaded : Nat := 0
  posted : Nat := 0
  count : Nat := 0
deriving DecidableEq, Repr

/-- Core/Uploader.cpp:65-80 `requestBytes`. `now`: the manager grants all of it at once; otherwise it returns 0. The
second result are the bytes granted. -/
def requestBytes (s : State) (amount : Nat) (now : Bool) : State × Nat :=
  if amount ≤ s.available ∨ s.requesting then (s, 0)
  else
    let amount := amount - s.available
    if now then ({ s with available := (s.available + amount) % 4294967296 }, amount) else ({ s with requesting := true }, 0)

/-- Core/Uploader.cpp:42-51 `pieceRequest`. -/
def pieceRequest (s : State) (peer : Nat) (b : BlockInfo) (now : Bool) : State × Nat :=
  let (s, got) := requestBytes s b.length now
  let s := { s with pending := s.pending ++ [⟨s.count, peer, b⟩], count := s.count + 1 }
  (if s.requesting then s else { s with posted := s.posted + 1 }, got)

/-- Core/Uploader.cpp:53-63 `assignBandwidth`. The amount is added to an `uint32_t`. -/
def assignBandwidth (s : State) (amount : Int) : State :=
  let s := { s with requesting := false, available := ((s.available + amount) % 4294967296).toNat }
  if s.pending ≠ [] then { s with posted := s.posted + 1 } else s

/-- `DataBuffer::resize`. -/
def resize (buf : List UInt8) (n : Nat) : List UInt8 := buf.take n ++ List.replicate (n - buf.length) 0

/-- What is changed by the loop of `sendRequests`. -/
structure Pass where
  buffer : List UInt8
  available : Nat
  uploaded : Nat
  wanted : Nat := 0
  kept : List Req := []
  sent : List Sent := []
deriving DecidableEq, Repr

/-- Core/Uploader.cpp:95-125: one turn of the loop. The result of the load is not looked at. -/
def turn (i : Info) (fs : Fs) (est : List Nat) (p : Pass) (r : Req) : Res Pass :=
  if r.peer ∈ est then
    if p.available ≥ r.block.length then do
      let l ← loadPieceBlock i fs r.block (resize p.buffer r.block.length)
      pure { p with buffer := l.2, available := p.available - r.block.length, uploaded := p.uploaded + r.block.length,
                    sent := p.sent ++ [⟨r.id, r.peer, r.block, l.2⟩] }
    else pure { p with wanted := (p.wanted + r.block.length) % 4294967296, kept := p.kept ++ [r] }
  else pure p

def turns (i : Info) (fs : Fs) (est : List Nat) : Pass → List Req → Res Pass
  | p, [] => pure p
  | p, r :: rs => do
    let p ← turn i fs est p r
    turns i fs est p rs

/-- Core/Uploader.cpp:87-131 `sendRequests`. `est` are the peers that are connected. -/
def sendRequests (i : Info) (s : State) (fs : Fs) (est : List Nat) (now : Bool) : Res (State × List Sent × Nat) := do
  let p ← turns i fs est { buffer := s.buffer, available := s.available, uploaded := s.uploaded } s.pending
  let s := { s with pending := p.kept, buffer := p.buffer, available := p.available, uploaded := p.uploaded }
  if p.wanted > 0 then
    let (s, got) := requestBytes s p.wanted now
    pure (s, p.sent, got)
  else pure (s, p.sent, 0)

inductive Ev where
  | request (peer : Nat) (block : BlockInfo) (now : Bool)
  | grant (amount : Int)
  | send (fs : Fs) (est : List Nat) (now : Bool)
  | cancel (peer : Nat)
  | refresh (est : List Nat)
  | stop

/-- One step: the blocks sent, and the bytes the manager granted at once. -/
def step (i : Info) (s : State) : Ev → Res (State × List Sent × Nat)
  | .request p b now =>
    let (s, got) := pieceRequest s p b now
    pure (s, [], got)
  | .grant a => pure (assignBandwidth s a, [], 0)
  /- a posted call is run -/
  | .send fs est now => if s.posted = 0 then pure (s, [], 0) else sendRequests i { s with posted := s.posted - 1 } fs est now
  /- Core/Uploader.cpp:29-40 `cancelRequests` -/
  | .cancel p => pure ({ s with pending := s.pending.filter fun r => r.peer ≠ p }, [], 0)
  /- Core/Uploader.cpp:133-144 `refreshRequest` -/
  | .refresh est => pure ({ s with pending := s.pending.filter fun r => r.peer ∈ est }, [], 0)
  /- Core/Uploader.cpp:14-21 `stop` -/
  | .stop => pure ({ s with pending := [], requesting := false, available := 0 }, [], 0)

def run (i : Info) : State → List Ev → Res (State × List Sent × Nat)
  | s, [] => pure (s, [], 0)
  | s, e :: es => do
    let (s, sent, got) ← step i s e
    let (s, sent', got') ← run i s es
    pure (s, sent ++ sent', got + got')

end Verif.Uploader
