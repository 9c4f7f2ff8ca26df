import Verif.Common
/-! Core/Peers.cpp:545-605 and Core/Dht/Communication.cpp:106-189: when a torrent looks for peers in DHT, and who is told of what is found.

Simplifications: torrents are numbered by their hash, each is the listener of its own searches; a call is one event (the mutex); the query
itself is Model/DhtQuery.lean, here it is running until it says that it has finished.  `updateKnownPeers` gives the number of new
peers (Model/Peers.lean). -/

namespace Verif.DhtSource

/-- Api/Interface.h `TrackerState`, those used here. -/
inductive State where
  | clear
  | connected
  | announcing
deriving DecidableEq, Repr

/-- Core/Peers.h, `DhtSource::info`. -/
structure Source where
  state : State := .clear
  nextAnnounce : Nat := 0
  lastAnnounce : Nat := 0
  peers : Nat := 0
deriving DecidableEq, Repr

/-- Sources by torrent; `entries` is `peersQueries`, each with the number of its query; `running` are the queries that have not finished, whether they
have an entry or not; `fresh` is the next number. -/
structure Sys where
  src : Nat → Source := fun _ => {}
  entries : List (Nat × Nat) := []
  running : List (Nat × Nat) := []
  fresh : Nat := 0

/-- One source is changed. -/
def set (f : Nat → Source) (h : Nat) (s : Source) : Nat → Source := fun k => if k = h then s else f k

/-- Core/Dht/Communication.cpp:173-189 `findingPeersFinished` with Core/Peers.cpp:599-605 `dhtFindingPeersFinished`. -/
def findingFinished (interval : Nat) (s : Sys) (h now : Nat) : Sys :=
  if s.entries.any (fun e => e.1 = h) then
    { s with
      src := set s.src h { s.src h with lastAnnounce := now, nextAnnounce := now + interval, state := .connected }
      entries := s.entries.eraseP fun e => e.1 = h }
  else s

/-- Core/Dht/Communication.cpp:106-127 `findPeers` with Core/Dht/Query.cpp:91-117 `start`: without nodes it finishes at once. -/
def findPeers (interval : Nat) (nodes : Bool) (s : Sys) (h now : Nat) : Sys :=
  if s.entries.any (fun e => e.1 = h) then s
  else
    let s' := { s with entries := s.entries ++ [(h, s.fresh)], fresh := s.fresh + 1 }
    if nodes then { s' with running := s'.running ++ [(h, s.fresh)] } else findingFinished interval s' h now

/-- Core/Peers.cpp:583-591 `DhtSource::findPeers`. -/
def find (interval : Nat) (enabled nodes : Bool) (s : Sys) (h now : Nat) : Sys :=
  if enabled ∧ (s.src h).state ≠ .announcing then
    findPeers interval nodes { s with src := set s.src h { s.src h with state := .announcing, nextAnnounce := 0 } } h now
  else s

/-- Core/Peers.cpp:551-559 `start`. -/
def start (s : Sys) (h : Nat) : Sys :=
  if (s.src h).state ≠ .clear then s else { s with src := set s.src h { s.src h with state := .connected } }

/-- Core/Peers.cpp:561-568 `stop` with Core/Dht/Communication.cpp:129-139 `stopFindingPeers`: the entry goes, the query goes on. -/
def stop (s : Sys) (h : Nat) : Sys :=
  { s with
    src := set s.src h { s.src h with nextAnnounce := 0, state := .clear }
    entries := s.entries.eraseP fun e => e.1 = h }

/-- Core/Peers.cpp:570-581 `update`; `done` is `selectionFinished()`. -/
def update (interval : Nat) (enabled nodes done : Bool) (s : Sys) (h now : Nat) : Sys :=
  if (s.src h).nextAnnounce ≤ now ∧ (s.src h).state = .connected then
    if done then { s with src := set s.src h { s.src h with nextAnnounce := now + interval } }
    else find interval enabled nodes s h now
  else s

/-- Core/Peers.cpp:301-310 `refreshSource` for DHT; not while the torrent is stopped. -/
def refresh (interval : Nat) (enabled nodes : Bool) (s : Sys) (h now : Nat) : Sys :=
  if (s.src h).state = .clear then s else find interval enabled nodes s h now

/-- Core/Dht/Communication.cpp:157-171 `onFoundPeers` with Core/Peers.cpp:593-597 `dhtFoundPeers`: `n` addresses, `new` of them not known.  The number is
what the query adds to its count. -/
def found (s : Sys) (h n new : Nat) : Sys × Nat :=
  if s.entries.any (fun e => e.1 = h) then
    let peers := (s.src h).peers + new
    ({ s with src := set s.src h { s.src h with peers := peers } }, peers)
  else (s, n)

/-- Core/Dht/Query.cpp:240-243, 296: `foundCount` of one query after answers with addresses, given as `(n, new)`; at 50 (Core/Dht/Query.h:92) the query
asks no further nodes. -/
def foundCount (s : Sys) (h : Nat) : List (Nat × Nat) → Nat
  | [] => 0
  | a :: l => (found s h a.1 a.2).2 + foundCount (found s h a.1 a.2).1 h l

/-- What may happen. -/
inductive Ev where
  | start (h : Nat)
  | stop (h : Nat)
  | update (h now : Nat) (enabled nodes done : Bool)
  | refresh (h now : Nat) (enabled nodes : Bool)
  | finish (h id now : Nat)
  | found (h id n new : Nat)
deriving DecidableEq, Repr

/-- One event; only a query that is running finds something and finishes. -/
def Sys.step (interval : Nat) (s : Sys) : Ev → Sys
  | .start h => DhtSource.start s h
  | .stop h => DhtSource.stop s h
  | .update h now enabled nodes done => DhtSource.update interval enabled nodes done s h now
  | .refresh h now enabled nodes => DhtSource.refresh interval enabled nodes s h now
  | .finish h id now => if (h, id) ∈ s.running then findingFinished interval { s with running := s.running.erase (h, id) } h now else s
  | .found h id n new => if (h, id) ∈ s.running then (DhtSource.found s h n new).1 else s

/-- Events one after the other. -/
def Sys.run (interval : Nat) (s : Sys) (es : List Ev) : Sys := es.foldl (Sys.step interval) s

end Verif.DhtSource
