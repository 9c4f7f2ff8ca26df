import Verif.Model.Addr
/-! The known peers of a torrent and the connections to them, Core/Peers.cpp. Each function runs under `peersMutex` (or,
like the check of the limit in `handleHolepunchMessage`, is taken to) and is one step; a function that takes the lock
twice is two steps, so that others may come between. What the configuration, the clock and the sockets say is part of
the events. Fewer than 2^32 peers are known and addresses are whole (16 bytes). Left out are what only feeds the display
(sources, counters, countries) and what is passed on to trackers, DHT and listeners. -/

namespace Verif.Peers
open Verif Net

/-- Core/Peers.h:56. -/
inductive Status | disconnected | connecting | connected
deriving DecidableEq, Repr

/-- Core/Peers.h:46-61 `KnownPeer`; the source is left out. -/
structure Known where
  addr : Addr
  flags : UInt8 := 0
  unwanted : Bool := false
  status : Status := .disconnected
  last : Nat := 0
  attempts : Nat := 0
deriving DecidableEq, Repr

/-- Core/Peers.h:72-76 `ActivePeer`. `id` stands for the object `comm`. `addr` is the address given to its stream and
`shown` whether the stream reports it: not when it opened neither a TCP nor an uTP stream
(Core/PeerStream.cpp:45-58, :99-107). -/
structure Conn where
  id : Nat
  idx : Nat
  addr : Addr
  shown : Bool
deriving DecidableEq, Repr

/-- Core/Peers.h:65-88. `running`: there is a `refreshTimer`. `fresh`: the id of the next connection. -/
structure State where
  known : List Known := []
  cur : Nat := 0
  act : List Conn := []
  connecting : Bool := false
  running : Bool := false
  fresh : Nat := 0
deriving DecidableEq, Repr

/-- What the rest of the world sees of it. -/
inductive Out
  /-- A connection to the address is opened, at that time; `auto`: not asked for by the user or another peer. -/
  | dial (a : Addr) (now : Nat) (auto : Bool)
  /-- A peer is disconnected and marked as unwanted. -/
  | ban (a : Addr)
  /-- A connection is gone. -/
  | gone (a : Addr) (now : Nat)
deriving DecidableEq, Repr

/-- Core/Peers.cpp:468-479 `connect(address, idx, type)`, with what goes before it at :139-141 and :208-210.
`opens`: a stream is opened. -/
def dialAt (s : State) (idx : Nat) (a : Addr) (now : Nat) (opens : Bool) : State :=
  { s with known := s.known.modify idx fun p =>
             { p with status := .connecting, last := now, attempts := (p.attempts + 1) % 4294967296 },
           act := s.act ++ [⟨s.fresh, idx, a, opens⟩], fresh := s.fresh + 1 }

/-- Core/Peers.cpp:137: may be dialled now. -/
def ready (now : Nat) (p : Known) : Bool :=
  p.status == .disconnected && !p.unwanted && (p.last == 0 || p.last + 30 < now)

/-- Core/Peers.cpp:146-149. -/
def advance (s : State) : State := { s with cur := if s.cur + 1 = s.known.length then 0 else s.cur + 1 }

/-- Core/Peers.cpp:129-150: the loop of `connectNext`, with the turns left and `count`. -/
def nextLoop (now : Nat) (opens : Bool) : Nat → Nat → State → Res (State × List Out)
  | 0, _, s => .ok (s, [])
  | _ + 1, 0, s => .ok (s, [])
  | n + 1, c + 1, s =>
    match s.known[s.cur]? with
    | none => .ub
    | some p =>
      if ready now p then
        (nextLoop now opens n c (advance (dialAt s s.cur p.addr now opens))).bind fun r =>
          .ok (r.1, .dial p.addr now true :: r.2)
      else nextLoop now opens n (c + 1) (advance s)

/-- Core/Peers.cpp:114-153 `connectNext`; `max` is `maxTorrentConnections`. -/
def connectNext (s : State) (now max : Nat) (opens : Bool) : Res (State × List Out) :=
  if !s.connecting || !s.running || max ≤ s.act.length then .ok (s, [])
  else nextLoop now opens s.known.length (max - s.act.length) s

/-- `std::find` in the known peers. -/
def find (known : List Known) (a : Addr) : Option Nat := known.findIdx? (fun k => k.addr.eq a)

/-- Core/Peers.cpp:509-518 `getActivePeer(addr)`: without a stream there is the empty address
(utils/Network.cpp:4-7). -/
def active (s : State) (a : Addr) : Bool := s.act.any (fun c => (if c.shown then c.addr else .empty).eq a)

/-- Core/Peers.cpp:179-215 `connect(addr, type)`. -/
def connect (s : State) (a : Addr) (now : Nat) (opens : Bool) : Res (State × List Out) :=
  if !a.valid || !s.running || active s a then .ok (s, [])
  else
    let r : State × Nat := match find s.known a with
      | none => ({ s with known := s.known ++ [{ addr := a }] }, s.known.length)
      | some idx => (s, idx)
    match r.1.known[r.2]? with
    | none => .ub
    | some p => if p.unwanted then .ok (r.1, []) else .ok (dialAt r.1 r.2 a now opens, [.dial a now false])

/-- Core/Peers.cpp:719-725: a holepunch message tells to connect. -/
def holepunch (s : State) (a : Addr) (now max : Nat) (opens : Bool) : Res (State × List Out) :=
  if s.act.length < max then connect s a now opens else .ok (s, [])

/-- Core/Peers.cpp:217-242 `add`: a peer has connected to us. -/
def incoming (s : State) (a : Addr) : State :=
  { s with known := s.known ++ [{ addr := a, status := .connected }], act := s.act ++ [⟨s.fresh, s.known.length, a, true⟩],
           fresh := s.fresh + 1 }

/-- `flags[i]`, if there are flags. -/
def flagAt (flags : Option (List UInt8)) (i : Nat) : Res UInt8 :=
  match flags with
  | none => .ok 0
  | some fl => rd fl i

/-- Core/Peers.cpp:404-417, :444-452: the peers that are not known, as entries to add, and the known ones with the new flags.
`flags` is the memory behind the pointer, if there is one; that of the new peers is read at :449-450. -/
def scan (flags : Option (List UInt8)) : Nat → List Addr → List Known → Res (List Known × List Known)
  | _, [], known => .ok (known, [])
  | i, a :: as, known => do
    let f ← flagAt flags i
    match find known a with
    | none => (scan flags (i + 1) as known).bind fun r => .ok (r.1, { addr := a, flags := f } :: r.2)
    | some j => scan flags (i + 1) as (known.modify j fun k => { k with flags := k.flags ||| f })

/-- Core/Peers.cpp:392-453 `updateKnownPeers`, without the `connectNext` at its end. `first`: the peers come from peer
exchange or DHT. -/
def found (s : State) (first : Bool) (peers : List Addr) (flags : Option (List UInt8)) : Res State := do
  let (known, new) ← scan flags 0 peers s.known
  if new = [] then pure { s with known := known }
  else if first && s.cur != 0 then
    pure { s with known := known.take s.cur ++ new ++ known.drop s.cur,
                  act := s.act.map fun c => if s.cur ≤ c.idx then { c with idx := c.idx + new.length } else c }
  else pure { s with cur := if s.cur = 0 then known.length else s.cur, known := known ++ new }

/-- `knownPeers[idx]` is changed. -/
def update (s : State) (idx : Nat) (f : Known → Known) : Res State :=
  if idx < s.known.length then .ok { s with known := s.known.modify idx f } else .ub

/-- Core/Peers.cpp:244-262 `disconnect`; the connection itself goes later. -/
def disconnect (s : State) (id : Nat) (unwanted : Bool) : Res (State × List Out) :=
  match s.act.find? (·.id == id) with
  | none => .ok (s, [])
  | some c =>
    if unwanted then do
      let s ← update s c.idx fun k => { k with unwanted := true }
      pure (s, [.ban c.addr])
    else .ok (s, [])

/-- Core/Peers.cpp:607-616 `handshakeFinished`. -/
def handshake (s : State) (id : Nat) : Res State :=
  match s.act.find? (·.id == id) with
  | none => .ok s
  | some c => update s c.idx fun k => { k with status := .connected }

/-- Core/Peers.cpp:155-177 `removePeer`, called by `connectionClosed` (:618-629), without the `connectNext` after it. -/
def closed (s : State) (id now : Nat) : Res (State × List Out) :=
  match s.act.find? (·.id == id) with
  | none => .ok (s, [])
  | some c => do
    let s ← update s c.idx fun k => { k with status := .disconnected, last := now }
    pure ({ s with act := s.act.eraseP (·.id == id) }, [.gone c.addr now])

/-- Core/Peers.cpp:69-84: the loop of `stop`. -/
def hangUp : List Conn → List Known → Res (List Known)
  | [], known => .ok known
  | c :: cs, known =>
    if c.idx < known.length then hangUp cs (known.modify c.idx fun k => { k with status := .disconnected }) else .ub

/-- Core/Peers.cpp:57-96 `stop`. -/
def stop (s : State) : Res State := do
  let known ← hangUp s.act s.known
  pure { s with known := known, act := [], connecting := false, running := false }

inductive Ev
  /-- Core/Peers.cpp:31-55 `start`; the call of `connectNext` it posts is a step of its own. -/
  | start
  | stop
  /-- Core/Peers.cpp:98-107 `startConnecting`; the call of `connectNext` it posts is a step of its own. -/
  | startConnecting
  /-- Core/Peers.cpp:109-112. -/
  | stopConnecting
  | next (now max : Nat) (opens : Bool)
  | found (first : Bool) (peers : List Addr) (flags : Option (List UInt8))
  | connect (a : Addr) (now : Nat) (opens : Bool)
  | holepunch (a : Addr) (now max : Nat) (opens : Bool)
  | incoming (a : Addr)
  | disconnect (id : Nat) (unwanted : Bool)
  | handshake (id : Nat)
  | closed (id now : Nat)
deriving DecidableEq, Repr

/-- A step that shows nothing. -/
def quiet (r : Res State) : Res (State × List Out) := r.bind fun s => .ok (s, [])

def step (s : State) : Ev → Res (State × List Out)
  | .start => .ok ({ s with running := true }, [])
  | .stop => quiet (stop s)
  | .startConnecting => .ok ({ s with connecting := true }, [])
  | .stopConnecting => .ok ({ s with connecting := false }, [])
  | .next now max opens => connectNext s now max opens
  | .found first peers flags => quiet (found s first peers flags)
  | .connect a now opens => connect s a now opens
  | .holepunch a now max opens => holepunch s a now max opens
  | .incoming a => .ok (incoming s a, [])
  | .disconnect id unwanted => disconnect s id unwanted
  | .handshake id => quiet (handshake s id)
  | .closed id now => closed s id now

/-- A history from a state, with what is seen of it. -/
def runFrom (s : State) : List Ev → Res (State × List Out)
  | [] => .ok (s, [])
  | e :: es => (step s e).bind fun r => (runFrom r.1 es).bind fun r' => .ok (r'.1, r.2 ++ r'.2)

/-- A history from the beginning (Core/Peers.cpp:16-29). -/
def run (h : List Ev) : Res (State × List Out) := runFrom {} h

end Verif.Peers
