import Verif.Model.Http
/-! UDP trackers, Core/UdpTrackerComm.cpp, with the part of utils/UdpAsyncComm.cpp that hands them datagrams.
Logging, the time stamps of `info` and the network are not modelled. -/

namespace Verif.UdpTracker
open Verif Net Http

/-- Api/Interface.h:111. -/
inductive TState | clear | initialized | offline | alive | connecting | connected | announcing | announced
deriving DecidableEq, Repr

/-- The order of the enumerators. -/
def TState.rank : TState → Nat
  | .clear => 0 | .initialized => 1 | .offline => 2 | .alive => 3
  | .connecting => 4 | .connected => 5 | .announcing => 6 | .announced => 7

/-- Core/UdpTrackerComm.h:43-49 `Action`. -/
def actConnect : Nat := 0
def actAnnounce : Nat := 1

/-- Core/UdpTrackerComm.h:30-34 `TrackerMessage`. -/
structure Msg where
  action : Nat := 0
  transaction : Nat := 0
deriving DecidableEq, Repr

/-- What a tracker object holds: the part of `info` set by replies, `lastMessage`, `connectionId`
(Core/UdpTrackerComm.h:71-73, Api/Interface.h:113-125). -/
structure Tracker where
  state : TState := .clear
  last : Msg := {}
  connectionId : Nat := 0
  leeches : Nat := 0
  seeds : Nat := 0
  peers : Nat := 0
  interval : Nat := 0
deriving DecidableEq, Repr

/-- What an announce tells about the torrent and the client (Core/UdpTrackerComm.cpp:121-133). -/
structure Env where
  hash : List UInt8
  peerId : List UInt8
  downloaded : Nat
  left : Nat
  uploaded : Nat
  finished : Bool
  key : Nat
  numWant : Nat
  port : Nat
deriving DecidableEq, Repr

/-- Which of the two callbacks waits for a reply. -/
inductive Kind | connect | announce
deriving DecidableEq, Repr

/-- What a call does to the outside. -/
inductive Out where
  | send (kind : Kind) (data : List UInt8)
  | fail
  | result (a : Announce)
deriving DecidableEq, Repr

/-- Core/UdpTrackerComm.cpp:35-48; `tx` is the random number. -/
def createConnectRequest (t : Tracker) (tx : Nat) : Tracker × List UInt8 :=
  ({ t with last := ⟨actConnect, tx⟩ }, be64 0x41727101980 ++ be32 actConnect ++ be32 tx)

/-- Core/UdpTrackerComm.cpp:110-136. -/
def createAnnounceRequest (t : Tracker) (e : Env) (tx : Nat) : Tracker × List UInt8 :=
  ({ t with last := ⟨actAnnounce, tx⟩ },
    be64 t.connectionId ++ be32 actAnnounce ++ be32 tx ++ e.hash.take 20 ++ e.peerId.take 20
      ++ be64 e.downloaded ++ be64 e.left ++ be64 e.uploaded
      ++ be32 (if e.finished then 1 else 2) ++ be32 0 ++ be32 e.key ++ be32 e.numWant ++ be16 e.port)

/-- Core/UdpTrackerComm.cpp:50-63. -/
def fail (t : Tracker) : Tracker × List Out :=
  let s := if t.state.rank < TState.connected.rank then TState.offline
    else if t.state.rank < TState.announced.rank then TState.connected
    else TState.announced
  ({ t with state := s }, [.fail])

/-- Core/UdpTrackerComm.cpp:174-180. -/
def connect (t : Tracker) (tx : Nat) : Tracker × List Out :=
  let (t, d) := createConnectRequest { t with state := .connecting } tx
  (t, [.send .connect d])

/-- Core/UdpTrackerComm.cpp:187-200. -/
def announce (t : Tracker) (e : Env) (tx : Nat) : Tracker × List Out :=
  if t.state.rank < TState.connected.rank then connect t tx
  else
    let (t, d) := createAnnounceRequest { t with state := .announcing } e tx
    (t, [.send .announce d])

/-- utils/PacketHelper.h:25-30 `pop32` at a position, not checked by the code: reading outside is `ub`. -/
def pop32 (d : List UInt8) (pos : Nat) : Res Nat :=
  if pos + 4 ≤ d.length then .ok (beVal ((d.drop pos).take 4)) else .ub

/-- utils/PacketHelper.h:32-37 `pop64`. -/
def pop64 (d : List UInt8) (pos : Nat) : Res Nat :=
  if pos + 8 ≤ d.length then .ok (beVal ((d.drop pos).take 8)) else .ub

/-- Core/UdpTrackerComm.cpp:202-216. -/
def getConnectResponse (d : List UInt8) : Res (Msg × Nat) :=
  if 16 ≤ d.length then do
    let a ← pop32 d 0
    let x ← pop32 d 4
    let c ← pop64 d 8
    pure (⟨a, x⟩, c)
  else pure ({}, 0)

/-- Core/UdpTrackerComm.cpp:218-243. The division by `6.0f` is that of integers: a datagram has less than 65536
bytes, and for such numbers the nearest `float` to the quotient is not beyond the next integer. -/
def getAnnounceResponse (junk : Addr) (d : List UInt8) : Res (Msg × Announce) := do
  let a ← pop32 d 0
  let x ← pop32 d 4
  if d.length < 26 then pure (⟨a, x⟩, {})
  else do
    let interval ← pop32 d 8
    let leech ← pop32 d 12
    let seed ← pop32 d 16
    let ps ← readPeers junk ((d.length - 20) / 6) (d.drop 20)
    pure (⟨a, x⟩, { interval, leech, seed, peers := ps })

/-- Core/UdpTrackerComm.cpp:182-185. -/
def validResponse (t : Tracker) (m : Msg) : Bool := m.action == t.last.action && m.transaction == t.last.transaction

/-- Core/UdpTrackerComm.cpp:65-93; `e` and `tx` are used if an announce follows. -/
def onConnect (t : Tracker) (e : Env) (tx : Nat) (d : List UInt8) : Res (Bool × Tracker × List Out) :=
  if d.length = 0 then let (t, o) := fail t; pure (false, t, o)
  else do
    let (m, c) ← getConnectResponse d
    if validResponse t m then
      let (t, o) := announce { t with state := .connected, connectionId := c } e tx
      pure (true, t, o)
    else if m.transaction = t.last.transaction then
      let (t, o) := fail t
      pure (true, t, o)
    else pure (false, t, [])

/-- Core/UdpTrackerComm.cpp:138-172. -/
def onAnnounce (junk : Addr) (t : Tracker) (d : List UInt8) : Res (Bool × Tracker × List Out) :=
  if d.length = 0 then let (t, o) := fail t; pure (false, t, o)
  else do
    let (m, r) ← getAnnounceResponse junk d
    if validResponse t m then
      pure (true, { t with state := .announced, leeches := r.leech, seeds := r.seed, peers := r.peers.length % 4294967296, interval := r.interval },
        [.result r])
    else if m.transaction = t.last.transaction then
      let (t, o) := fail t
      pure (true, t, o)
    else pure (false, t, [])

/-- The callback of a request. -/
def onReply (junk : Addr) (k : Kind) (t : Tracker) (e : Env) (tx : Nat) (d : List UInt8) : Res (Bool × Tracker × List Out) :=
  match k with
  | .connect => onConnect t e tx d
  | .announce => onAnnounce junk t d

/-- A tracker with the callbacks waiting for replies from its address, in the order of `pendingResponses`. -/
structure Sys where
  t : Tracker := {}
  waiting : List Kind := []
deriving DecidableEq, Repr

/-- utils/UdpAsyncComm.cpp:98-104 and 130-146: the callbacks that sending adds. -/
def sent (o : List Out) : List Kind := o.filterMap fun | .send k _ => some k | _ => none

/-- utils/UdpAsyncComm.cpp:203-219 (and 246-262): the callbacks found are asked in turn until one takes the
datagram, the others are put back. `pending` is what was added meanwhile. -/
def dispatch (junk : Addr) (e : Env) (tx : Nat) (d : List UInt8) : List Kind → Bool → Tracker → List Kind → List Out → Res (Sys × List Out)
  | [], _, t, pending, o => pure (⟨t, pending⟩, o)
  | k :: ks, handled, t, pending, o =>
    if handled then dispatch junk e tx d ks true t (pending ++ [k]) o
    else do
      let (r, t, o') ← onReply junk k t e tx d
      if r then dispatch junk e tx d ks true t (pending ++ sent o') (o ++ o')
      else dispatch junk e tx d ks false t (pending ++ sent o' ++ [k]) (o ++ o')

/-- utils/UdpAsyncComm.cpp:289-293: every callback is told that there will be no reply. -/
def closeAll (junk : Addr) (e : Env) (tx : Nat) : List Kind → Tracker → List Out → Res (Tracker × List Out)
  | [], t, o => pure (t, o)
  | k :: ks, t, o => do
    let (_, t, o') ← onReply junk k t e tx []
    closeAll junk e tx ks t (o ++ o')

/-- What happens to a tracker: a call of `announce` (Core/TrackerManager.cpp:197 and 200, Core/Peers.cpp:307), a
datagram from its address, the end of the wait for replies (utils/UdpAsyncComm.cpp:269-296). -/
inductive Ev where
  | announce (e : Env) (tx : Nat)
  | datagram (junk : Addr) (e : Env) (tx : Nat) (d : List UInt8)
  | close (junk : Addr) (e : Env) (tx : Nat)

def step (s : Sys) : Ev → Res (Sys × List Out)
  | .announce e tx =>
    let (t, o) := announce s.t e tx
    pure (⟨t, s.waiting ++ sent o⟩, o)
  | .datagram junk e tx d => dispatch junk e tx d s.waiting false s.t [] []
  | .close junk e tx => do
    let (t, o) ← closeAll junk e tx s.waiting s.t []
    pure (⟨t, []⟩, o)

/-- A history from a fresh object; the outputs are in order. -/
def run : Sys → List Ev → Res (Sys × List Out)
  | s, [] => pure (s, [])
  | s, ev :: evs => do
    let (s, o) ← step s ev
    let (s, o') ← run s evs
    pure (s, o ++ o')

end Verif.UdpTracker
