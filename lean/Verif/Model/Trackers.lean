import Verif.Model.Uri
/-! The trackers of a torrent, Core/TrackerManager.cpp. `addTracker` is a function on the list of trackers. Starting,
failing, waiting and stopping are steps of a system: what is posted runs at any later time, in any order. -/

namespace Verif.Trackers
open Verif

/-- A pointer into the vector of trackers: the number of the memory block and the place in it. -/
structure Ptr where
  mem : Nat
  idx : Nat
deriving DecidableEq, Repr

/-- A `ScheduledTimer` made in Core/TrackerManager.cpp:197; `ptr` is what its function has captured. -/
structure Timer where
  id : Nat
  ptr : Ptr
deriving DecidableEq, Repr

/-- Core/TrackerManager.h:33-44 `TrackerInfo`. `comm` is the number of the object talking to the tracker. -/
structure Info where
  comm : Option Nat := none
  timer : Option Timer := none
  uri : Uri := {}
  fullAddress : List UInt8 := []
  httpFallback : Bool := false
  httpFallbackUsed : Bool := false
  retryCount : Nat := 0
deriving DecidableEq, Repr

inductive Status where
  | success
  | alreadyExists
  | invalidInput
deriving DecidableEq, Repr

/-- Core/TrackerManager.cpp:230-239 `findTrackerInfo(host)`: the place of the first tracker of the host. -/
def findHost (ts : List Info) (host : List UInt8) : Option Nat := ts.findIdx? (fun t => t.uri.host == host)

/-- Core/TrackerManager.cpp:49: one of the two addresses is of a http tracker, one of a udp tracker, and the known one
is not in use. -/
def mergeable (i info : Info) : Bool :=
  (i.uri.protocol == ascii "http" || info.uri.protocol == ascii "http") &&
    (i.uri.protocol == ascii "udp" || info.uri.protocol == ascii "udp") && i.comm.isNone

/-- Core/TrackerManager.cpp:51-52. -/
def merged (i : Info) : Info := { i with uri := { i.uri with protocol := ascii "udp" }, httpFallback := true }

/-- Core/TrackerManager.cpp:34-67 `addTracker`. -/
def addTracker (ts : List Info) (addr : List UInt8) : List Info × Status :=
  let info : Info := { uri := Uri.parse addr, fullAddress := addr }
  if info.uri.port ≠ [] then
    match findHost ts info.uri.host with
    | none => (ts ++ [info], .success)
    | some k =>
      match ts[k]? with
      | none => (ts ++ [info], .success)
      | some i =>
        if i.uri.port = info.uri.port then
          if mergeable i info then (ts.set k (merged i), .success) else (ts, .alreadyExists)
        else (ts ++ [info], .success)
  else if info.uri.protocol = ascii "https" then (ts ++ [info], .success)
  else (ts, .invalidInput)

/-- Core/TrackerManager.cpp:69-75 `addTrackers`. -/
def addTrackers (ts : List Info) (addrs : List (List UInt8)) : List Info := addrs.foldl (fun ts a => (addTracker ts a).1) ts

/-! ### Running -/

/-- What is posted to the service: Core/TrackerManager.cpp:16-22, 117-132, 137-177 and, in the last, 151-157. -/
inductive Task where
  | startAll
  | announced (comm interval : Nat)
  | failed (comm : Nat)
  | restart (ptr : Ptr)
deriving DecidableEq, Repr

/-- `mem` is the number of the memory block of the vector, `cap` its capacity. `announcing` has the numbers of the
tracker objects that wait for an answer, `armed` the timers that run, with the seconds they were given. -/
structure State where
  trackers : List Info := []
  mem : Nat := 0
  cap : Nat := 0
  callback : Bool := false
  comms : Nat := 0
  timers : Nat := 0
  announcing : List Nat := []
  armed : List (Timer × Nat) := []
  tasks : List Task := []
deriving DecidableEq, Repr

/-- The protocols of Core/TrackerManager.cpp:182-191; https in builds with `MTT_WITH_SSL`. -/
def supported (ssl : Bool) (protocol : List UInt8) : Bool :=
  protocol == ascii "udp" || protocol == ascii "http" || (ssl && protocol == ascii "https")

/-- utils/ScheduledTimer.cpp:13-18, 33-40 `schedule`: a timer waits once; scheduling it again replaces the wait. -/
def schedule (armed : List (Timer × Nat)) (t : Timer) (seconds : Nat) : List (Timer × Nat) :=
  armed.filter (fun a => a.1 != t) ++ [(t, seconds)]

/-- utils/ScheduledTimer.cpp:20-31 `disable`. -/
def disable (armed : List (Timer × Nat)) (t : Timer) : List (Timer × Nat) := armed.filter (fun a => a.1 != t)

/-- An announce of a tracker object. -/
def announce (s : State) (c : Nat) : State := { s with announcing := s.announcing ++ [c] }

/-- The object is given up: nothing is awaited by it any more (`deinit`, called by the destructors). -/
def dropComm (announcing : List Nat) : Option Nat → List Nat
  | none => announcing
  | some c => announcing.filter (· != c)

/-- Core/TrackerManager.cpp:180-203 `start(TrackerInfo*)`. A timer replaced is destroyed only if it does not run: a
running one is kept alive by its wait (utils/ScheduledTimer.cpp:38). The replaced object is destroyed. -/
def startTracker (ssl : Bool) (s : State) (p : Ptr) : Res State :=
  if p.mem ≠ s.mem then .ub
  else do
    let t ← rd s.trackers p.idx
    if supported ssl t.uri.protocol then
      let t' := { t with comm := some s.comms, timer := some ⟨s.timers, p⟩, retryCount := 0 }
      pure (announce { s with trackers := s.trackers.set p.idx t', comms := s.comms + 1, timers := s.timers + 1,
                              announcing := dropComm s.announcing t.comm } s.comms)
    else pure s

/-- Core/TrackerManager.cpp:20-21: from the place `k` on. -/
def startFrom (ssl : Bool) : Nat → Nat → State → Res State
  | 0, _, s => pure s
  | n + 1, k, s => do
    let s ← startTracker ssl s ⟨s.mem, k⟩
    startFrom ssl n (k + 1) s

/-- Core/TrackerManager.cpp:209-215: one tracker of `stopAll`. -/
def stopTracker (s : State) (t : Info) : State × Info :=
  let s := match t.timer with
    | none => s
    | some x => { s with armed := disable s.armed x }
  ({ s with announcing := dropComm s.announcing t.comm }, { t with timer := none, comm := none, retryCount := 0 })

/-- Core/TrackerManager.cpp:205-217 `stopAll`, over the trackers that are left. -/
def stopTrackers : List Info → State → State × List Info
  | [], s => (s, [])
  | t :: ts, s =>
    let (s, t) := stopTracker s t
    let (s, ts) := stopTrackers ts s
    (s, t :: ts)

/-- Core/TrackerManager.cpp:25-32 `stop`. -/
def stop (s : State) : State :=
  let (s, ts) := stopTrackers s.trackers s
  { s with trackers := ts, callback := false }

/-- Core/TrackerManager.cpp:219-228 `findTrackerInfo(Tracker*)`: its place. Objects are told apart by their number; that
a new object may get the address of a destroyed one is not modelled. -/
def findComm (ts : List Info) (c : Nat) : Option Nat := ts.findIdx? (fun t => t.comm == some c)

/-- Core/TrackerManager.cpp:119-131, in the service. -/
def onAnnounce (s : State) (c interval : Nat) : Res State :=
  if !s.callback then pure s
  else
    match findComm s.trackers c with
    | none => pure s
    | some k => do
      let t ← rd s.trackers k
      match t.timer with
      | none => .ub
      | some x => pure { s with trackers := s.trackers.set k { t with retryCount := 0 }, armed := schedule s.armed x interval }

/-- Core/TrackerManager.cpp:139-176, in the service. -/
def onTrackerFail (ssl : Bool) (s : State) (c : Nat) : Res State :=
  if !s.callback then pure s
  else
    match findComm s.trackers c with
    | none => pure s
    | some k => do
      let t ← rd s.trackers k
      if t.httpFallback ∧ !t.httpFallbackUsed ∧ t.uri.protocol = ascii "udp" then
        pure { s with trackers := s.trackers.set k { t with httpFallbackUsed := true, uri := { t.uri with protocol := ascii "http" } },
                      tasks := s.tasks ++ [.restart ⟨s.mem, k⟩] }
      else if t.httpFallback ∧ t.httpFallbackUsed ∧ t.uri.protocol = ascii "http" then
        startTracker ssl { s with trackers := s.trackers.set k { t with uri := { t.uri with protocol := ascii "udp" } } } ⟨s.mem, k⟩
      else
        match t.timer with
        | none => .ub
        | some x =>
          pure { s with trackers := s.trackers.set k { t with retryCount := t.retryCount + 1 },
                        armed := schedule s.armed x (30 * (t.retryCount + 1)) }

/-- Core/TrackerManager.cpp:153-156, in the service. -/
def restart (ssl : Bool) (s : State) (p : Ptr) : Res State :=
  if p.mem ≠ s.mem then .ub
  else do
    let t ← rd s.trackers p.idx
    startTracker ssl { s with trackers := s.trackers.set p.idx { t with comm := none }, announcing := dropComm s.announcing t.comm } p

def runTask (ssl : Bool) (s : State) : Task → Res State
  | .startAll => startFrom ssl s.trackers.length 0 s
  | .announced c i => onAnnounce s c i
  | .failed c => onTrackerFail ssl s c
  | .restart p => restart ssl s p

/-- Core/TrackerManager.cpp:197: the function of a timer. -/
def fireTimer (s : State) (p : Ptr) : Res State :=
  if p.mem ≠ s.mem then .ub
  else do
    let t ← rd s.trackers p.idx
    match t.comm with
    | none => .ub
    | some c => pure (announce s c)

inductive Ev where
  | add (addr : List UInt8)
  | start
  | stop
  | refresh (addr : List UInt8)
  | succeeds (comm interval : Nat)
  | fails (comm : Nat)
  | fires (a : Timer × Nat)
  | runs (t : Task)
deriving DecidableEq, Repr

/-- One step; `none` if it cannot be taken now. -/
def step (ssl : Bool) (s : State) : Ev → Option (Res State)
  /- `addTracker`, as called by Core/Peers.cpp `importTrackers` and `reloadTorrentInfo`. A full vector moves to memory
  of twice the size. -/
  | .add addr =>
    let ts := (addTracker s.trackers addr).1
    if ts.length ≤ s.cap then some (pure { s with trackers := ts })
    else some (pure { s with trackers := ts, mem := s.mem + 1, cap := max 1 (2 * s.cap) })
  /- Core/TrackerManager.cpp:12-23. -/
  | .start => some (pure { s with callback := true, tasks := s.tasks ++ [.startAll] })
  | .stop => some (pure (Trackers.stop s))
  /- Core/Peers.cpp `refreshSource` with Core/TrackerManager.cpp:83-94 `getTrackerByAddr`. -/
  | .refresh addr =>
    match s.trackers.find? (fun t => t.fullAddress == addr) with
    | some t => match t.comm with
      | some c => some (pure (announce s c))
      | none => some (pure s)
    | none => some (pure s)
  /- A tracker object has its answer: Core/TrackerManager.cpp:115-117. -/
  | .succeeds c interval =>
    if c ∈ s.announcing then some (pure { s with announcing := s.announcing.erase c, tasks := s.tasks ++ [.announced c interval] }) else none
  /- A tracker object gives up: Core/TrackerManager.cpp:135-137. -/
  | .fails c =>
    if c ∈ s.announcing then some (pure { s with announcing := s.announcing.erase c, tasks := s.tasks ++ [.failed c] }) else none
  /- utils/ScheduledTimer.cpp:42-52. -/
  | .fires a => if a ∈ s.armed then some (fireTimer { s with armed := s.armed.erase a } a.1.ptr) else none
  | .runs t => if t ∈ s.tasks then some (runTask ssl { s with tasks := s.tasks.erase t } t) else none

/-- A history; `none` if a step could not be taken. -/
def run (ssl : Bool) : State → List Ev → Option (Res State)
  | s, [] => some (pure s)
  | s, e :: es =>
    match step ssl s e with
    | some (.ok s) => run ssl s es
    | r => r

end Verif.Trackers
