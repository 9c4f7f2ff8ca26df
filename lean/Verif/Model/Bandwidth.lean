import Verif.Common
/-! Shares of bandwidth, utils/Bandwidth.cpp. `int64_t` values and sums of priorities are unbounded integers here;
conversions of 32-bit values are those of the code. `BandwidthManager` is used under its lock and `setLimit` between
two uses of it, so each call is one step (the code does not lock `setLimit` and `close`). -/

namespace Verif.Bandwidth
open Verif

/-- Conversion to `int`. -/
def toInt32 (x : Int) : Int := x.bmod 4294967296

/-- utils/Bandwidth.h:26. -/
def inf : Int := 2147483647

/-- utils/Bandwidth.h:24-66 `BandwidthChannel`. -/
structure Channel where
  limit : Int := 0
  quota : Int := 0
  prioritySum : Int := 0
  distribute : Int := 0
deriving DecidableEq, Repr

/-- utils/Bandwidth.cpp:23-43. Division rounds towards zero. -/
def Channel.update (c : Channel) (dt : Int) : Channel :=
  if c.limit = 0 then c
  else
    let toAdd := (c.limit * dt + 500).tdiv 1000
    let quota :=
      if toAdd > inf - c.quota then inf
      else
        let q := c.quota + toAdd
        let q := if q.tdiv 3 > c.limit then c.limit * 3 else q
        min q inf
    { c with quota := quota, distribute := toInt32 (max quota 0) }

/-- utils/Bandwidth.cpp:45-51 `returnQuota`. -/
def Channel.giveBack (c : Channel) (amount : Int) : Channel := if c.limit = 0 then c else { c with quota := c.quota + amount }

/-- utils/Bandwidth.cpp:53-59 `useQuota`. -/
def Channel.use (c : Channel) (amount : Int) : Channel := if c.limit = 0 then c else { c with quota := c.quota - amount }

/-- utils/Bandwidth.cpp:61-69 `needQueueing`. -/
def Channel.needQueueing (c : Channel) (amount : Int) : Bool × Channel :=
  if c.limit = 0 then (false, c)
  else if c.quota - amount < c.limit then (true, c)
  else (false, { c with quota := c.quota - amount })

/-- utils/Bandwidth.h:68-91 `BandwidthRequest`. A channel is the number it was made with. `asked` is not in the code: the
channels the request was made for, of which `channels` are those it waits for. -/
structure Request where
  user : Nat
  asked : List Nat
  channels : List Nat
  priority : Int
  size : Int
  assigned : Int := 0
  ttl : Int := 10000
deriving DecidableEq, Repr

/-- utils/Bandwidth.h:77. -/
def minimumAssign : Int := 16384

/-- All channels. They are never destroyed; one that was not asked for yet is a new one. -/
abbrev Channels := Nat → Channel

def Channels.set (f : Channels) (k : Nat) (c : Channel) : Channels := fun i => if i = k then c else f i

/-- utils/Bandwidth.h:94-121 `BandwidthManager`. -/
structure State where
  channels : Channels := fun _ => {}
  queue : List Request := []
  queued : Int := 0
  aborted : Bool := false

/-- What a user is given: the result of a request, or a call of `assignBandwidth`. -/
structure Grant where
  user : Nat
  asked : List Nat
  amount : Int
deriving DecidableEq, Repr

/-- utils/Bandwidth.cpp:87-93: what the channels leave of `quota`. -/
def share (f : Channels) (priority : Int) (ks : List Nat) (quota : Int) : Int :=
  ks.foldl (fun q k => if (f k).limit = 0 ∨ (f k).prioritySum = 0 then q else min (toInt32 (((f k).distribute * priority).tdiv (f k).prioritySum)) q) quota

/-- utils/Bandwidth.cpp:95-96. -/
def useAll (f : Channels) (ks : List Nat) (amount : Int) : Channels := ks.foldl (fun f k => f.set k ((f k).use amount)) f

/-- utils/Bandwidth.cpp:81-101 `BandwidthRequest::assignBandwidth`. -/
def assign (f : Channels) (r : Request) : Channels × Request × Int :=
  let quota := r.size - r.assigned
  if quota = 0 then (f, r, 0)
  else
    let quota := share f r.priority r.channels quota
    (useAll f r.channels quota, { r with assigned := r.assigned + quota }, quota)

/-- utils/Bandwidth.cpp:157-161: the channels to wait for. -/
def collect : Channels → List Nat → Int → Channels × List Nat
  | f, [], _ => (f, [])
  | f, k :: ks, amount =>
    let (wait, c) := (f k).needQueueing amount
    let (f, ws) := collect (f.set k c) ks amount
    (f, if wait then k :: ws else ws)

/-- utils/Bandwidth.cpp:145-169 `requestBandwidth`. The array of channels of a request has two places. -/
def request (s : State) (user amount priority : Nat) (chans : List Nat) : Res (State × List Grant) :=
  if s.aborted then pure (s, [])
  else
    let (f, ws) := collect s.channels chans (toInt32 amount)
    if ws.length > 2 then .ub
    else if ws = [] then pure ({ s with channels := f }, [⟨user, chans, amount⟩])
    else pure ({ s with channels := f, queued := s.queued + amount,
                        queue := s.queue ++ [⟨user, chans, ws, toInt32 priority, toInt32 amount, 0, 10000⟩] }, [])

/-- utils/Bandwidth.cpp:194-199. -/
def giveBackAll (f : Channels) (ks : List Nat) (amount : Int) : Channels := ks.foldl (fun f k => f.set k ((f k).giveBack amount)) f

/-- utils/Bandwidth.cpp:206-210. -/
def resetAll (f : Channels) (ks : List Nat) : Channels := ks.foldl (fun f k => f.set k { f k with prioritySum := 0 }) f

/-- utils/Bandwidth.cpp:186-212: requests of inactive users are taken out, and get nothing. -/
def sift (inactive : List Nat) : Channels → Int → List Request → Channels × Int × List Request × List Request
  | f, n, [] => (f, n, [], [])
  | f, n, r :: rs =>
    if r.user ∈ inactive then
      let (f, n, kept, out) := sift inactive (giveBackAll f r.channels r.assigned) (n - (r.size - r.assigned)) rs
      (f, n, kept, { r with assigned := 0 } :: out)
    else
      let (f, n, kept, out) := sift inactive (resetAll f r.channels) n rs
      (f, n, r :: kept, out)

/-- utils/Bandwidth.cpp:216-221: the channels of one request. -/
def weighOne (priority : Int) : Channels → List Nat → Channels × List Nat
  | f, [] => (f, [])
  | f, k :: ks =>
    let (f', seen) := weighOne priority (f.set k { f k with prioritySum := (f k).prioritySum + priority }) ks
    (f', if (f k).prioritySum = 0 then k :: seen else seen)

/-- utils/Bandwidth.cpp:214-222: sums of priorities, and the channels in use. -/
def weigh : Channels → List Request → Channels × List Nat
  | f, [] => (f, [])
  | f, r :: rs =>
    let (f, a) := weighOne r.priority f r.channels
    let (f, b) := weigh f rs
    (f, a ++ b)

/-- utils/Bandwidth.cpp:224-227. -/
def updateAll (f : Channels) (dt : Int) (ks : List Nat) : Channels := ks.foldl (fun f k => f.set k ((f k).update dt)) f

/-- utils/Bandwidth.cpp:229-245. -/
def distributeAll (dt : Int) : Channels → Int → List Request → Channels × Int × List Request × List Request
  | f, n, [] => (f, n, [], [])
  | f, n, r :: rs =>
    let (f, r, a) := assign f { r with ttl := r.ttl - dt }
    if r.assigned = r.size ∨ r.assigned ≥ minimumAssign ∨ (r.ttl ≤ 0 ∧ r.assigned > 0) then
      let (f, n, kept, out) := distributeAll dt f (n - (a + (r.size - r.assigned))) rs
      (f, n, kept, r :: out)
    else
      let (f, n, kept, out) := distributeAll dt f (n - a) rs
      (f, n, r :: kept, out)

def toGrant (r : Request) : Grant := ⟨r.user, r.asked, r.assigned⟩

/-- utils/Bandwidth.cpp:171-256 `updateQuotas`. `inactive` are the users whose `isActive` is false. -/
def tick (s : State) (dt : Nat) (inactive : List Nat) : State × List Grant :=
  if s.aborted then (s, [])
  else if s.queue = [] then (s, [])
  else
    let dt : Int := if dt > 3000 then 3000 else dt
    let (f, n, queue, out1) := sift inactive s.channels s.queued s.queue
    let (f, ks) := weigh f queue
    let f := updateAll f dt ks
    let (f, n, queue, out2) := distributeAll dt f n queue
    ({ s with channels := f, queue := queue, queued := n }, ((out1 ++ out2).map toGrant).reverse)

/-- utils/Bandwidth.cpp:129-143 `close`. -/
def close (s : State) : State × List Grant :=
  ({ s with aborted := true, queue := [], queued := 0 }, (s.queue.map toGrant).reverse)

inductive Ev where
  | setLimit (k limit : Nat)
  | request (user amount priority : Nat) (chans : List Nat)
  | tick (dt : Nat) (inactive : List Nat)
  | close
deriving DecidableEq, Repr

/-- One step, with what users are given. -/
def step (s : State) : Ev → Res (State × List Grant)
  /- utils/Bandwidth.cpp:13-16, called with the `uint32_t` values of the configuration in Core/Core.cpp:315-316, 331-332. -/
  | .setLimit k l => pure ({ s with channels := s.channels.set k { s.channels k with limit := toInt32 l } }, [])
  | .request u a p ks => request s u a p ks
  | .tick dt off => pure (tick s dt off)
  | .close => pure (close s)

def run : State → List Ev → Res (State × List Grant)
  | s, [] => pure (s, [])
  | s, e :: es => do
    let (s, g) ← step s e
    let (s, gs) ← run s es
    pure (s, g ++ gs)

end Verif.Bandwidth
