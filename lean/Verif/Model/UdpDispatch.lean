import Verif.Common
/-! Outstanding UDP requests, utils/UdpAsyncComm.cpp: the list of pending responses with its two mutexes, as a
system of atomic steps that threads take in any order. What a callback answers is not modelled: it is part of the
step. Sockets and resolving are not modelled. -/

namespace Verif.UdpDispatch
open Verif

/-- utils/UdpAsyncComm.h:34-44 `ResponseRetryInfo`. `timer` tells that `timeoutTimer` is not null, `armed` that it
runs. -/
structure Info where
  client : Nat
  retries : Nat := 0
  timer : Bool := true
  armed : Bool := true
deriving DecidableEq, Repr

/-- The end of a request: a callback took the datagram with this number; its client was closed or did not answer;
it was taken back (`removeCallback`, `removeListeners`). -/
inductive Outcome where
  | accepted (datagram : Nat)
  | closed
  | cancelled
deriving DecidableEq, Repr

/-- A datagram being handed to callbacks: its number, the requests left to ask, and whether one has taken it. -/
structure Job where
  no : Nat
  found : List Nat
  handled : Bool
deriving DecidableEq, Repr

/-- Requests are numbered in the order they were made; `info` is the memory of the shared objects. `job` is the
dispatch that holds `respondingMutex` over several steps. `fired` has the client of each expired timer whose
handler has not begun, `looked` what each handler found that has not entered its second half. `outcomes` and
`retried` only record. -/
structure State where
  next : Nat := 0
  info : Nat → Info := fun _ => ⟨0, 0, false, false⟩
  pending : List Nat := []
  datagrams : Nat := 0
  job : Option Job := none
  fired : List Nat := []
  looked : List (Option Nat) := []
  outcomes : List (Nat × Outcome) := []
  retried : List Nat := []

inductive Ev where
  | send (c : Nat)
  | receive (p : Nat → Bool)
  | ask (taken : Bool)
  | done
  | close (c : Nat)
  | fire (i : Nat)
  | lookup (c : Nat)
  | act (x : Option Nat)
  | cancel (c : Nat)
  | clear

def set (f : Nat → Info) (i : Nat) (v : Info) : Nat → Info := fun j => if j = i then v else f j

/-- utils/UdpAsyncComm.cpp:361-366 `reset`: the timer must not be null. -/
def reset (f : Nat → Info) (i : Nat) : Res (Nat → Info) :=
  if (f i).timer then .ok (set f i { f i with retries := 255, timer := false, armed := false }) else .ub

/-- utils/UdpAsyncComm.cpp:289-293: what was found is reset, and its callback called without data. -/
def closeFound (f : Nat → Info) : List Nat → Res (Nat → Info)
  | [] => .ok f
  | i :: is => do
    let f ← reset f i
    closeFound f is

/-- utils/UdpAsyncComm.cpp:269-296 `onUdpClose`, with `respondingMutex` held. What it has taken out of the list
is seen by nobody else, so it is one step. -/
def onUdpClose (s : State) (c : Nat) : Res State := do
  let found := s.pending.filter fun i => (s.info i).client == c
  let f ← closeFound s.info found
  pure { s with info := f, pending := s.pending.filter (fun i => (s.info i).client != c),
                outcomes := s.outcomes ++ found.map fun i => (i, .closed) }

/-- One step; `none` if it cannot be taken now. -/
def step (s : State) : Ev → Option (Res State)
  /- utils/UdpAsyncComm.cpp:130-146 `addPendingResponse`, as one step: the timer does not expire before the
  request is in the list. -/
  | .send c => some (pure { s with next := s.next + 1, info := set s.info s.next { client := c }, pending := s.pending ++ [s.next] })
  /- utils/UdpAsyncComm.cpp:183-199 (`p` is the one client) and 226-242 (`p` are the clients of the endpoint). -/
  | .receive p =>
    if s.job.isNone then
      some (pure { s with datagrams := s.datagrams + 1, pending := s.pending.filter (fun i => !p (s.info i).client),
                          job := some ⟨s.datagrams, s.pending.filter (fun i => p (s.info i).client), false⟩ })
    else none
  /- utils/UdpAsyncComm.cpp:203-219 and 246-262: the next request found. Its callback is called unless the
  datagram has been taken; what the callback sends is a step of its own before this one. -/
  | .ask taken =>
    match s.job with
    | some ⟨n, i :: is, false⟩ =>
      if taken then
        some (do
          let f ← reset s.info i
          pure { s with info := f, job := some ⟨n, is, true⟩, outcomes := s.outcomes ++ [(i, .accepted n)] })
      else some (pure { s with pending := s.pending ++ [i], job := some ⟨n, is, false⟩ })
    | some ⟨n, i :: is, true⟩ => some (pure { s with pending := s.pending ++ [i], job := some ⟨n, is, true⟩ })
    | _ => none
  | .done =>
    match s.job with
    | some ⟨_, [], _⟩ => some (pure { s with job := none })
    | _ => none
  /- utils/UdpAsyncComm.cpp:141, called by utils/UdpAsyncWriter.cpp:118-128. -/
  | .close c => if s.job.isNone then some (onUdpClose s c) else none
  /- A timer expires. Timers of requests taken back may still do so here, although the object may be gone. -/
  | .fire i =>
    if (s.info i).armed then some (pure { s with info := set s.info i { s.info i with armed := false }, fired := s.fired ++ [(s.info i).client] })
    else none
  /- utils/UdpAsyncComm.cpp:318-330: the first half of `checkTimeout`, under `responsesMutex` only. -/
  | .lookup c =>
    if c ∈ s.fired then
      some (pure { s with fired := s.fired.erase c, looked := s.looked ++ [s.pending.find? fun i => (s.info i).client == c] })
    else none
  /- utils/UdpAsyncComm.cpp:332-352: the second half, under `respondingMutex`. -/
  | .act x =>
    if x ∈ s.looked ∧ s.job.isNone then
      let s := { s with looked := s.looked.erase x }
      match x with
      | none => some (pure s)
      | some i =>
        if (s.info i).retries = 255 then some (pure s)
        else if (s.info i).retries > 0 then some (onUdpClose s (s.info i).client)
        else if (s.info i).timer then
          some (pure { s with info := set s.info i { s.info i with retries := 1, armed := true }, retried := s.retried ++ [i] })
        else some .ub
    else none
  /- utils/UdpAsyncComm.cpp:114-128 `removeCallback`. -/
  | .cancel c =>
    if s.job.isNone then
      match s.pending.find? fun i => (s.info i).client == c with
      | some i => some (pure { s with pending := s.pending.erase i, outcomes := s.outcomes ++ [(i, .cancelled)] })
      | none => some (pure s)
    else none
  /- utils/UdpAsyncComm.cpp:63-73 `removeListeners`. -/
  | .clear =>
    if s.job.isNone then some (pure { s with pending := [], outcomes := s.outcomes ++ s.pending.map fun i => (i, .cancelled) })
    else none

/-- A history from the start; `none` if a step could not be taken. -/
def run : State → List Ev → Option (Res State)
  | s, [] => some (pure s)
  | s, e :: es =>
    match step s e with
    | some (.ok s) => run s es
    | r => r

end Verif.UdpDispatch
