import Verif.Model.Config
import Verif.Model.Upnp
/-! Core/Core.cpp:277-303, Core/IncomingPeersListener.cpp:15-94, 101-115, utils/UdpAsyncComm.cpp:39-61, 298-311: the ports that are listened to and
those that routers forward.

Changes of settings come one after the other.  Each may find ports taken by other programs, told by `free`; a socket that could not be bound
hears nothing.  UDP sockets that were given up are closed at once. -/

namespace Verif.Ports
open Verif Config Upnp

/-- The parts of `Core`, `IncomingPeersListener` (Core/IncomingPeersListener.h:39-54) and `UdpAsyncComm` (utils/UdpAsyncComm.h:60-61) that are about
ports, with the settings.  `binds` tells which sockets were opened.  `gone`: the listener has been deleted, but not its callback. -/
structure St where
  set : Connection := {}
  listening : Bool := false
  gone : Bool := false
  bindPort : Nat := 0
  receiver : Bool := false
  udp : Option Nat := none
  tcp : Option Nat := none
  upnp : Upnp.Sys := {}
  upnpEnabled : Bool := false
  usedTcp : Nat := 0
  usedUdp : Nat := 0
  binds : List (Proto × Nat) := []
deriving DecidableEq, Repr

/-- The set port of TCP. -/
def St.tcpPort (s : St) : Nat := s.set.tcpPort.toNat

/-- The set port of UDP. -/
def St.udpPort (s : St) : Nat := s.set.udpPort.toNat

/-- Core/IncomingPeersListener.cpp:101-115 `createTcpListener`, with the constructor in utils/TcpAsyncServer.cpp:6-8. -/
def createTcp (free : Proto → Nat → Bool) (s : St) : St :=
  { s with tcp := if free .tcp s.tcpPort then some s.tcpPort else none, binds := s.binds ++ [(.tcp, s.tcpPort)] }

/-- utils/UdpAsyncComm.cpp:298-311 `startListening`, with the constructor in utils/UdpAsyncReceiver.cpp:6-14, which takes no notice of errors. -/
def startListening (free : Proto → Nat → Bool) (s : St) : St :=
  if s.bindPort = 0 then { s with udp := none }
  else { s with receiver := true, udp := if free .udp s.bindPort then some s.bindPort else none, binds := s.binds ++ [(.udp, s.bindPort)] }

/-- utils/UdpAsyncComm.cpp:39-48 `setBindPort`, for the set port. -/
def setBindPort (free : Proto → Nat → Bool) (s : St) : St :=
  if s.bindPort ≠ s.udpPort then
    if s.receiver then startListening free { s with bindPort := s.udpPort } else { s with bindPort := s.udpPort }
  else s

/-- Core/IncomingPeersListener.cpp:30-31, 43-44: both ports are to be forwarded. -/
def mapBoth (s : St) : St := { s with upnp := mapPort (mapPort s.upnp (s.tcpPort, .tcp)) (s.udpPort, .udp) }

/-- Core/IncomingPeersListener.cpp:15-71 `start`, of a listener that was not started. -/
def start (free : Proto → Nat → Bool) (s : St) : St :=
  let s := createTcp free s
  let s := { s with upnpEnabled := s.set.upnpPortMapping, upnp := {} }
  let s := if s.upnpEnabled then mapBoth s else s
  { s with usedTcp := s.tcpPort, usedUdp := s.udpPort }

/-- Core/Core.cpp:277-303 `initListeners`. -/
def initListeners (free : Proto → Nat → Bool) (s : St) : St :=
  if s.listening then s
  else start free (startListening free (setBindPort free { s with listening := true }))

/-- Core/IncomingPeersListener.cpp:51-55. -/
def moveUdp (s : St) : St :=
  if s.usedUdp ≠ s.udpPort then { s with upnp := mapPort (unmapPort s.upnp (s.usedUdp, .udp)) (s.udpPort, .udp) } else s

/-- Core/IncomingPeersListener.cpp:56-60. -/
def moveTcp (s : St) : St :=
  if s.usedTcp ≠ s.tcpPort then { s with upnp := mapPort (unmapPort s.upnp (s.usedTcp, .tcp)) (s.tcpPort, .tcp) } else s

/-- Core/IncomingPeersListener.cpp:37-61: what is asked of routers. -/
def forward (s : St) : St :=
  if s.set.upnpPortMapping ≠ s.upnpEnabled then
    if s.set.upnpPortMapping then mapBoth s else { s with upnp := unmapAll s.upnp }
  else if s.upnpEnabled then moveTcp (moveUdp s) else s

/-- Core/IncomingPeersListener.cpp:35-68: the callback of the listener. -/
def onChange (free : Proto → Nat → Bool) (s : St) : St :=
  let s := forward s
  let s := if s.usedTcp ≠ s.tcpPort then createTcp free s else s
  { s with usedTcp := s.tcpPort, usedUdp := s.udpPort, upnpEnabled := s.set.upnpPortMapping }

/-- Core/Configuration.cpp:86-94: is there a change? -/
def changed (c o : Connection) : Bool :=
  c.tcpPort ≠ o.tcpPort ∨ c.udpPort ≠ o.udpPort ∨ c.maxTorrentConnections ≠ o.maxTorrentConnections
    ∨ c.upnpPortMapping ≠ o.upnpPortMapping ∨ c.enableTcpIn ≠ o.enableTcpIn ∨ c.enableTcpOut ≠ o.enableTcpOut
    ∨ c.enableUtpIn ≠ o.enableUtpIn ∨ c.enableUtpOut ≠ o.enableUtpOut ∨ c.encryption ≠ o.encryption

/-- Core/Configuration.cpp:84-101 `setValues` of the connection, with the callbacks in Core/Core.cpp:285-288 and of the listener, which are called in
this order (Core/Configuration.cpp:67-71).  The callback of a listener that is deleted reads what is gone. -/
def setConnection (free : Proto → Nat → Bool) (c : Connection) (s : St) : Res St :=
  if changed c s.set then
    let s := { s with set := c }
    if s.listening then
      if s.gone then .ub else .ok (onChange free (setBindPort free s))
    else .ok s
  else .ok s

/-- Core/Core.cpp:115-142 `deinit`, with Core/IncomingPeersListener.cpp:73-82 `stop` and utils/UdpAsyncComm.cpp:23-37 `deinit`. -/
def deinit (s : St) : St := { s with upnp := unmapAll s.upnp, tcp := none, udp := none, receiver := false, gone := true }

/-- What happens.  `add`: a torrent is added (Core/Core.cpp:192, 223) or there are some at the start (Core/Core.cpp:80-81).  A deleted core takes
no torrents. -/
inductive Ev where
  | add (free : Proto → Nat → Bool)
  | change (c : Connection) (free : Proto → Nat → Bool)
  | found (d : Device)
  | answer (i : Nat) (success : Bool)
  | closed (i : Nat)
  | deinit

/-- One event. -/
def step (s : St) : Ev → Res St
  | .add free => .ok (if s.gone then s else initListeners free s)
  | .change c free => setConnection free c s
  | .found d => .ok { s with upnp := Upnp.found s.upnp d }
  | .answer i b => .ok { s with upnp := Upnp.answer s.upnp i b }
  | .closed i => .ok { s with upnp := Upnp.closed s.upnp i }
  | .deinit => .ok (deinit s)

/-- Events in turn. -/
def run (s : St) : List Ev → Res St
  | [] => .ok s
  | e :: es => do
    let s ← step s e
    run s es

end Verif.Ports
