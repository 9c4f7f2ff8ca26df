import Verif.Model.Http
import Verif.Model.Tcp
import Verif.Model.Encoding
/-! Asking trackers over HTTP and HTTPS (Core/HttpTrackerComm.cpp, Core/HttpsTrackerComm.cpp, utils/SslAsyncStream.cpp). Handlers run one
after another; the connections are the world around. -/

namespace Verif.HttpComm
open Verif Http Encoding

/-! ### The request -/

/-- Api/Configuration.h:20. -/
inductive Encryption where
  | refuse | allow | require
deriving DecidableEq, Repr

/-- What is said about the torrent and about us. -/
structure Told where
  hash : List UInt8
  peerId : List UInt8
  port : Nat
  uploaded : Nat
  downloaded : Nat
  left : Nat
  numwant : Nat
  key : Nat
  finished : Bool
  encryption : Encryption

/-- `std::to_string`. -/
def number (n : Nat) : List UInt8 := (Nat.toDigits 10 n).map chr

/-- Core/HttpTrackerComm.cpp:129-132. -/
def crypto : Encryption → List UInt8
  | .require => ascii "&requirecrypto=1"
  | .allow => ascii "&supportcrypto=1"
  | .refuse => []

/-- Core/HttpTrackerComm.cpp:117-143 `createAnnounceRequest`; Core/Interface.h:9. -/
def createRequest (t : Told) (path host port : List UInt8) : List UInt8 :=
  ascii "GET " ++ path ++ ascii "?info_hash=" ++ urlEncode t.hash ++ ascii "&peer_id=" ++ urlEncode t.peerId ++
  ascii "&port=" ++ number t.port ++ ascii "&uploaded=" ++ number t.uploaded ++ ascii "&downloaded=" ++ number t.downloaded ++
  ascii "&left=" ++ number t.left ++ ascii "&numwant=" ++ number t.numwant ++ ascii "&compact=1&no_peer_id=0&key=" ++ number t.key ++
  ascii "&event=" ++ (if t.finished then ascii "completed" else ascii "started") ++ crypto t.encryption ++
  ascii " HTTP/1.1\r\nUser-Agent: mtTorrent 0.9\r\nConnection: close\r\nHost: " ++ host ++
  (if port.isEmpty then [] else ascii ":" ++ port) ++ ascii "\r\nCache-Control: no-cache\r\n\r\n"

/-! ### HTTP -/

/-- Api/Interface.h:111 `TrackerState`. -/
inductive State where
  | clear | initialized | offline | alive | connecting | connected | announcing | announced
deriving DecidableEq, Repr

/-- The number of a state. -/
def State.toNat : State → Nat
  | .clear => 0 | .initialized => 1 | .offline => 2 | .alive => 3 | .connecting => 4 | .connected => 5 | .announcing => 6 | .announced => 7

/-- A connection as the tracker sees it: what waits to be sent, what was sent, what has arrived and was not used. `told`: whether the
tracker is told what happens. See Model/Tcp. -/
structure Conn where
  phase : Tcp.Phase := .clear
  queue : List (List UInt8) := []
  sent : List (List UInt8) := []
  buffer : List UInt8 := []
  told : Bool := true
deriving DecidableEq, Repr

/-- utils/TcpAsyncStream.cpp:293-323 `do_write`, where the name of the host is known. -/
def Conn.write (c : Conn) (m : List UInt8) : Conn :=
  match c.phase with
  | .connected => { c with sent := c.sent ++ [m] }
  | .clear => { c with phase := .connecting, queue := c.queue ++ [m] }
  | _ => { c with queue := c.queue ++ [m] }

/-- What the owner of the tracker is told. -/
inductive Out where
  | result (r : Announce)
  | failed
deriving DecidableEq, Repr

/-- A tracker, Api/Interface.h:113-127; `conns`: the connections made so far, the current one is `cur` (`tcpComm`). -/
structure Comm where
  state : State := .initialized
  last : Nat := 0
  interval : Nat := 0
  peers : Nat := 0
  seeds : Nat := 0
  leeches : Nat := 0
  conns : List Conn := []
  cur : Option Nat := none
deriving DecidableEq, Repr

/-- Core/HttpTrackerComm.cpp:54-71 `fail`. -/
def fail (s : Comm) : Comm × List Out :=
  let s := { s with cur := none }
  if s.state = .announcing then ({ s with state := if s.last ≠ 0 then .alive else .offline }, [.failed]) else (s, [])

/-- Core/HttpTrackerComm.cpp:73-77 `onTcpClosed`. -/
def onClosed (s : Comm) : Comm × List Out := if s.state ≠ .announced then fail s else (s, [])

/-- Core/HttpTrackerComm.cpp:79-82 `onTcpConnected`. -/
def onConnected (s : Comm) : Comm := { s with state := if s.state.toNat < State.alive.toNat then .alive else s.state }

/-- Core/HttpTrackerComm.cpp:97-110. -/
def announced (s : Comm) (r : Announce) (now : Nat) : Comm :=
  { s with state := .announced, leeches := r.leech, seeds := r.seed, peers := r.peers.length % 4294967296, interval := r.interval, last := now }

/-- Core/HttpTrackerComm.cpp:84-115 `onTcpReceived`; `reply` is `readAnnounceResponse`, see Model/Http. The number of bytes used. -/
def onReceived (reply : List UInt8 → Res (Nat × Announce)) (s : Comm) (shown : List UInt8) (now : Nat) : Res (Comm × Nat × List Out) :=
  if s.state = .announcing then do
    let r ← reply shown
    if r.1 = 4294967295 then
      let f := fail s
      pure (f.1, shown.length, f.2)
    else if r.1 ≠ 0 then pure (announced s r.2 now, r.1, [.result r.2])
    else pure (s, 0, [])
  else .ok (s, 0, [])

/-- What happens to a tracker. -/
inductive Ev where
  | announce (request : List UInt8)
  | connected (c : Nat)
  | received (c : Nat) (bytes : List UInt8) (now : Nat)
  | closed (c : Nat)
  | deinit
deriving DecidableEq, Repr

/-- Core/HttpTrackerComm.cpp:44-52 `initializeStream`, :195-210 `announce`. -/
def announce (s : Comm) (request : List UInt8) : Comm :=
  let s := match s.cur with
    | some _ => s
    | none => { s with conns := s.conns ++ [({} : Conn)], cur := some s.conns.length }
  { s with state := .announcing, conns := match s.cur with
    | some c => s.conns.modify c (·.write request)
    | none => s.conns }

/-- Core/HttpTrackerComm.cpp:24-32 `deinit` with utils/TcpAsyncStream.cpp:52-66 `close`. -/
def deinit (s : Comm) : Comm :=
  { s with cur := none, conns := match s.cur with
    | some c => s.conns.modify c fun c => { c with told := false, phase := .disconnected }
    | none => s.conns }

/-- The connection `c` is made: utils/TcpAsyncStream.cpp:159-192. -/
def connected (s : Comm) (c : Nat) : Comm :=
  match s.conns[c]? with
  | some k =>
    if k.phase = .connecting then
      let s := { s with conns := s.conns.set c { k with phase := .connected, sent := k.sent ++ k.queue, queue := [] } }
      if k.told then onConnected s else s
    else s
  | none => s

/-- The connection `c` fails or ends: utils/TcpAsyncStream.cpp:194-233. -/
def closed (s : Comm) (c : Nat) : Comm × List Out :=
  match s.conns[c]? with
  | some k =>
    if k.phase = .connecting ∨ k.phase = .connected then
      let s := { s with conns := s.conns.set c { k with phase := .disconnected, told := false } }
      if k.told then onClosed s else (s, [])
    else (s, [])
  | none => (s, [])

/-- Bytes arrive at the connection `c`: utils/TcpAsyncStream.cpp:377-420. -/
def received (reply : List UInt8 → Res (Nat × Announce)) (s : Comm) (c : Nat) (bytes : List UInt8) (now : Nat) : Res (Comm × List Out) :=
  match s.conns[c]? with
  | some k =>
    if k.phase = .connected ∧ k.told then do
      let shown := k.buffer ++ bytes
      let r ← onReceived reply s shown now
      pure ({ r.1 with conns := r.1.conns.set c { k with buffer := shown.drop r.2.1 } }, r.2.2)
    else .ok (s, [])
  | none => .ok (s, [])

/-- One event; those that cannot happen change nothing. -/
def step (reply : List UInt8 → Res (Nat × Announce)) (s : Comm) : Ev → Res (Comm × List Out)
  | .announce r => .ok (announce s r, [])
  | .connected c => .ok (connected s c, [])
  | .received c bs now => received reply s c bs now
  | .closed c => .ok (closed s c)
  | .deinit => .ok (deinit s, [])

/-- Events one after another, and all that the owner is told. -/
def run (reply : List UInt8 → Res (Nat × Announce)) : Comm → List Ev → Res (Comm × List Out)
  | s, [] => .ok (s, [])
  | s, e :: es => do
    let a ← step reply s e
    let b ← run reply a.1 es
    pure (b.1, a.2 ++ b.2)

/-! ### HTTPS -/

/-- utils/SslAsyncStream.h:35. -/
inductive Phase where
  | disconnected | connecting | connected
deriving DecidableEq, Repr

/-- What the socket is doing. -/
inductive Task where
  | none | resolving | connecting | shaking | writing | reading
deriving DecidableEq, Repr

/-- utils/SslAsyncStream.h:35, 46-60 and the tracker of Core/HttpsTrackerComm.cpp. `used`: the socket has been connected once; it is closed
nowhere but in `stop`, and connecting a connected socket fails. `sent`: what the server has got. -/
structure Ssl where
  state : State := .initialized
  last : Nat := 0
  interval : Nat := 0
  peers : Nat := 0
  seeds : Nat := 0
  leeches : Nat := 0
  phase : Phase := .disconnected
  task : Task := .none
  known : Bool := false
  used : Bool := false
  callback : Bool := false
  writeBuffer : List UInt8 := []
  readBuffer : List UInt8 := []
  sent : List UInt8 := []
deriving DecidableEq, Repr

/-- Core/HttpsTrackerComm.cpp:31-42 `init`: the host and the service connected to. -/
def target (host _port : List UInt8) : List UInt8 × List UInt8 := (host, ascii "https")

/-- Core/HttpsTrackerComm.cpp:44-56 `fail`. -/
def sslFail (s : Ssl) : Ssl × List Out :=
  if s.state = .announcing then ({ s with state := if s.last ≠ 0 then .alive else .offline }, [.failed]) else (s, [])

/-- utils/SslAsyncStream.cpp:68-84 `postFail` with Core/HttpsTrackerComm.cpp:101-107. -/
def postFail (s : Ssl) : Ssl × List Out :=
  if s.phase = .disconnected then (s, [])
  else
    let s := { s with phase := .disconnected }
    let r := if s.callback then sslFail s else (s, [])
    ({ r.1 with callback := false }, r.2)

/-- utils/SslAsyncStream.cpp:130-148 with :49-66 `do_write`, where the name of the host is known. -/
def doWrite (s : Ssl) : Ssl :=
  match s.phase with
  | .connected => { s with task := .writing }
  | .connecting => s
  | .disconnected => { s with phase := .connecting, task := if s.known then .connecting else .resolving }

/-- Core/HttpsTrackerComm.cpp:90-108 `announce`, utils/SslAsyncStream.cpp:26-32 `write`. -/
def sslAnnounce (s : Ssl) (request : List UInt8) : Ssl := doWrite { s with state := .announcing, callback := true, writeBuffer := request }

/-- Core/HttpsTrackerComm.cpp:58-88 `onTcpReceived`. -/
def sslReceived (reply : List UInt8 → Res (Nat × Announce)) (s : Ssl) (shown : List UInt8) (now : Nat) : Res (Ssl × List Out) :=
  if s.state = .announcing then do
    let r ← reply shown
    if r.1 = 0 then pure (s, [])
    else if r.1 = 4294967295 then pure (sslFail s)
    else pure ({ s with state := .announced, leeches := r.2.leech, seeds := r.2.seed, peers := r.2.peers.length % 4294967296,
                        interval := r.2.interval, last := now }, [.result r.2])
  else .ok (s, [])

/-- What happens to a tracker: a request is made, or what the socket is doing ends. `written n`: so many bytes were sent. -/
inductive SslEv where
  | announce (request : List UInt8)
  | resolved (ok : Bool)
  | connected (ok : Bool)
  | shaken (ok : Bool)
  | written (n : Nat)
  | received (bytes : List UInt8) (now : Nat)
  | error
deriving DecidableEq, Repr

/-- utils/SslAsyncStream.cpp:161-183 `handle_receive`. -/
def handleReceive (reply : List UInt8 → Res (Nat × Announce)) (s : Ssl) (bytes : List UInt8) (now : Nat) : Res (Ssl × List Out) :=
  let s := { s with readBuffer := s.readBuffer ++ bytes }
  if bytes.length = 512 then .ok ({ s with task := .reading }, [])
  else if s.readBuffer ≠ [] ∧ s.callback then sslReceived reply { s with readBuffer := [] } s.readBuffer now
  else .ok (s, [])

/-- utils/SslAsyncStream.cpp:86-128, 150-159. Events that cannot happen change nothing. -/
def sslStep (reply : List UInt8 → Res (Nat × Announce)) (s : Ssl) : SslEv → Res (Ssl × List Out)
  | .announce r => .ok (sslAnnounce s r, [])
  | .resolved ok =>
    if s.task = .resolving then
      .ok (if ok then ({ s with task := .connecting }, []) else postFail { s with task := .none })
    else .ok (s, [])
  | .connected ok =>
    if s.task = .connecting then
      .ok (if ok && !s.used then ({ s with phase := .connected, known := true, used := true, task := .shaking }, [])
        else postFail { s with task := .none })
    else .ok (s, [])
  | .shaken ok =>
    if s.task = .shaking then .ok (if ok then (doWrite { s with task := .none }, []) else postFail { s with task := .none })
    else .ok (s, [])
  | .written n =>
    if s.task = .writing then .ok ({ s with task := .reading, sent := s.sent ++ s.writeBuffer.take n }, [])
    else .ok (s, [])
  | .received bs now =>
    if s.task = .reading ∧ bs ≠ [] ∧ bs.length ≤ 512 then handleReceive reply { s with task := .none } bs now
    else .ok (s, [])
  | .error =>
    if s.task = .writing ∨ s.task = .reading then .ok (postFail { s with task := .none }) else .ok (s, [])

/-- Events one after another. -/
def sslRun (reply : List UInt8 → Res (Nat × Announce)) : Ssl → List SslEv → Res (Ssl × List Out)
  | s, [] => .ok (s, [])
  | s, e :: es => do
    let a ← sslStep reply s e
    let b ← sslRun reply a.1 es
    pure (b.1, a.2 ++ b.2)

end Verif.HttpComm
