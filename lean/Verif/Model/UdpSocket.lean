import Verif.Common
/-! UDP sockets: the one that receives for the whole program (utils/UdpAsyncReceiver.h, utils/UdpAsyncReceiver.cpp) and those of single requests
(utils/UdpAsyncWriter.h, utils/UdpAsyncWriter.cpp). `E` are addresses with ports. Handlers run one after another. -/

namespace Verif.UdpSocket
open Verif

variable {E : Type} [DecidableEq E]

/-! ### The receiver -/

/-- What the socket has for `receive_from`, one after another; nothing means that the call would block. -/
inductive Recv (E : Type) where
  | data (sender : E) (bytes : List UInt8)
  | interrupted
  | error
deriving DecidableEq, Repr

/-- utils/UdpAsyncReceiver.h:29-37. `last` is `lastEndpoint`, of which the first value is the address that no sender has. What was received is
kept as bytes in place of views of the buffer, whose parts do not overlap. `calls`: what `receiveCallback` was called with. -/
structure Reading (E : Type) where
  size : Nat
  pos : Nat := 0
  endpoint : Option E := none
  last : Option E := none
  packets : List (List UInt8) := []
  calls : List (Option E × List (List UInt8)) := []
deriving DecidableEq, Repr

/-- utils/UdpAsyncReceiver.cpp:86-97 `flushPackets`. The callback is set and changes neither the address nor what follows. -/
def flush (r : Reading E) : Reading E :=
  if r.packets = [] then r else { r with calls := r.calls ++ [(r.endpoint, r.packets)], packets := [] }

/-- utils/UdpAsyncReceiver.cpp:71-79: a datagram of `n` bytes was received. -/
def append (r : Reading E) (bytes : List UInt8) : Reading E :=
  let r := if r.last ≠ r.endpoint then flush r else r
  { r with packets := r.packets ++ [bytes], pos := r.pos + bytes.length, last := r.endpoint }

/-- utils/UdpAsyncReceiver.cpp:51-80, the loop; what the socket still has is left. A datagram that does not fit is cut
off without an error, as on Linux. -/
def readLoop (r : Reading E) : List (Recv E) → Reading E × List (Recv E)
  | [] => (r, [])
  | v :: vs =>
    if r.size - r.pos < 2048 then (r, v :: vs)
    else match v with
      | .interrupted => readLoop r vs
      | .error => (r, vs)
      | .data sender bytes =>
        let r := { r with endpoint := some sender }
        if (bytes.take (r.size - r.pos)).length = 0 then (r, vs) else readLoop (append r (bytes.take (r.size - r.pos))) vs

/-- utils/UdpAsyncReceiver.cpp:40-84 `readSocket`: the calls, the size of the buffer afterwards, and what the socket still has. `available`: what the
socket says. -/
def readSocket (size available : Nat) (vs : List (Recv E)) : List (Option E × List (List UInt8)) × Nat × List (Recv E) :=
  let size := max size (min 51200 available)
  let r := readLoop { size := size } vs
  ((flush r.1).calls, size, r.2)

/-- utils/UdpAsyncReceiver.cpp:29-38 `handle_receive`, again and again, `ns.length` times; `ns`: what the socket says is available. -/
def receiveAll (size : Nat) : List Nat → List (Recv E) → List (Option E × List (List UInt8)) × List (Recv E)
  | [], vs => ([], vs)
  | n :: ns, vs =>
    let r := readSocket size n vs
    let q := receiveAll r.2.1 ns r.2.2
    (r.1 ++ q.1, q.2)

/-! ### Requests -/

/-- utils/UdpAsyncWriter.h:49. -/
inductive Phase where
  | clear | initialized | connected
deriving DecidableEq, Repr

/-- utils/UdpAsyncWriter.h:44-84. `connecting`: the calls of `async_connect` that are not over; `receives`: those of `async_receive`. `answers`,
`closes`: whether `onResponse` and `onCloseCallback` are set. Binding, options of the socket and whether it is open are left out. -/
structure Writer (E : Type) where
  phase : Phase := .clear
  target : Option E := none
  named : Bool := false
  resolving : Bool := false
  broadcast : Bool := false
  message : List UInt8 := []
  connecting : Nat := 0
  receives : Nat := 0
  answers : Bool := false
  closes : Bool := false
deriving DecidableEq, Repr

/-- What is done: a datagram is sent, the owner is told of an answer or of the end, a name is looked up. -/
inductive Act (E : Type) where
  | sent (target : Option E) (data : List UInt8)
  | answer (data : List UInt8)
  | closed
  | lookup
deriving DecidableEq, Repr

/-- utils/UdpAsyncWriter.cpp:118-128 `postFail`. -/
def postFail (w : Writer E) : Writer E × List (Act E) :=
  ({ w with phase := if w.phase = .connected then .initialized else w.phase }, if w.closes then [.closed] else [])

/-- utils/UdpAsyncWriter.cpp:283-294 `send_message` of data; `ok`: whether the socket takes it. -/
def send (w : Writer E) (data : List UInt8) (ok : Bool) : Writer E × List (Act E) :=
  if ok then (w, [.sent w.target data]) else postFail w

/-- utils/UdpAsyncWriter.cpp:232-238, `send_message` when connected. -/
def sendKept (w : Writer E) (ok : Bool) : Writer E × List (Act E) :=
  if w.message = [] then (w, []) else send w w.message ok

/-- utils/UdpAsyncWriter.cpp:146-157 `setConnected`. -/
def setConnected (w : Writer E) (ok : Bool) : Writer E × List (Act E) :=
  sendKept { w with receives := if w.answers && w.phase ≠ .connected then w.receives + 1 else w.receives, phase := .connected } ok

/-- utils/UdpAsyncWriter.cpp:201-239 `send_message`. -/
def sendMessage (w : Writer E) (ok : Bool) : Writer E × List (Act E) :=
  match w.phase with
  | .clear => (w, [])
  | .initialized => if w.broadcast then setConnected w ok else ({ w with connecting := w.connecting + 1 }, [])
  | .connected => sendKept w ok

/-- utils/UdpAsyncWriter.cpp:83-94 `resolveHostname`. -/
def resolve (w : Writer E) : Writer E × List (Act E) :=
  if w.resolving || !w.named then (w, []) else ({ w with resolving := true }, [.lookup])

/-- utils/UdpAsyncWriter.cpp:14-40 `setAddress`. -/
def setAddress (w : Writer E) (e : E) : Writer E := { w with target := some e, named := true, phase := .initialized }
def setName (w : Writer E) : Writer E × List (Act E) := resolve { w with named := true }

/-- utils/UdpAsyncWriter.cpp:96-115 `handle_resolve`. -/
def resolved (w : Writer E) (e : Option E) (ok : Bool) : Writer E × List (Act E) :=
  let r := match e with
    | some e =>
      let w := { w with target := some e, phase := .initialized }
      if w.message = [] then (w, []) else sendMessage w ok
    | none => postFail w
  ({ r.1 with resolving := false }, r.2)

/-- utils/UdpAsyncWriter.cpp:130-144 `handle_connect`. -/
def connected (w : Writer E) (error ok : Bool) : Writer E × List (Act E) :=
  let w := { w with connecting := w.connecting - 1 }
  if error then postFail w else setConnected w ok

/-- utils/UdpAsyncWriter.cpp:159-174 `do_close`; what is under way on the socket ends. -/
def close (w : Writer E) : Writer E :=
  { w with answers := false, closes := false, phase := if w.phase = .connected then .initialized else w.phase, connecting := 0, receives := 0 }

/-- utils/UdpAsyncWriter.cpp:176-182 `do_rewrite`. -/
def rewrite (w : Writer E) (ok : Bool) : Writer E × List (Act E) := if w.phase ≠ .clear then sendMessage w ok else (w, [])

/-- utils/UdpAsyncWriter.cpp:184-199 `do_write`. -/
def write (w : Writer E) (data : List UInt8) (ok : Bool) : Writer E × List (Act E) :=
  let w := { w with message := data }
  if w.phase ≠ .clear then sendMessage w ok else if w.named then resolve w else (w, [])

/-- utils/UdpAsyncWriter.cpp:73-81 `write` of a view; what is not sent at once is written later. -/
def writeView (w : Writer E) (data : List UInt8) (ok : Bool) : Writer E × List (Act E) :=
  if w.phase = .connected then send w data ok else write w data ok

/-- utils/UdpAsyncWriter.cpp:321-351 `readSocket`: at most `n` datagrams of those the socket has; its size is what `available` says, as on Linux. The
sender becomes the target. Errors and interrupted calls are left out. -/
def readDatagrams : Nat → Option E → List (E × List UInt8) → List (Act E) × Option E × List (E × List UInt8)
  | 0, t, vs => ([], t, vs)
  | _ + 1, t, [] => ([], t, [])
  | n + 1, t, (e, bytes) :: vs =>
    if bytes.length = 0 then ([], t, (e, bytes) :: vs)
    else
      let r := readDatagrams n (some e) vs
      (.answer bytes :: r.1, r.2)

/-- utils/UdpAsyncWriter.cpp:306-319 `handle_receive`: what is done, and what the socket still has. -/
def handleReceive (w : Writer E) (error : Bool) (vs : List (E × List UInt8)) : Writer E × List (Act E) × List (E × List UInt8) :=
  if error || w.phase ≠ .connected then ({ w with receives := w.receives - 1 }, [], vs)
  else
    let r := readDatagrams 30 w.target vs
    ({ w with target := r.2.1 }, r.1, r.2.2)

/-- As often as the socket has something, `n` times. -/
def handleAll (w : Writer E) : Nat → List (E × List UInt8) → Writer E × List (Act E) × List (E × List UInt8)
  | 0, vs => (w, [], vs)
  | n + 1, vs =>
    let r := handleReceive w false vs
    let q := handleAll r.1 n r.2.2
    (q.1, r.2.1 ++ q.2.1, q.2.2)

/-- What happens to a request. -/
inductive Event (E : Type) where
  | setAddress (e : E)
  | setName
  | resolved (e : Option E) (ok : Bool)
  | connected (error ok : Bool)
  | write (data : List UInt8) (ok : Bool)
  | writeView (data : List UInt8) (ok : Bool)
  | rewrite (ok : Bool)
  | close
deriving DecidableEq, Repr

def step (w : Writer E) : Event E → Writer E × List (Act E)
  | .setAddress e => (UdpSocket.setAddress w e, [])
  | .setName => UdpSocket.setName w
  | .resolved e ok => UdpSocket.resolved w e ok
  | .connected error ok => UdpSocket.connected w error ok
  | .write data ok => UdpSocket.write w data ok
  | .writeView data ok => UdpSocket.writeView w data ok
  | .rewrite ok => UdpSocket.rewrite w ok
  | .close => (UdpSocket.close w, [])

def run (w : Writer E) : List (Event E) → Writer E × List (Act E)
  | [] => (w, [])
  | e :: es =>
    let r := step w e
    let q := run r.1 es
    (q.1, r.2 ++ q.2)

end Verif.UdpSocket
