import Verif.Model.BencodeGet
import Verif.Model.PeerMessage
import Verif.Model.Addr
/-! The extension protocol: the extended handshake (Core/PeerCommunication.cpp, Core/ExtensionProtocol.cpp) and the
messages for hole punching (Core/HolepunchExtension.cpp, Core/Peers.cpp). -/

namespace Verif.Ext
open Verif Bencode Net

/-- Core/ExtensionProtocol.h:30-39 `RemoteExtension`; `peer`: the pointer is not null. -/
structure Remote where
  id : Nat := 0
  peer : Bool := false
deriving DecidableEq, Repr

/-- Core/ExtensionProtocol.cpp:16-19 `enabled`. -/
def Remote.enabled (r : Remote) : Bool := r.id != 0

/-- Core/ExtensionProtocol.h:21-29 `Handshake`. The map `messageIds` is the list of what was assigned to it, in order. -/
structure Handshake where
  ids : List (List UInt8 × Int) := []
  yourIp : List UInt8 := [0, 0, 0, 0]
  client : List UInt8 := []
  metadataSize : Nat := 0
deriving DecidableEq, Repr

/-- Core/PeerCommunication.h:28-34. -/
inductive Phase | disabled | handshake | enabled
deriving DecidableEq, Repr

/-- Core/PeerCommunication.h:26-41 `PeerExtensions`. -/
structure Exts where
  state : Phase := .disabled
  pex : Remote := {}
  utm : Remote := {}
  holepunch : Remote := {}
deriving DecidableEq, Repr

/-! ### Writing the handshake -/

/-- Core/Interface.h:9 `MT_NAME`. -/
def clientName : List UInt8 := ascii "mtTorrent 0.9"

/-- Core/PeerCommunication.cpp:99-132 `createExtendedHandshake`; `port` is `tcpPort` of the configuration. The ids are
those of Core/ExtensionProtocol.h:14-20. -/
def createHandshake (ip : List UInt8) (metadataSize port : Nat) : List UInt8 :=
  let d := startMap ([0, 0, 0, 0] ++ [UInt8.ofNat Peer.idExtended, 0])
  let d := startRawMapItem d (ascii "1:m")
  let d := addRawItemNumber d (ascii "11:ut_metadata") 2
  let d := addRawItemNumber d (ascii "6:ut_pex") 1
  let d := addRawItemNumber d (ascii "12:ut_holepunch") 3
  let d := endMap d
  let d := if metadataSize ≠ 0 then addRawItemNumber d (ascii "13:metadata_size") metadataSize else d
  let d := addRawItemNumber d (ascii "1:p") port
  let d := addRawItemText d (ascii "1:v") clientName
  let d := addRawItemText d (ascii "6:yourip") ip
  let d := endMap d
  be32 ((d.length - 4) % 4294967296) ++ d.drop 4

/-! ### Reading it -/

/-- utils/BencodeParser.cpp:345-348 `toString`. A negative size makes `std::string` throw (nobody catches it, which is
counted as undefined behaviour, as is reading behind the memory). -/
def textOf (mem : List UInt8) (o : Obj) : Res (List UInt8) :=
  if 0 ≤ o.size ∧ o.data + o.size.toNat ≤ mem.length then .ok (o.bytes mem) else .ub

/-- utils/BencodeParser.cpp:309-312 `getInt` of any object: lists and dictionaries have a null pointer for data
(utils/BencodeParser.h:19). -/
def intOf (mem : List UInt8) (o : Obj) : Res Int :=
  if o.type = .list ∨ o.type = .dictionary then .ub else getInt mem o

/-- Core/PeerCommunication.cpp:458-461 with utils/BencodeParser.h:53-65, utils/BencodeParser.cpp:282-285 `getTxt` and
:370-373 `getDictItemValue`: the entries of the dictionary "m". -/
def idsLoop (mem : List UInt8) (objs : List Obj) : Nat → Option Nat → Res (List (List UInt8 × Int))
  | _, none => .ok []
  | 0, some _ => .diverge
  | n + 1, some k => do
    let o ← rd objs k
    let name ← if o.type = .text then textOf mem o else pure []
    let vi ← nextSibling objs k
    match vi with
    | none => .ub
    | some j => do
      let v ← rd objs j
      let x ← intOf mem v
      let nx ← nextSibling objs j
      let rest ← idsLoop mem objs n nx
      pure ((name, x) :: rest)

/-- Core/PeerCommunication.cpp:456-462. -/
def readIds (mem : List UInt8) (objs : List Obj) : Res (List (List UInt8 × Int)) := do
  match ← findKey mem objs 0 (ascii "m") .dictionary with
  | none => pure []
  | some k => do
    let f ← firstItem objs k
    idsLoop mem objs (objs.length + 1) f

/-- The text of that name, Core/PeerCommunication.cpp:464, :467. -/
def readTxt (mem : List UInt8) (objs : List Obj) (name : List UInt8) : Res (Option (List UInt8)) := do
  match ← findKey mem objs 0 name .text with
  | none => pure none
  | some k => do
    let o ← rd objs k
    let t ← textOf mem o
    pure (some t)

/-- Core/PeerCommunication.cpp:447-472: the handshake in the bytes; `after` is the memory behind them. `none`: there is no
value. -/
def readHandshake (fuel : Nat) (data after : List UInt8) : Res (Option Handshake) := do
  let mem := data ++ after
  let p ← parse fuel data after
  match getRoot p.objs with
  | none => pure none
  | some root =>
    if root.type ≠ .dictionary then pure (some {})
    else do
      let ids ← readIds mem p.objs
      let client ← readTxt mem p.objs (ascii "v")
      let ip ← readTxt mem p.objs (ascii "yourip")
      let size ← getIntKey mem p.objs 0 (ascii "metadata_size")
      pure (some { ids := ids
                   client := client.getD []
                   yourIp := match ip with
                     | some s => if s.length = 4 then s else [0, 0, 0, 0]
                     | none => [0, 0, 0, 0]
                   metadataSize := (size % 4294967296).toNat })

/-- Core/ExtensionProtocol.cpp:5-14 `init`. -/
def Remote.init (r : Remote) (name : List UInt8) (h : Handshake) : Remote :=
  match h.ids.reverse.find? (fun x => x.1 = name) with
  | some x => ⟨(x.2 % 256).toNat, true⟩
  | none => r

/-- What comes of an extended message. -/
inductive Seen
  /-- Nothing. -/
  | nothing
  /-- The listener is told of a handshake. -/
  | handshake (h : Handshake)
  /-- The listener gets a message of that type. -/
  | message (type : Nat) (data : List UInt8)
deriving DecidableEq, Repr

/-- Core/PeerCommunication.cpp:441-486 `handleExtendedMessage`, :488-492 `sendExtendedHandshake`. `own` is the handshake
of this side. Returns also what is sent. -/
def handle (fuel : Nat) (e : Exts) (own : List UInt8) (id : Nat) (data after : List UInt8) :
    Res (Exts × List (List UInt8) × Seen) :=
  if id = 0 then do
    match ← readHandshake fuel data after with
    | none => pure (e, [], .nothing)
    | some h =>
      pure ({ state := .enabled
              pex := e.pex.init (ascii "ut_pex") h
              utm := e.utm.init (ascii "ut_metadata") h
              holepunch := e.holepunch.init (ascii "ut_holepunch") h },
            if e.state = .disabled then [own] else [], .handshake h)
  else pure (e, [], .message id data)

/-! ### Hole punching -/

/-- Core/HolepunchExtension.h:28-33 `Message`; `e` is `none` as long as it is not set. The number of the kind is kept as
it is (an enumeration of three values here). -/
structure Punch where
  id : Nat
  addr : Addr
  e : Option Nat := none
deriving DecidableEq, Repr

/-- Core/HolepunchExtension.cpp:9-29 `Load`; `after` is the memory behind the message. -/
def load (buf after : List UInt8) : Res (Option Punch) :=
  if buf.length < 8 then pure none
  else do
    let id ← rd buf 0
    let family ← rd buf 1
    if 1 < family.toNat then pure none
    else if family = 1 ∧ buf.length < 20 then pure none
    else do
      let r ← Addr.parse Addr.empty ((buf ++ after).drop 2) (family == 1)
      if id.toNat = 2 then do
        let v ← Peer.popN (buf ++ after) (2 + r.1) 4
        pure (some ⟨2, r.2, some v⟩)
      else pure (some ⟨id.toNat, r.2, none⟩)

/-- Core/HolepunchExtension.cpp:46-66 `send`, for :31-44. Without a peer the null pointer is used. -/
def send (r : Remote) (a : Addr) (kind e : Nat) : Res (List UInt8) :=
  let d := [0, 0, 0, 0] ++ [UInt8.ofNat Peer.idExtended, UInt8.ofNat r.id] ++ [UInt8.ofNat kind, if a.ipv6 then 1 else 0] ++
    a.toData ++ (if kind = 2 then be32 e else [])
  if r.peer then .ok (be32 (d.length - 4) ++ d.drop 4) else .ub

/-- A connection to a peer: the address its stream reports, whether it is an uTP stream, and what is known of the extension
at the other side. `met`: the addresses this peer told about in peer exchange. -/
structure Link where
  addr : Addr
  utp : Bool
  hp : Remote
  met : List Addr := []
deriving DecidableEq, Repr

/-- What is done about a message. -/
inductive Out
  /-- A message to the peer that asked. -/
  | reply (data : List UInt8)
  /-- A message to another connection. -/
  | tell (k : Nat) (data : List UInt8)
  /-- Connect to the address (unless there are enough connections). -/
  | connect (a : Addr)
deriving DecidableEq, Repr

/-- Core/Peers.cpp:509-518 `getActivePeer`. -/
def linkOf (links : List Link) (a : Addr) : Option Nat := links.findIdx? (fun l => l.addr.eq a)

/-- Core/Peers.cpp:695-730 `handleHolepunchMessage`, from the connection `p`. -/
def handlePunch (links : List Link) (p : Link) (m : Punch) : Res (List Out) :=
  if m.id = 0 then
    match linkOf links m.addr with
    | some k => do
      let t ← rd links k
      if t.utp && t.hp.enabled then do
        let x ← send t.hp p.addr 1 0
        let y ← send p.hp m.addr 1 0
        pure [.tell k x, .reply y]
      else pure []
    | none => do
      let y ← send p.hp m.addr 2 2
      pure [.reply y]
  else if m.id = 1 then pure [.connect m.addr]
  else pure []

/-- Core/Peers.cpp:739-747: the bytes of an extended message for this extension. -/
def receivePunch (links : List Link) (p : Link) (data after : List UInt8) : Res (List Out) := do
  match ← load data after with
  | none => pure []
  | some m => handlePunch links p m

/-- Core/PexExtension.cpp:239-243 `wasConnected`: the set is ordered by `operator<` of the addresses. -/
def wasConnected (met : List Addr) (a : Addr) : Bool := met.any (fun x => !x.lt a && !a.lt x)

/-- Core/Peers.cpp:670-693 `evaluatePossibleHolepunch`: a connection to `a` is gone. `flags` is what peer exchange said of
it (4: uTP, 8: hole punching, Core/PexExtension.h:18-24). -/
def seek (links : List Link) (was punched : Bool) (flags : Nat) (a : Addr) : Res (List Out) :=
  if !was && !punched && (flags / 4 % 4 != 0) then
    match links.findIdx? (fun l => l.hp.enabled && wasConnected l.met a) with
    | some k => do
      let n ← rd links k
      let x ← send n.hp a 0 0
      pure [.tell k x]
    | none => pure []
  else pure []

end Verif.Ext
