import Verif.Model.DhtTable
import Verif.Model.BencodeGet
/-! The DHT node answering queries, Core/Dht/Responder.cpp. -/

namespace Verif.Dht
open Verif Net Bencode

/-- Core/Dht/Responder.h:31-35. -/
structure Stored where
  addr : Addr
  timestamp : Nat
deriving DecidableEq, Repr

/-- Core/Dht/Responder.h:37-44: the `std::map` of stored peers as a list of pairs (its order is never
used), the two token secrets, and the routing table. -/
structure Responder where
  values : List (Id × List Stored) := []
  secret0 : Nat := 0
  secret1 : Nat := 0
  table : Table := Table.empty
deriving DecidableEq, Repr

/-- The sender of a packet; `text` is what asio's `to_string` prints for the address. -/
structure Endpoint where
  addr : Addr
  text : List UInt8
deriving DecidableEq, Repr

/-- Api/Configuration.h:86. -/
def maxStoredAnnouncedPeers : Nat := 32
/-- Api/Configuration.h:87. -/
def maxPeerValuesResponse : Nat := 32

/-- Core/Dht/Responder.cpp:257-267 `getAnnounceToken(addr, secret)`; address text is ASCII. -/
def announceToken (text : List UInt8) (secret : Nat) : Nat :=
  text.foldl (fun out c => (out + c.toNat) % 4294967296) secret

/-- Core/Dht/Responder.cpp:250-255. -/
def Responder.issueToken (r : Responder) (e : Endpoint) : Nat := announceToken e.text r.secret0

/-- Core/Dht/Responder.cpp:236-248 `isValidToken`. -/
def Responder.isValidToken (r : Responder) (token : Nat) (e : Endpoint) : Bool :=
  announceToken e.text r.secret0 == token || announceToken e.text r.secret1 == token

/-- Core/Dht/Responder.cpp:202-210: replace the entry of this peer or add one. -/
def storePeer (v : Stored) (vals : List Stored) : List Stored :=
  match vals.findIdx? (fun s => s.addr.eq v.addr) with
  | some i => vals.set i v
  | none => if vals.length < maxStoredAnnouncedPeers then vals ++ [v] else vals

/-- `values.find(id)`. -/
def peersOf (r : Responder) (id : Id) : Option (List Stored) := (r.values.find? (·.1 == id)).map (·.2)

/-- `auto& vals = values[id]; vals = f(vals)`. -/
def modifyPeers (id : Id) (f : List Stored → List Stored) : List (Id × List Stored) → List (Id × List Stored)
  | [] => [(id, f [])]
  | kv :: kvs => if kv.1 = id then (id, f kv.2) :: kvs else kv :: modifyPeers id f kvs

/-- Core/Dht/Responder.cpp:187-211 `announcedPeer`. -/
def Responder.announcedPeer (r : Responder) (infoHash : Id) (peer : Addr) (now : Nat) : Responder :=
  { r with values := modifyPeers infoHash (storePeer ⟨peer, now⟩) r.values }

/-- Core/Dht/Responder.cpp:217: unsigned 64-bit subtraction. -/
def oldestTime (now : Nat) : Nat := (now + 18446744073709551616 - 1800) % 18446744073709551616

/-- Core/Dht/Responder.cpp:213-234 `refreshStoredValues`. -/
def Responder.refreshStoredValues (r : Responder) (now : Nat) : Responder :=
  { r with values := (r.values.map fun kv => (kv.1, kv.2.filter fun s => ¬ s.timestamp < oldestTime now)).filter fun kv => !kv.2.isEmpty }

/-- Core/Dht/Responder.cpp:269-279 `refresh`; `secret` is the new random number. -/
def Responder.refresh (r : Responder) (now secret : Nat) : Responder :=
  let r := r.refreshStoredValues now
  { r with secret1 := r.secret0, secret0 := secret }

/-! ### Answers -/

/-- Core/Dht/Responder.cpp:168-177: the loop over the stored peers. -/
def valuesLoop (wantv6 : Bool) (maxcount : Nat) : List Stored → Nat → List UInt8 × Nat
  | [], count => ([], count)
  | v :: vs, count =>
    if count < maxcount ∧ v.addr.ipv6 = wantv6 then
      let r := valuesLoop wantv6 maxcount vs (count + 1)
      ((if wantv6 then ascii "18:" else ascii "6:") ++ v.addr.bytes.take (Addr.size wantv6) ++ be16 v.addr.port ++ r.1, r.2)
    else valuesLoop wantv6 maxcount vs count

/-- Core/Dht/Responder.cpp:150-185 `writeValues`: the bytes added. `uint32_t(32 / 3.0f)` is 10. -/
def Responder.writeValues (r : Responder) (infoHash : Id) (e : Endpoint) : List UInt8 :=
  match peersOf r infoHash with
  | none => []
  | some vals =>
    let maxcount := if e.addr.ipv6 then maxPeerValuesResponse / 3 else maxPeerValuesResponse
    let l := valuesLoop e.addr.ipv6 maxcount vals 0
    if l.2 > 0 then ascii "6:valuesl" ++ l.1 ++ ascii "e" else []

/-- Core/Dht/Responder.cpp:102-111: the loop over the `want` list: which families it asks for. -/
def wantLoop (mem : List UInt8) (objs : List Obj) : Nat → Option Nat → Bool → Bool → Res (Bool × Bool)
  | _, none, w4, w6 => .ok (w4, w6)
  | 0, some _, _, _ => .diverge
  | n + 1, some k, w4, w6 => do
    let o ← rd objs k
    if o.type = .text then do
      let t := o.bytes mem
      let w := if t = ascii "n4" then (true, w6) else if t = ascii "n6" then (w4, true) else (w4, w6)
      let nx ← nextSibling objs k
      wantLoop mem objs n nx w.1 w.2
    else pure (w4, w6)

/-- Core/Dht/Responder.cpp:128-135: one node in compact form. -/
def compactNode (n : NodeInfo) : List UInt8 := n.id ++ n.addr.bytes.take (Addr.size n.addr.ipv6) ++ be16 n.addr.port

/-- Core/Dht/Responder.cpp:119-146: the bytes added for the nodes found. -/
def nodesText (wantV4 wantV6 : Bool) (found : List NodeInfo) : List UInt8 :=
  let nodesV6 := (found.filter fun n => n.addr.ipv6 && wantV6).flatMap compactNode
  let nodes := (found.filter fun n => !n.addr.ipv6 && wantV4).flatMap compactNode
  ascii "5:nodes" ++ dec (nodes.length + nodesV6.length) ++ ascii ":" ++ nodes ++ nodesV6

/-- Core/Dht/Responder.cpp:95-148 `writeNodes`: the bytes added; `a` is the object `requestData`. -/
def Responder.writeNodes (r : Responder) (me hash : Id) (e : Endpoint) (mem : List UInt8) (objs : List Obj) (a : Nat) : Res (List UInt8) := do
  let w ← match ← findKey mem objs a (ascii "want") .list with
    | some l => do
      let f ← firstItem objs l
      wantLoop mem objs (objs.length + 1) f (!e.addr.ipv6) e.addr.ipv6
    | none => pure (!e.addr.ipv6, e.addr.ipv6)
  let found := getClosestNodes me r.table hash
  if found.isEmpty then pure [] else pure (nodesText w.1 w.2 found)

/-- A 32-bit number in memory order (little endian). -/
def le32 (n : Nat) : List UInt8 := [UInt8.ofNat n, UInt8.ofNat (n / 256), UInt8.ofNat (n / 65536), UInt8.ofNat (n / 16777216)]

/-- Core/Dht/Responder.cpp:40-47, 86: the reply around `body`. -/
def replyText (me transaction body : List UInt8) : List UInt8 :=
  ascii "d1:t" ++ dec transaction.length ++ ascii ":" ++ transaction ++ ascii "1:y1:r" ++ ascii "1:rd2:id20:" ++ me ++ body ++ ascii "ee"

/-- Core/Dht/Responder.cpp:51-84: the body of the reply and the new state; `none`: no reply. -/
def Responder.answer (r : Responder) (me : Id) (now : Nat) (e : Endpoint) (mem : List UInt8) (objs : List Obj) (a : Nat)
    (requestType : List UInt8) : Res (Option (List UInt8 × Responder)) := do
  if requestType = ascii "find_node" then
    match ← getTxtItem mem objs a (ascii "target") with
    | none => pure none
    | some target =>
      if target.length ≠ 20 then pure none
      else do
        let ns ← r.writeNodes me target e mem objs a
        pure (some (ns, r))
  else if requestType = ascii "get_peers" then
    match ← getTxtItem mem objs a (ascii "info_hash") with
    | none => pure none
    | some info =>
      if info.length ≠ 20 then pure none
      else do
        let ns ← r.writeNodes me info e mem objs a
        pure (some (ns ++ r.writeValues info e ++ ascii "5:token4:" ++ le32 (r.issueToken e), r))
  else if requestType = ascii "announce_peer" then do
    let infoHash ← getTxtItem mem objs a (ascii "info_hash")
    let token ← getTxtItem mem objs a (ascii "token")
    match infoHash, token with
    | some infoHash, some token =>
      if infoHash.length ≠ 20 ∨ token.length ≠ 4 ∨ r.isValidToken (leVal token) e = false then pure none
      else do
        let port ← getIntKey mem objs a (ascii "port")
        let implied ← getIntKey mem objs a (ascii "implied_port")
        let port := if implied = 1 ∨ port = 0 then e.addr.port else (port % 65536).toNat
        pure (some ([], r.announcedPeer infoHash { e.addr with port := port } now))
    | _, _ => pure none
  else pure (some ([], r))

/-- utils/PacketHelper.h:136-139 `add(data, size)` of a text item: with a negative size the range inserted
ends before it starts, which is undefined (libstdc++ throws, and nothing catches); bytes outside the
memory cannot be read. -/
def copyText (mem : List UInt8) (o : Obj) : Res (List UInt8) :=
  if o.size < 0 ∨ mem.length < o.data + o.size.toNat then .ub else .ok (o.bytes mem)

/-- Core/Dht/Responder.cpp:14-93 `handlePacket` after parsing: the reply sent, if any, and the new
state. -/
def Responder.handleParsed (r : Responder) (me : Id) (now : Nat) (e : Endpoint) (mem : List UInt8) (objs : List Obj) :
    Res (Option (List UInt8) × Responder) := do
  let some root := getRoot objs | pure (none, r)
  if root.type ≠ .dictionary then pure (none, r)
  else
    let y ← getTxtItem mem objs 0 (ascii "y")
    if y ≠ some (ascii "q") then pure (none, r)
    else
      let t ← findKey mem objs 0 (ascii "t") .text
      let q ← getTxtItem mem objs 0 (ascii "q")
      let a ← findKey mem objs 0 (ascii "a") .dictionary
      match t, q, a with
      | some t, some q, some a => do
        match ← getTxtItem mem objs a (ascii "id") with
        | none => pure (none, r)
        | some id =>
          if id.length ≠ 20 then pure (none, r)
          else do
            let o ← rd objs t
            let t ← copyText mem o
            match ← r.answer me now e mem objs a q with
            | none => pure (none, r)
            | some (body, r) =>
              pure (some (replyText me t body), { r with table := nodeResponded me now ⟨id, e.addr⟩ r.table })
      | _, _, _ => pure (none, r)

/-- Core/Dht/Responder.cpp:14-93 `handlePacket`; `after` is the memory behind the packet. A parse error
leaves no objects. -/
def Responder.handlePacket (r : Responder) (me : Id) (now : Nat) (e : Endpoint) (fuel : Nat) (data after : List UInt8) :
    Res (Option (List UInt8) × Responder) :=
  if data.isEmpty then .ok (none, r)
  else do
    let p ← parse fuel data after
    r.handleParsed me now e (data ++ after) p.objs

/-! ### Refreshing, Core/Dht/Communication.cpp -/

/-- What happens to the responder of a DHT node: packets, the (re)start of the DHT, its stop, and its timer
reaching zero. -/
inductive DEv
  | packet (e : Endpoint) (fuel : Nat) (data after : List UInt8)
  | start (secret : Nat)
  | stop
  | timer (secret : Nat)
deriving DecidableEq, Repr

/-- Core/Dht/Communication.h: the responder and whether `refreshTimer` is waiting. -/
structure DNode where
  responder : Responder
  armed : Bool := false
deriving DecidableEq, Repr

/-- One event at time `now`. Core/Dht/Communication.cpp:44-60 `start` refreshes and schedules the timer
(loading the routing table, default roots and the lookup of the own id are left out, as are the pings of
`refreshTable`), :62-82 `stop` disables it, and utils/ScheduledTimer.cpp:42-52 with the callback of :58
refreshes once and does not schedule again, since the callback returns 0. -/
def DNode.step (me : Id) (d : DNode) (now : Nat) : DEv → Res DNode
  | .packet e fuel data after => do
    let r ← d.responder.handlePacket me now e fuel data after
    pure { d with responder := r.2 }
  | .start secret => .ok { responder := d.responder.refresh now secret, armed := true }
  | .stop => .ok { d with armed := false }
  | .timer secret => .ok (if d.armed then { responder := d.responder.refresh now secret, armed := false } else d)

/-- A history with the time of every event. -/
def DNode.run (me : Id) (d : DNode) : List (Nat × DEv) → Res DNode
  | [] => .ok d
  | ev :: es => do
    let d ← d.step me ev.1 ev.2
    DNode.run me d es

end Verif.Dht
