import Verif.Model.DhtResponder
import Verif.Spec.Bencode
import Verif.Proof.BencodeGet
namespace Verif.Spec
open Dht Net Bencode

/-- A KRPC reply (BEP 5) as a value. -/
def replyValue (me transaction : List UInt8) (rest : List (List UInt8 × BVal)) : BVal :=
  .dict [(ascii "t", .str transaction), (ascii "y", .str (ascii "r")), (ascii "r", .dict ((ascii "id", .str me) :: rest))]

/-- Which families the `want` list of a query adds to that of its sender; entries after one that is
not a string are not looked at. -/
def wanted : List BVal → Bool → Bool → Bool × Bool
  | .str s :: vs, w4, w6 => wanted vs (w4 || s == ascii "n4") (w6 || s == ascii "n6")
  | _, w4, w6 => (w4, w6)

/-- The entry for the closest nodes: IPv4 nodes in 26 bytes, then IPv6 nodes in 38. -/
def nodesEntry (found : List NodeInfo) (w : Bool × Bool) : List (List UInt8 × BVal) :=
  if found.isEmpty then []
  else [(ascii "nodes", .str (((found.filter fun n => !n.addr.ipv6 && w.1).flatMap fun n => n.id ++ n.addr.toData) ++
    ((found.filter fun n => n.addr.ipv6 && w.2).flatMap fun n => n.id ++ n.addr.toData)))]

/-- The entry for stored peers of one family. -/
def valuesEntry (peers : List Addr) : List (List UInt8 × BVal) :=
  if peers.isEmpty then [] else [(ascii "values", .list (peers.map fun a => .str a.toData))]

/-- The peers given to somebody asking over IPv4 (at most 32) or IPv6 (at most 10). -/
def answeredPeers (stored : List Stored) (v6 : Bool) : List Addr :=
  ((stored.map (·.addr)).filter (·.ipv6 == v6)).take (if v6 then 10 else 32)

/-- All stored addresses are arrays of 16 bytes. -/
def WellFormed (r : Responder) : Prop := ∀ kv ∈ r.values, ∀ s ∈ kv.2, s.addr.bytes.length = 16

/-- What a query consists of: transaction, kind, arguments and the sender's id. Of several entries with
the same key the first of the right type counts. -/
def queryParts (kvs : List (List UInt8 × BVal)) : Option (List UInt8 × List UInt8 × List (List UInt8 × BVal) × List UInt8) :=
  match lookup kvs (ascii "y") .text with
  | some (.str y) =>
    if y = ascii "q" then
      match lookup kvs (ascii "t") .text, lookup kvs (ascii "q") .text, lookup kvs (ascii "a") .dictionary with
      | some (.str t), some (.str q), some (.dict args) =>
        match lookup args (ascii "id") .text with
        | some (.str id) => if id.length = 20 then some (t, q, args, id) else none
        | _ => none
      | _, _, _ => none
    else none
  | _ => none

/-- The families asked for by the arguments of a query from `v6`. -/
def wantedBy (args : List (List UInt8 × BVal)) (v6 : Bool) : Bool × Bool :=
  match lookup args (ascii "want") .list with
  | some (.list vs) => wanted vs (!v6) v6
  | _ => (!v6, v6)

/-- The body of the reply to a query on the arguments `args`, and the new state. -/
def answerSpec (r : Responder) (me : Id) (now : Nat) (e : Endpoint) (args : List (List UInt8 × BVal)) (q : List UInt8) :
    Option (List (List UInt8 × BVal) × Responder) :=
  if q = ascii "find_node" then
    match lookup args (ascii "target") .text with
    | some (.str target) => if target.length ≠ 20 then none
      else some (nodesEntry (getClosestNodes me r.table target) (wantedBy args e.addr.ipv6), r)
    | _ => none
  else if q = ascii "get_peers" then
    match lookup args (ascii "info_hash") .text with
    | some (.str info) => if info.length ≠ 20 then none
      else some (nodesEntry (getClosestNodes me r.table info) (wantedBy args e.addr.ipv6) ++
        valuesEntry (answeredPeers ((peersOf r info).getD []) e.addr.ipv6) ++ [(ascii "token", .str (le32 (r.issueToken e)))], r)
    | _ => none
  else if q = ascii "announce_peer" then
    match lookup args (ascii "info_hash") .text, lookup args (ascii "token") .text with
    | some (.str info), some (.str token) =>
      if info.length ≠ 20 ∨ token.length ≠ 4 ∨ r.isValidToken (leVal token) e = false then none
      else
        let port : Int := match lookup args (ascii "port") .number with | some (.int n) => toInt32 n | _ => 0
        let implied : Int := match lookup args (ascii "implied_port") .number with | some (.int n) => toInt32 n | _ => 0
        some ([], r.announcedPeer info { e.addr with port := if implied = 1 ∨ port = 0 then e.addr.port else (port % 65536).toNat } now)
    | _, _ => none
  else some ([], r)

/-- What a node does with a message: the reply, if any, and its new state. -/
def respond (r : Responder) (me : Id) (now : Nat) (e : Endpoint) (v : BVal) : Option BVal × Responder :=
  match v with
  | .dict kvs =>
    match queryParts kvs with
    | none => (none, r)
    | some (t, q, args, id) =>
      match answerSpec r me now e args q with
      | none => (none, r)
      | some (rest, r') => (some (replyValue me t rest), { r' with table := nodeResponded me now ⟨id, e.addr⟩ r'.table })
  | _ => (none, r)

/-- All numbers among the arguments of the query fit in 63 bits. -/
def SmallNumbers (v : BVal) : Prop :=
  ∀ kvs args, v = .dict kvs → lookup kvs (ascii "a") .dictionary = some (.dict args) →
    ∀ k n, lookup args k .number = some (.int n) → n < 9223372036854775808

/-! ### Histories of stored peers -/

/-- What happens to the stored peers. -/
inductive ROp
  | announce (infoHash : Id) (peer : Addr) (now : Nat)
  | refresh (now secret : Nat)
deriving DecidableEq, Repr

/-- The time of an event. -/
def ROp.time : ROp → Nat
  | .announce _ _ t => t
  | .refresh t _ => t

/-- The responder after a history. -/
def runPeers (r : Responder) : List ROp → Responder
  | [] => r
  | .announce ih a now :: ops => runPeers (r.announcedPeer ih a now) ops
  | .refresh now s :: ops => runPeers (r.refresh now s) ops

/-- The address of a peer as far as it is used. -/
def endpointOf (a : Addr) : Bool × List UInt8 × Nat := (a.ipv6, a.bytes.take (Addr.size a.ipv6), a.port)

/-- When the peer with address `x` was last announced for `ih`, forgotten by a refresh more than half an
hour later. -/
def lastAnnounced (ih : Id) (x : Bool × List UInt8 × Nat) : List ROp → Option Nat → Option Nat
  | [], t => t
  | .announce ih' a now :: ops, t => lastAnnounced ih x ops (if ih' = ih ∧ endpointOf a = x then some now else t)
  | .refresh now _ :: ops, t => lastAnnounced ih x ops (t.filter fun t => decide (now ≤ t + 1800))

/-- The peers announced for an info hash. -/
def announcedFor (ih : Id) : List ROp → List Addr
  | [] => []
  | .announce ih' a _ :: ops => if ih' = ih then a :: announcedFor ih ops else announcedFor ih ops
  | .refresh _ _ :: ops => announcedFor ih ops

/-- The secrets drawn by the refreshes of a history, the newest first. -/
def drawn : List ROp → List Nat → List Nat
  | [], l => l
  | .announce _ _ _ :: ops, l => drawn ops l
  | .refresh _ s :: ops, l => drawn ops (s :: l)

end Verif.Spec
