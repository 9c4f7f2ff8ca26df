import Verif.Model.DhtQuery
import Verif.Spec.DhtResponder
namespace Verif.Spec
open Dht Net Bencode

/-- An endpoint: whether IPv6, address bytes, port. -/
abbrev Endp := Bool × List UInt8 × Nat

/-- The bytes of a compact node: id, address and port. -/
def compactSize (v6 : Bool) : Nat := if v6 then 38 else 26

/-- The first `n` compact nodes of a string. -/
def compactNodes (v6 : Bool) : Nat → List UInt8 → List (Id × Endp)
  | 0, _ => []
  | n + 1, s => (s.take 20, v6, (s.drop 20).take (if v6 then 16 else 4), beVal ((s.drop (if v6 then 36 else 24)).take 2)) ::
      compactNodes v6 n (s.drop (compactSize v6))

/-- The first of each id. -/
def firstOfEach (acc : List (Id × Endp)) : List (Id × Endp) → List (Id × Endp)
  | [] => acc
  | x :: xs => firstOfEach (if x.1 ∈ acc.map (·.1) then acc else acc ++ [x]) xs

/-- The endpoints in a list of values: strings of 6 bytes, or 18 for IPv6. -/
def compactPeers : List BVal → List Endp
  | [] => []
  | .str s :: vs =>
    (if 18 ≤ s.length then (true, s.take 16, beVal ((s.drop 16).take 2)) else (false, s.take 4, beVal ((s.drop 4).take 2))) :: compactPeers vs
  | _ :: vs => compactPeers vs

/-- What a response says; `id` is `none` if it has no id of 20 bytes. -/
structure Reply where
  transaction : Nat := 0
  id : Option Id := none
  token : List UInt8 := []
  nodes : List (Id × Endp) := []
  values : List Endp := []
  result : Int := 0
deriving DecidableEq, Repr

/-- The nodes in the entries `nodes` and `nodes6`. -/
def nodesOf (r : List (List UInt8 × BVal)) : List (Id × Endp) :=
  let n4 := match lookup r (ascii "nodes") .text with | some (.str s) => compactNodes false (s.length / 26) s | _ => []
  let n6 := match lookup r (ascii "nodes6") .text with | some (.str s) => compactNodes true (s.length / 38) s | _ => []
  firstOfEach [] (n4 ++ n6)

/-- A message without a type counts as a response. -/
def isReply (kvs : List (List UInt8 × BVal)) : Bool :=
  match lookup kvs (ascii "y") .text with | some (.str y) => y.head? == some (chr 'r') | _ => true

def transactionIn (kvs : List (List UInt8 × BVal)) : Nat :=
  match lookup kvs (ascii "t") .text with | some (.str t) => leVal (t.take 2) | _ => 0

def errorIn (kvs : List (List UInt8 × BVal)) : Int :=
  match lookup kvs (ascii "e") .list with | some (.list (.int n :: _)) => toInt32 n | _ => 0

/-- What the dictionary `r` of a response to that kind of query says. -/
def bodyOf (asked : Asked) (kvs : List (List UInt8 × BVal)) : Reply :=
  match lookup kvs (ascii "r") .dictionary with
  | some (.dict r) =>
    { nodes := if asked = .ping then [] else nodesOf r
      values := if asked = .peers then match lookup r (ascii "values") .list with | some (.list vs) => compactPeers vs | _ => [] else []
      token := if asked = .peers then match lookup r (ascii "token") .text with | some (.str s) => s | _ => [] else []
      id := match lookup r (ascii "id") .text with | some (.str s) => if s.length = 20 then some s else none | _ => none }
  | _ => {}

/-- What a response to that kind of query says. -/
def replyOf (asked : Asked) (kvs : List (List UInt8 × BVal)) : Reply :=
  if isReply kvs then { bodyOf asked kvs with transaction := transactionIn kvs, result := errorIn kvs } else {}

/-- Everything of fixed size in a response has its size. -/
structure WellSized (kvs : List (List UInt8 × BVal)) : Prop where
  y : lookup kvs (ascii "y") .text ≠ some (.str [])
  t : ∀ s, lookup kvs (ascii "t") .text = some (.str s) → s.length ≠ 1
  nodes : ∀ r s, lookup kvs (ascii "r") .dictionary = some (.dict r) → lookup r (ascii "nodes") .text = some (.str s) → s.length % 26 = 0
  nodes6 : ∀ r s, lookup kvs (ascii "r") .dictionary = some (.dict r) → lookup r (ascii "nodes6") .text = some (.str s) → s.length % 38 = 0
  values : ∀ r vs s, lookup kvs (ascii "r") .dictionary = some (.dict r) → lookup r (ascii "values") .list = some (.list vs) → .str s ∈ vs → 6 ≤ s.length
  e : ∀ vs, lookup kvs (ascii "e") .list = some (.list vs) → vs = [] ∨ ∃ n tl, vs = .int n :: tl ∧ n < 9223372036854775808

/-- A parsed response without the memory that was never written: `uninit` is what the id consists of then. -/
structure Says (uninit : Id) (resp : Response) (x : Reply) : Prop where
  transaction : resp.transaction = x.transaction
  id : resp.id = x.id.getD uninit
  token : resp.token = x.token
  nodes : (resp.nodes.map fun n => (n.id, endpointKey n.addr)) = x.nodes
  values : resp.values.map endpointKey = x.values
  result : resp.result = x.result

end Verif.Spec
