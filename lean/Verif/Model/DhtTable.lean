import Verif.Model.Addr
/-! The DHT routing table, Core/Dht/Table.cpp. -/

namespace Verif.Dht
open Verif Net

/-- Core/Dht/Table.h:41-46. -/
structure TNode where
  info : NodeInfo
  lastupdate : Nat := 0
  active : Bool := true
deriving DecidableEq, Repr

/-- Core/Dht/Table.h:39-56. -/
structure Bucket where
  nodes : List TNode := []
  cache : List TNode := []
  lastupdate : Nat := 0
  lastcacheupdate : Nat := 0
deriving DecidableEq, Repr

/-- Core/Dht/Table.h:59: the array of 160 buckets. -/
abbrev Table := List Bucket

def Table.empty : Table := List.replicate 160 {}

/-- Core/Dht/Table.cpp:174-177 `getBucketId`; `me` is the own id. -/
def bucketId (me id : Id) : Nat := length (distance me id)

/-- Applied to the node a `find` returns: the first with that id. -/
def updateFirst (id : Id) (f : TNode → TNode) : List TNode → Option (List TNode)
  | [] => none
  | n :: ns => if n.info.id = id then some (f n :: ns) else (updateFirst id f ns).map (n :: ·)

/-- Core/Dht/Table.cpp:71-108: one bucket. -/
def bucketResponded (time : Nat) (node : NodeInfo) (b : Bucket) : Bucket :=
  match updateFirst node.id (fun n => { n with lastupdate := time, active := true }) b.nodes with
  | some ns => { b with nodes := ns, lastupdate := time }
  | none =>
    match updateFirst node.id (fun n => { n with lastupdate := time }) b.cache with
    | some ns => { b with cache := ns, lastcacheupdate := time }
    | none =>
      let bnode : TNode := { info := node, lastupdate := time }
      if b.nodes.length < 8 then { b with nodes := b.nodes ++ [bnode], lastupdate := time }
      else
        let bnode := { bnode with active := false }
        if b.cache.length < 8 then { b with cache := b.cache ++ [bnode], lastcacheupdate := time }
        else { b with cache := b.cache.dropLast ++ [bnode], lastcacheupdate := time }

/-- Core/Dht/Table.cpp:60-109 `nodeResponded` at time `time`. -/
def nodeResponded (me : Id) (time : Nat) (node : NodeInfo) (t : Table) : Table :=
  t.modify (bucketId me node.id) (bucketResponded time node)

/-- Core/Dht/Table.cpp:124-153: the loop from index `i` on; `before` are the nodes already passed. -/
def notRespondedLoop (time : Nat) (id : Id) (b : Bucket) : List TNode → List TNode → Nat → Bucket
  | _, [], _ => b
  | before, n :: ns, i =>
    if n.info.id = id then
      let n := if n.active then { n with active := false, lastupdate := time } else n
      let maxOffline := if i > 5 then 0 else 15 * 60
      if b.lastupdate > n.lastupdate + maxOffline then
        match b.cache with
        | [] => { b with nodes := before ++ ns }
        | c :: cs => { b with nodes := before ++ ns ++ [c], cache := cs }
      else { b with nodes := before ++ n :: ns }
    else notRespondedLoop time id b (before ++ [n]) ns (i + 1)

/-- Core/Dht/Table.cpp:111-154 `nodeNotResponded`. -/
def nodeNotResponded (me : Id) (time : Nat) (node : NodeInfo) (t : Table) : Table :=
  t.modify (bucketId me node.id) fun b => notRespondedLoop time node.id b [] b.nodes 0

/-- What happens to a table. -/
inductive TOp where
  | responded (node : NodeInfo) (time : Nat)
  | notResponded (node : NodeInfo) (time : Nat)

def runTable (me : Id) (t : Table) : List TOp → Table
  | [] => t
  | .responded n time :: ops => runTable me (nodeResponded me time n t) ops
  | .notResponded n time :: ops => runTable me (nodeNotResponded me time n t) ops

/-! ### Closest nodes -/

/-- The output and the two counters of `getClosestNodes`. -/
structure Closest where
  out : List NodeInfo := []
  v6 : Nat := 0
  v4 : Nat := 0
deriving DecidableEq, Repr

/-- Core/Dht/Table.cpp:24-33, 43-52: the nodes of one bucket. -/
def collect (c : Closest) : List TNode → Closest
  | [] => c
  | n :: ns =>
    if n.active && c.out.length < 16 then
      if n.info.addr.ipv6 then
        collect (if c.v6 < 8 then { c with out := c.out ++ [n.info], v6 := c.v6 + 1 } else { c with v6 := c.v6 + 1 }) ns
      else
        collect (if c.v4 < 8 then { c with out := c.out ++ [n.info], v4 := c.v4 + 1 } else { c with v4 := c.v4 + 1 }) ns
    else collect c ns

/-- Core/Dht/Table.cpp:20-36: from bucket `i` down to 1. -/
def closestDown (t : Table) : Nat → Closest → Closest
  | 0, c => c
  | i + 1, c => if c.out.length < 16 then closestDown t i (collect c ((t[i + 1]?).elim [] (·.nodes))) else c

/-- Core/Dht/Table.cpp:38-55: `n` buckets from `i` up. -/
def closestUp (t : Table) : Nat → Nat → Closest → Closest
  | 0, _, c => c
  | n + 1, i, c => if c.out.length < 16 then closestUp t n (i + 1) (collect c ((t[i]?).elim [] (·.nodes))) else c

/-- Core/Dht/Table.cpp:6-58 `getClosestNodes`. -/
def getClosestNodes (me : Id) (t : Table) (id : Id) : List NodeInfo :=
  let s := bucketId me id
  (closestUp t (160 - (s + 1)) (s + 1) (closestDown t s {})).out

/-! ### Saving -/

/-- A 16-bit number in memory order (little endian). -/
def le16 (n : Nat) : List UInt8 := [UInt8.ofNat n, UInt8.ofNat (n / 256)]
/-- Its value. -/
def leVal (l : List UInt8) : Nat := l.foldr (fun b a => b.toNat + 256 * a) 0

/-- Core/Dht/Table.cpp:208-211: one node, 39 bytes. -/
def saveNode (n : TNode) : List UInt8 :=
  n.info.id ++ n.info.addr.bytes ++ le16 n.info.addr.port ++ [if n.info.addr.ipv6 then 1 else 0]

def nodesStart : List UInt8 := ascii "[nodes]\n"
def nodesEnd : List UInt8 := ascii "[nodes\\]\n"
def bucketsStart : List UInt8 := ascii "[buckets]\n"
def bucketsEnd : List UInt8 := ascii "[buckets\\]\n"

/-- Core/Dht/Table.cpp:199-218: the buckets from number `idx` on. -/
def saveBuckets : Nat → List Bucket → List UInt8
  | _, [] => []
  | idx, b :: bs =>
    (if b.nodes.isEmpty then [] else Bencode.dec idx ++ [10] ++ nodesStart ++ b.nodes.flatMap saveNode ++ nodesEnd) ++
      saveBuckets (idx + 1) bs

/-- Core/Dht/Table.cpp:192-223 `save`. -/
def save (t : Table) : List UInt8 := bucketsStart ++ saveBuckets 0 t ++ bucketsEnd

/-- `std::string::find`: the first position of `pat`. -/
def findSub (pat : List UInt8) : List UInt8 → Option Nat
  | [] => if pat.isEmpty then some 0 else none
  | l@(_ :: t) => if l.take pat.length = pat then some 0 else (findSub pat t).map (· + 1)

/-- `std::stoi` of a line; no digits raise an exception nothing catches, modelled like undefined
behaviour. -/
def stoi (line : List UInt8) : Res Int := do
  let r ← Bencode.strtol (line ++ [0])
  if r.2 = 0 then .ub else if r.1 < -2147483648 ∨ r.1 > 2147483647 then .ub else pure r.1

/-- Core/Dht/Table.cpp:260-275: the nodes of a bucket; reading a short last entry is out of bounds. -/
def loadNodes : Nat → List UInt8 → Res (List TNode)
  | 0, _ => .diverge
  | n + 1, l =>
    if l.isEmpty then .ok []
    else if l.length < 39 then .ub
    else do
      let node : TNode := { info := ⟨l.take 20, ⟨(l.drop 20).take 16, leVal ((l.drop 36).take 2), (l.drop 38).head? != some 0⟩⟩ }
      let rest ← loadNodes n (l.drop 39)
      pure (node :: rest)

/-- Core/Dht/Table.cpp:239-276: the loop; `rest` are the bytes from `pos` on, `pos < posEnd` means more
than 11 are left. -/
def loadLoop : Nat → List UInt8 → Table → Nat → Res (Nat × Table)
  | 0, _, _, _ => .diverge
  | n + 1, rest, t, counter =>
    if rest.length ≤ 11 then .ok (counter, t)
    else do
      let line := rest.takeWhile (· ≠ 10)
      let rest := rest.drop (line.length + 1)
      let id ← stoi line
      if rest.take 8 ≠ nodesStart then pure (counter, t)
      else
        let rest := rest.drop 8
        match findSub nodesEnd rest with
        | none => pure (counter, t)
        | some e =>
          if id < 0 ∨ id ≥ 160 then .ub
          else do
            let ns ← loadNodes (e + 1) (rest.take e)
            loadLoop n (rest.drop (e + 9)) (t.modify id.toNat fun b => { b with nodes := b.nodes ++ ns }) (counter + ns.length)

/-- Core/Dht/Table.cpp:225-279 `load` into the table `t`: the number of nodes and the table. -/
def load (settings : List UInt8) (t : Table) : Res (Nat × Table) :=
  if settings.take 10 ≠ bucketsStart then .ok (0, t)
  else if settings.length < 11 then .ub
  else if settings.drop (settings.length - 11) ≠ bucketsEnd then .ok (0, t)
  else loadLoop (settings.length + 1) (settings.drop 10) t 0

/-- Core/Dht/Table.cpp:316-330 `isValidNode`. -/
def isValidNode (me id : Id) : Bool := id != me && id != List.replicate 20 0

end Verif.Dht
