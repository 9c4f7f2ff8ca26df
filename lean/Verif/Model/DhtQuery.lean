import Verif.Model.DhtResponder
/-! DHT lookups, Core/Dht/Query.cpp. -/

namespace Verif.Dht
open Verif Net Bencode

/-! ### Candidates -/

/-- Core/Dht/Query.cpp:41-57: which entry of the full list is replaced by a node at distance `nd`: the
first of greatest length among those not closer. `i` is the index of the first element. -/
def replaceIdx (nd target : Id) : List NodeInfo → Nat → Nat → Option Nat → Option Nat
  | [], _, _, idx => idx
  | x :: xs, i, worst, idx =>
    if closerToNodeThan x.id nd target = false ∧ length (distance x.id target) > worst then
      replaceIdx nd target xs (i + 1) (length (distance x.id target)) (some i)
    else replaceIdx nd target xs (i + 1) worst idx

/-- Core/Dht/Query.cpp:24-64: one node of `from`. `me` is the own id (in `isValidNode`). -/
def mergeOne (me target : Id) (used : List NodeInfo) (maxSize minDistance : Nat) (to : List NodeInfo) (n : NodeInfo) : List NodeInfo :=
  if to.any (·.same n) then to
  else if used.any (·.same n) then to
  else if isValidNode me n.id = false then to
  else if length (distance n.id target) ≤ minDistance ∨ used.length < 32 then
    if to.length < maxSize then to ++ [n]
    else match replaceIdx (distance n.id target) target to 0 0 none with
      | some i => to.set i n
      | none => to
  else to

/-- Core/Dht/Query.cpp:20-66 `mergeClosestNodes`. -/
def mergeClosestNodes (me target : Id) (used : List NodeInfo) (maxSize minDistance : Nat) (to «from» : List NodeInfo) : List NodeInfo :=
  «from».foldl (mergeOne me target used maxSize minDistance) to

/-! ### The lookup -/

/-- Core/Dht/Query.h:48-57 `RequestInfo`. `comm` stands for the `UdpRequest` and for the transaction id, which
are taken to be different for all requests (transaction ids repeat after 16384 of them). -/
structure Request where
  comm : Nat
  node : NodeInfo
  minDistance : Nat
deriving DecidableEq, Repr

/-- Which of the two lookups, `GetPeers` or `FindNode` (with `findClosest`). -/
inductive Kind
  | getPeers
  | findNode
deriving DecidableEq, Repr

/-- Core/Dht/Query.h:59-99 `DhtQuery` and `foundCount` of `GetPeers`. `pending` are the requests of this
lookup in `UdpAsyncComm::pendingResponses`, whose callbacks can still be called. `sent` are the nodes queried,
the newest last, and `finished` counts the calls of `findingPeersFinished`. The shortest distance so far
(`minDistance`), which is only logged, is left out, as are `stop` and the effects on the routing table. -/
structure Lookup where
  received : List NodeInfo := []
  used : List NodeInfo := []
  requests : List Request := []
  pending : List Request := []
  found : Nat := 0
  sent : List NodeInfo := []
  finished : Nat := 0
deriving DecidableEq, Repr

/-- The endpoint made of an address. -/
def endpointKey (a : Addr) : Bool × List UInt8 × Nat := (a.ipv6, a.bytes.take (Addr.size a.ipv6), a.port)

/-- Core/Dht/Query.cpp:455-467 `sendRequest`, with utils/UdpAsyncComm.cpp:79-91. -/
def Lookup.send (l : Lookup) (n : NodeInfo) (minDistance : Nat) : Lookup :=
  let r : Request := ⟨l.sent.length, n, minDistance⟩
  { l with requests := l.requests ++ [r], pending := l.pending ++ [r], sent := l.sent ++ [n] }

/-- Core/Dht/Query.cpp:92-117 `start` with the nodes of the routing table. -/
def Lookup.start (nodes : List NodeInfo) : Lookup :=
  if nodes.isEmpty then { finished := 1 } else nodes.foldl (fun l n => l.send n 160) {}

/-- Core/Dht/Query.cpp:298-307 and 440-449: query the next candidates while fewer than 5 requests count. -/
def pumpLoop (target : Id) : Nat → Lookup → Lookup
  | 0, l => l
  | k + 1, l =>
    match l.received with
    | [] => l
    | next :: rest =>
      if l.requests.length < 5 then
        pumpLoop target k ({ l with received := rest, used := l.used ++ [next] }.send next (length (distance next.id target)))
      else l

/-- Core/Dht/Query.cpp:291-314 (`GetPeers`) and 438-449 (`FindNode`). -/
def Lookup.pump (k : Kind) (target : Id) (l : Lookup) : Lookup :=
  match k with
  | .findNode => pumpLoop target l.received.length l
  | .getPeers =>
    let l := if l.found < 50 then pumpLoop target l.received.length l else l
    if l.requests.isEmpty then { l with finished := l.finished + 1 } else l

/-- Core/Dht/Query.cpp:282-289: the first request to the same endpoint; 429-436: the request itself. -/
def dropRequest (k : Kind) (r : Request) (rs : List Request) : List Request :=
  match k with
  | .getPeers => rs.eraseP fun x => endpointKey x.node.addr == endpointKey r.node.addr
  | .findNode => rs.eraseP fun x => x.comm == r.comm

/-- What can happen to the `i`-th request whose callback is pending. -/
inductive LEv
  /-- The response, from the right node, with `nodes` and `peers` new peers. -/
  | answer (i : Nat) (nodes : List NodeInfo) (peers : Nat)
  /-- A response with the right transaction from a node with another id. -/
  | wrongId (i : Nat)
  /-- Any other packet from the node's endpoint, for instance a query of its own. -/
  | stray (i : Nat)
  /-- No response, or the socket was closed. -/
  | timeout (i : Nat)
deriving DecidableEq, Repr

/-- Core/Dht/Query.cpp:227-318 `GetPeers::onResponse` and 378-453 `FindNode::onResponse` as called by
utils/UdpAsyncComm.cpp:213-262: after a stray packet the callback stays pending, at the end of the list. -/
def Lookup.step (k : Kind) (me target : Id) (l : Lookup) : LEv → Lookup
  | .answer i nodes peers =>
    match l.pending[i]? with
    | none => l
    | some r => Lookup.pump k target { l with
        received := mergeClosestNodes me target l.used 32 r.minDistance l.received nodes
        found := (l.found + (if k = .getPeers then peers else 0)) % 4294967296
        requests := dropRequest k r l.requests, pending := l.pending.eraseIdx i }
  | .stray i =>
    match l.pending[i]? with
    | none => l
    | some r => { Lookup.pump k target { l with requests := dropRequest k r l.requests, pending := l.pending.eraseIdx i } with
        pending := (Lookup.pump k target { l with requests := dropRequest k r l.requests, pending := l.pending.eraseIdx i }).pending ++ [r] }
  | .wrongId i | .timeout i =>
    match l.pending[i]? with
    | none => l
    | some r => Lookup.pump k target { l with requests := dropRequest k r l.requests, pending := l.pending.eraseIdx i }

/-- A history of a lookup. -/
def Lookup.run (k : Kind) (me target : Id) (l : Lookup) (es : List LEv) : Lookup := es.foldl (Lookup.step k me target) l

/-! ### Messages -/

/-- A `uint16_t` in memory order. -/
def le16b (n : Nat) : List UInt8 := [UInt8.ofNat n, UInt8.ofNat (n / 256)]

/-- Core/Dht/Query.cpp:320-338 `GetPeers::createRequest` with both protocols; `name` are the 4 bytes of
`MT_NAME_SHORT`. -/
def getPeersRequest (me hash name : List UInt8) (transaction : Nat) : List UInt8 :=
  ascii "d1:ad2:id20:" ++ me ++ ascii "9:info_hash20:" ++ hash ++ ascii "4:wantl2:n42:n6e" ++ ascii "e1:q9:get_peers1:v4:" ++ name ++
    ascii "1:t2:" ++ le16b transaction ++ ascii "1:y1:qe"

/-- Core/Dht/Query.cpp:355-376 `FindNode::createRequest` with both protocols. -/
def findNodeRequest (me hash : List UInt8) (transaction : Nat) : List UInt8 :=
  ascii "d1:ad2:id20:" ++ me ++ ascii "6:target20:" ++ hash ++ ascii "4:wantl2:n42:n6e" ++ ascii "e1:q9:find_node" ++
    ascii "1:t2:" ++ le16b transaction ++ ascii "1:y1:qe"

/-- Core/Dht/Query.cpp:576-586 `PingNodes::createRequest`. -/
def pingRequest (me : List UInt8) (transaction : Nat) : List UInt8 :=
  ascii "d1:ad2:id20:" ++ me ++ ascii "e1:q4:ping1:t2:" ++ le16b transaction ++ ascii "1:y1:qe"

/-- Core/Dht/Query.cpp:686-714 `AnnouncePeer`: the packet sent. -/
def announceRequest (me infohash token : List UInt8) (tcpPort udpPort transaction : Nat) : List UInt8 :=
  ascii "d1:ad2:id20:" ++ me ++ (if tcpPort = udpPort then ascii "12:implied_porti1e" else []) ++ ascii "4:porti" ++ dec udpPort ++ ascii "e" ++
    ascii "9:info_hash20:" ++ infohash ++ ascii "5:token" ++ dec token.length ++ ascii ":" ++ token ++ ascii "e1:q13:announce_peer1:t2:" ++
    le16b transaction ++ ascii "1:y1:qe"

/-- Core/Dht/Query.h:15-22 `GetPeersResponse`; `id` is uninitialised memory unless set. -/
structure Response where
  transaction : Nat := 0
  id : Id
  token : List UInt8 := []
  nodes : List NodeInfo := []
  values : List Addr := []
  result : Int := 0
deriving DecidableEq, Repr

/-- Core/Dht/Query.cpp:166-173, 180-187: the loop over compact nodes, at `pos` of `size`; `buf` is the
memory from `nodes->data` on and `junk` the memory of a fresh address. -/
def nodesLoop (junk buf : List UInt8) (v6 : Bool) (size : Int) : Nat → Nat → List NodeInfo → Res (List NodeInfo)
  | 0, _, _ => .diverge
  | n + 1, pos, nodes =>
    if (pos : Int) < size then do
      let r ← NodeInfo.parse junk (buf.drop pos) v6
      nodesLoop junk buf v6 size n (pos + r.1) (if nodes.any (·.same r.2) then nodes else nodes ++ [r.2])
    else .ok nodes

/-- Core/Dht/Query.cpp:162-174 or 176-188. -/
def parseNodes (junk mem : List UInt8) (objs : List Obj) (r : Nat) (name : List UInt8) (v6 : Bool) (nodes : List NodeInfo) : Res (List NodeInfo) := do
  match ← findKey mem objs r name .text with
  | some j => do
    let o ← rd objs j
    nodesLoop junk (mem.drop o.data) v6 o.size (mem.length + 1) 0 nodes
  | none => pure nodes

/-- Core/Dht/Query.cpp:195-196 for the objects of the list `values`; utils/Network.cpp:98-106 `parse`. The
size only tells the families apart. -/
def valuesParse (junk mem : List UInt8) (objs : List Obj) : List Nat → Res (List Addr)
  | [] => .ok []
  | k :: ks => do
    let o ← rd objs k
    let a ← if o.type = .text then do
        let r ← Addr.parse ⟨junk, 0, false⟩ (mem.drop o.data) (decide (o.size ≥ 18))
        pure [r.2]
      else pure []
    let as ← valuesParse junk mem objs ks
    pure (a ++ as)

/-- Core/Dht/Query.cpp:148-152: whether `y` is absent or its first byte in memory is 'r'. -/
def typeIsReply (mem : List UInt8) (objs : List Obj) : Res Bool := do
  match ← findKey mem objs 0 (ascii "y") .text with
  | some j => do
    let o ← rd objs j
    let c ← rd mem o.data
    pure (c == chr 'r')
  | none => pure true

/-- Core/Dht/Query.cpp:154-158: two bytes are read whatever the size. -/
def transactionOf (mem : List UInt8) (objs : List Obj) : Res Nat := do
  match ← findKey mem objs 0 (ascii "t") .text with
  | some j => do
    let o ← rd objs j
    if o.size ≠ 0 then do
      let a ← rd mem o.data
      let b ← rd mem (o.data + 1)
      pure (a.toNat + 256 * b.toNat)
    else pure 0
  | none => pure 0

/-- Core/Dht/Query.cpp:190-200; the links of the list are followed before the values are read. -/
def parseValues (junk mem : List UInt8) (objs : List Obj) (r : Nat) : Res (List Addr) := do
  match ← findKey mem objs r (ascii "values") .list with
  | some l => do
    let ks ← items objs l
    valuesParse junk mem objs ks
  | none => pure []

/-- Core/Dht/Query.cpp:202-205. -/
def parseToken (mem : List UInt8) (objs : List Obj) (r : Nat) : Res (List UInt8) := do
  match ← findKey mem objs r (ascii "token") .text with
  | some j => do
    let o ← rd objs j
    copyText mem o
  | none => pure []

/-- Core/Dht/Query.cpp:216-220; the type of the first element is not looked at, and lists and dictionaries
have a null `data` (utils/BencodeParser.h:20). -/
def parseError (mem : List UInt8) (objs : List Obj) : Res Int := do
  match ← findKey mem objs 0 (ascii "e") .list with
  | some l => do
    match ← firstItem objs l with
    | some k => do
      let o ← rd objs k
      if o.type = .list ∨ o.type = .dictionary then .ub else getInt mem o
    | none => pure 0
  | none => pure 0

/-- Which of the three parsers: `GetPeers`, `FindNode` or `PingNodes`. -/
inductive Asked
  | peers
  | nodes
  | ping
deriving DecidableEq, Repr

/-- Core/Dht/Query.cpp:160-214 (`peers`), 490-526 (`nodes`) and 656-663 (`ping`): the dictionary `r`. -/
def parseBody (asked : Asked) (junk mem : List UInt8) (objs : List Obj) (resp : Response) : Res Response := do
  match ← findKey mem objs 0 (ascii "r") .dictionary with
  | some r => do
    let nodes ← if asked = .ping then pure [] else parseNodes junk mem objs r (ascii "nodes") false []
    let nodes ← if asked = .ping then pure [] else parseNodes junk mem objs r (ascii "nodes6") true nodes
    let values ← if asked = .peers then parseValues junk mem objs r else pure []
    let token ← if asked = .peers then parseToken mem objs r else pure []
    let id ← getTxtItem mem objs r (ascii "id")
    let id := match id with
      | some id => if id.length = 20 then id else resp.id
      | none => resp.id
    pure { resp with nodes := nodes, values := values, token := token, id := id }
  | none => pure resp

/-- Core/Dht/Query.cpp:138-225, 469-536 and 635-675 on the parsed objects; `uninit` is the memory
`id` is made of. -/
def parseResponseObjs (asked : Asked) (junk uninit mem : List UInt8) (objs : List Obj) : Res Response := do
  let some root := getRoot objs | pure { id := uninit }
  if root.type ≠ .dictionary then pure { id := uninit }
  else do
    let isReply ← typeIsReply mem objs
    if isReply = false then pure { id := uninit }
    else do
      let t ← transactionOf mem objs
      let resp ← parseBody asked junk mem objs { id := uninit, transaction := t }
      let e ← parseError mem objs
      pure { resp with result := e }

/-- Core/Dht/Query.cpp:138-225 `parseGetPeersResponse`, 469-536 `parseFindNodeResponse` and 635-675
`PingNodes::parseResponse`, in which `uninit` is zeros; `after` is the memory behind the message. -/
def parseResponse (asked : Asked) (junk uninit : List UInt8) (fuel : Nat) (data after : List UInt8) : Res Response := do
  let p ← parse fuel data after
  parseResponseObjs asked junk uninit (data ++ after) p.objs

/-- Core/Dht/Query.cpp:234-236, 263-264 with Core/Dht/Communication.cpp:262-265: the announce sent after a
response, if any, to a request with `transaction` sent to `node`. -/
def announceAfter (me : Id) (node : NodeInfo) (transaction : Nat) (resp : Response) (tcpPort udpPort nextTransaction : Nat) :
    Option (List UInt8) :=
  if resp.transaction = transaction ∧ node.id = resp.id ∧ resp.token ≠ [] then
    some (announceRequest me resp.id resp.token tcpPort udpPort nextTransaction)
  else none

end Verif.Dht
