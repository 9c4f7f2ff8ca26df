import Verif.Model.BencodeGet
import Verif.Model.Addr
/-! Peer exchange (Core/PexExtension.cpp). -/

namespace Verif.Pex
open Verif Bencode Net

/-- What `update` looks at in a connection: its address and, from its state, the flags
(Core/PexExtension.cpp:95-103). -/
structure Peer where
  addr : Addr
  flags : UInt8
deriving DecidableEq, Repr

/-- Core/PexExtension.h:26-33 `Message`; `none` for views that were not set. -/
structure Msg where
  added : List Addr := []
  addedFlags : Option (List UInt8) := none
  added6 : List Addr := []
  added6Flags : Option (List UInt8) := none
  dropped : List Addr := []
deriving DecidableEq, Repr

/-- Core/PexExtension.h:35-54 `LocalData`; `off0`, `off1` are `droppedDataOffset`. -/
structure Local where
  pexData : List UInt8 := []
  dataTime : Nat
  off0 : Nat := 0
  off1 : Nat := 0
  dataPeers : List Addr := []
  hash : Nat := 0
deriving DecidableEq, Repr

/-- Core/PexExtension.h:56-68 `Remote`; `messageId` is 0 and `peer` null (`false`) until the
handshake (Core/ExtensionProtocol.cpp:5-14). `peers` are the addresses of `wasConnected`. -/
structure Remote where
  messageId : UInt8 := 0
  peer : Bool := false
  lastHash : Nat := 0
  lastSendTime : Nat := 0
deriving DecidableEq, Repr

/-- Same place in a `std::set<Addr>`. -/
def sameKey (a b : Addr) : Bool := !a.lt b && !b.lt a

/-- `std::set<Addr>::insert`: in order, unless an equivalent one is there. With addresses of both kinds
`operator<` is not an order (utils/Network.cpp:191-194) and what the set does is not specified; the
model then still keeps a list. -/
def setInsert (s : List Addr) (a : Addr) : List Addr :=
  if s.any (sameKey a) then s else s.takeWhile (fun x => x.lt a) ++ a :: s.dropWhile (fun x => x.lt a)

/-- `find` and `erase` in a `std::set<Addr>`. -/
def setErase (s : List Addr) (a : Addr) : List Addr := s.filter (fun x => !sameKey a x)

/-- Core/PexExtension.cpp:13-16 `setBufferSizeHeader`: the length in front. -/
def setSize (d : List UInt8) : List UInt8 := be32 (d.length - 4) ++ d.drop 4

/-- Core/PexExtension.cpp:39-44. -/
def writeAdded (d : List UInt8) (m : Msg) : List UInt8 :=
  if m.added ≠ [] then
    let d := addRawItemText d (ascii "5:added") (m.added.flatMap Addr.toData)
    if (m.addedFlags.getD []).length = m.added.length then
      addRawItemFromBuffer d (ascii "7:added.f") (m.addedFlags.getD [])
    else d
  else d

/-- Core/PexExtension.cpp:53-55. -/
def writeDropped (d : List UInt8) (m : Msg) : List UInt8 :=
  addRawItemText d (ascii "7:dropped") (m.dropped.flatMap Addr.toData)

/-- Core/PexExtension.cpp:23-67 `createPexMessage` (PeerMessage::Extended is 20). The length bytes are
set at the end, so what the four bytes held before does not matter. -/
def createPexMessage (l : Local) (m : Msg) : Local :=
  let d := startMap ([0, 0, 0, 0] ++ [20] ++ [0])
  let d := writeAdded d m
  let off0 := if m.dropped ≠ [] then d.length else 0
  let d := if m.dropped ≠ [] then writeDropped d m else d
  let off1 := if m.dropped ≠ [] then d.length else l.off1
  let d := setSize (endMap d)
  { l with pexData := if d.length = 8 then [] else d, off0 := off0, off1 := off1 }

/-- Core/PexExtension.cpp:86-115: the loop over the connections: message, new set, old set. -/
def updateLoop : List Peer → List Addr × List UInt8 → List Addr → List Addr → List Addr × List UInt8 × List Addr × List Addr
  | [], m, new, old => (m.1, m.2, new, old)
  | p :: ps, m, new, old =>
    let m := if m.2.length < 50 ∧ ¬ p.addr.ipv6 then (m.1 ++ [p.addr], m.2 ++ [p.flags]) else m
    updateLoop ps m (setInsert new p.addr) (setErase old p.addr)

/-- `now - UpdateFreq` in 64 bits without a sign (Core/PexExtension.cpp:72, :228); `UpdateFreq` is 60
(Core/PexExtension.h:16) and `now` is smaller than 2^64. -/
def minuteAgo (now : Nat) : Nat := if 60 ≤ now then now - 60 else now + (18446744073709551616 - 60)

/-- Core/PexExtension.cpp:69-128 `LocalData::update` at the time `now`. `hashOf` stands for
`BufferHash` (utils/SHA.cpp:300-309: 0 for nothing, else the first bytes of a SHA-1). -/
def update (hashOf : List UInt8 → Nat) (l : Local) (now : Nat) (peers : List Peer) : Local :=
  if minuteAgo now < l.dataTime then l
  else
    let r := updateLoop peers ([], []) [] l.dataPeers
    let l := { l with dataTime := now, dataPeers := r.2.2.1 }
    let l := createPexMessage l { added := r.1, addedFlags := some r.2.1, dropped := r.2.2.2 }
    { l with hash := if l.pexData = [] then 0 else hashOf l.pexData }

/-- Core/PexExtension.cpp:142-154 `createFirstPexData`. `erase` from `off0` to `off1`; the length is
written into the first four bytes of what remains. -/
def createFirst (l : Local) : Res (List UInt8) :=
  if l.pexData ≠ [] ∧ l.off1 < l.pexData.length then
    let d := l.pexData.take l.off0 ++ l.pexData.drop l.off1
    if 4 ≤ d.length then .ok (setSize d) else .ub
  else .ok l.pexData

/-- Core/PexExtension.cpp:222-237 `Remote::update`: what is sent. -/
def remoteUpdate (r : Remote) (l : Local) (now : Nat) : Res (Remote × Option (List UInt8)) :=
  if r.lastHash = l.hash ∨ l.hash = 0 ∨ r.peer = false then .ok (r, none)
  else if r.lastSendTime ≠ 0 ∧ minuteAgo now < r.lastSendTime then .ok (r, none)
  else do
    let d ← if r.lastSendTime ≠ 0 then pure l.pexData else createFirst l
    if 5 < d.length then
      pure ({ r with lastSendTime := now, lastHash := l.hash }, some (d.set 5 r.messageId))
    else .ub

/-- Core/Peers.cpp:481-502 `update`, its part about peer exchange, with one of the connections: what it
is sent. -/
def tick (hashOf : List UInt8 → Nat) (l : Local) (r : Remote) (now : Nat) (peers : List Peer) :
    Res (Local × Remote × Option (List UInt8)) := do
  let l := update hashOf l now peers
  let (r, out) ← remoteUpdate r l now
  pure (l, r, out)

/-- A run of ticks; what is sent at each. -/
def run (hashOf : List UInt8 → Nat) (l : Local) (r : Remote) : List (Nat × List Peer) → Res (List (Option (List UInt8)))
  | [] => .ok []
  | t :: ts => do
    let (l, r, out) ← tick hashOf l r t.1 t.2
    let outs ← run hashOf l r ts
    pure (out :: outs)

/-! ### Reading -/

/-- utils/BencodeParser.cpp:256-273 `popTxtItem`, the item found. It empties the name of the item so
that it is not found again; here every name is asked for once. -/
def popTxt (mem : List UInt8) (objs : List Obj) (name : List UInt8) : Res (Option Obj) := do
  match ← findKey mem objs 0 name .text with
  | some j => do
    let o ← rd objs j
    pure (some o)
  | none => pure none

/-- Core/PexExtension.cpp:173-178, :192-196, :210-214: so many addresses from `mem`. -/
def addrLoop (v6 : Bool) : Nat → List UInt8 → Res (List Addr)
  | 0, _ => .ok []
  | n + 1, mem => do
    let r ← Addr.parse Addr.empty mem v6
    let rest ← addrLoop v6 n (mem.drop (Addr.size v6 + 2))
    pure (r.2 :: rest)

/-- The addresses of one item. The loop takes an address while `size - pos`, a `uint32_t`, is not smaller
than one: as often as it fits into the size. `reserve` with the count of a negative size throws (nobody catches it,
which is counted as undefined behaviour). -/
def addrItem (v6 : Bool) (mem : List UInt8) : Option Obj → Res (List Addr)
  | none => .ok []
  | some o =>
    if Int.tdiv o.size (Addr.size v6 + 2 : Nat) < 0 then .ub
    else addrLoop v6 ((o.size % 4294967296).toNat / (Addr.size v6 + 2)) (mem.drop o.data)

/-- The flags, when there are as many as addresses: Core/PexExtension.cpp:181-185, :199-203. -/
def flagItem (mem : List UInt8) (count : Nat) : Option Obj → Option (List UInt8)
  | none => none
  | some o => if (o.size % 18446744073709551616).toNat = count then some (o.bytes mem) else none

/-- Core/PexExtension.cpp:156-220 `Remote::load`; `after` is the memory behind the message. -/
def load (fuel : Nat) (data after : List UInt8) : Res (Option Msg) := do
  let mem := data ++ after
  let p ← parse fuel data after
  match getRoot p.objs with
  | none => pure none
  | some root =>
    if root.type ≠ .dictionary then pure none
    else do
      let added ← popTxt mem p.objs (ascii "added")
      let addedPeers ← addrItem false mem added
      let addedF ← popTxt mem p.objs (ascii "added.f")
      let added6 ← popTxt mem p.objs (ascii "added6")
      let added6Peers ← addrItem true mem added6
      let added6F ← popTxt mem p.objs (ascii "added6.f")
      let dropped ← popTxt mem p.objs (ascii "dropped")
      let droppedPeers ← addrItem false mem dropped
      pure (some { added := addedPeers, addedFlags := flagItem mem addedPeers.length addedF, added6 := added6Peers,
                   added6Flags := flagItem mem added6Peers.length added6F, dropped := droppedPeers })

end Verif.Pex
