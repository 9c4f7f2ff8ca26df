import Verif.Model.Pex
import Verif.Spec.Bencode
/-! What peer exchange messages have to say. -/

namespace Verif.Spec.Exchange
open Verif Net Pex

/-- An IPv4 address. -/
def V4 (a : Addr) : Prop := a.ipv6 = false ∧ a.bytes.length = 16 ∧ a.port < 65536

/-- The address as it is told to others: four bytes and the port. -/
def wire (a : Addr) : List UInt8 × Nat := (a.bytes.take 4, a.port)

/-- The connections at the latest update and at the one before; whether at any update so far some
connection was gone. -/
structure Snap where
  time : Nat
  before : List Peer := []
  latest : List Peer := []
  shrunk : Bool := false

/-- The connection is among those. -/
def among (k : List UInt8 × Nat) (ps : List Peer) : Prop := k ∈ ps.map (fun p => wire p.addr)

instance (k : List UInt8 × Nat) (ps : List Peer) : Decidable (among k ps) := by unfold among; infer_instance

/-- Once in 60 seconds the connections are looked at. -/
def Snap.step (s : Snap) (t : Nat × List Peer) : Snap :=
  if s.time + 60 ≤ t.1 then
    { time := t.1, before := s.latest, latest := t.2,
      shrunk := s.shrunk || s.latest.any (fun p => !decide (among (wire p.addr) t.2)) }
  else s

/-- The ticks so far. -/
def snaps (t0 : Nat) (ts : List (Nat × List Peer)) : Snap := ts.foldl Snap.step { time := t0 }

/-- `d` is a whole message to a peer that numbers the extension `id`; a reader finds exactly the peers
`added` with their flags and the addresses `dropped`, each once. -/
def Says (d : List UInt8) (id : UInt8) (added : List Peer) (dropped : List UInt8 × Nat → Prop) : Prop :=
  ∃ (payload : List UInt8) (m : Msg), d = be32 (payload.length + 2) ++ [20, id] ++ payload ∧
    (∀ fuel after, payload.length ≤ fuel → after ≠ [] → load fuel payload after = .ok (some m)) ∧
    m.added.map wire = added.map (fun p => wire p.addr) ∧ (added ≠ [] → m.addedFlags = some (added.map (·.flags))) ∧
    m.added6 = [] ∧ (m.dropped.map wire).Nodup ∧ ∀ k, k ∈ m.dropped.map wire ↔ dropped k

/-- What the history may be: IPv4 connections, fewer than 2^28 of them; time in 64 bits. -/
def Usual (ts : List (Nat × List Peer)) : Prop :=
  ∀ t ∈ ts, 60 ≤ t.1 ∧ t.1 < 2 ^ 64 ∧ t.2.length < 2 ^ 28 ∧ ∀ p ∈ t.2, V4 p.addr

end Verif.Spec.Exchange

/-! ### Reading -/

namespace Verif.Spec.Exchange
open Verif Net Pex Bencode

/-- The bytes of an address, and of its port, one after the other: address number `i`. -/
def addrAt (v6 : Bool) (s : List UInt8) (i : Nat) : Addr :=
  let n := if v6 then 16 else 4
  let g := s.drop (i * (n + 2))
  ⟨g.take n ++ List.replicate (16 - n) 0, beVal ((g.drop n).take 2), v6⟩

/-- All whole addresses. -/
def addrs (v6 : Bool) (s : List UInt8) : List Addr :=
  (List.range (s.length / (if v6 then 18 else 6))).map (addrAt v6 s)

/-- The first text of that name. -/
def text (kvs : List (List UInt8 × BVal)) (name : String) : Option (List UInt8) :=
  kvs.findSome? (fun kv => match kv.2 with
    | .str s => if kv.1 = ascii name then some s else none
    | _ => none)

/-- The flags, if there are as many as addresses. -/
def flagsFor (as : List Addr) (fs : Option (List UInt8)) : Option (List UInt8) := fs.filter (fun f => f.length == as.length)

/-- What is in a dictionary. -/
def inDict (kvs : List (List UInt8 × BVal)) : Msg :=
  let a := addrs false ((text kvs "added").getD [])
  let a6 := addrs true ((text kvs "added6").getD [])
  { added := a, addedFlags := flagsFor a (text kvs "added.f"), added6 := a6, added6Flags := flagsFor a6 (text kvs "added6.f"),
    dropped := addrs false ((text kvs "dropped").getD []) }

end Verif.Spec.Exchange
