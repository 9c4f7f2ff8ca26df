import Verif.Common
import Verif.Model.Bencode
/-! Network addresses, utils/Network.cpp, and DHT node ids, Core/Dht/Node.cpp. -/

namespace Verif.Net
open Verif

/-- utils/Network.h:14-47. `bytes` is the array of 16; after an IPv4 address its last 12 bytes are
whatever was there before (uninitialised memory is modelled as arbitrary bytes). -/
structure Addr where
  bytes : List UInt8
  port : Nat
  ipv6 : Bool
deriving DecidableEq, Repr

/-- utils/Network.cpp:4-7. -/
def Addr.empty : Addr := ⟨List.replicate 16 0, 0, false⟩

/-- The number of address bytes used. -/
def Addr.size (ipv6 : Bool) : Nat := if ipv6 then 16 else 4

/-- utils/Network.cpp:57-62 `set(ip, port, isIpv6)`; `old` is the object before. -/
def Addr.set (old : Addr) (ip : List UInt8) (port : Nat) (ipv6 : Bool) : Res Addr :=
  if Addr.size ipv6 ≤ ip.length then
    .ok ⟨ip.take (Addr.size ipv6) ++ old.bytes.drop (Addr.size ipv6), port, ipv6⟩
  else .ub

/-- utils/Network.cpp:98-106 `parse`; `buf` is the memory at `buffer`. -/
def Addr.parse (old : Addr) (buf : List UInt8) (v6 : Bool) : Res (Nat × Addr) :=
  let n := Addr.size v6
  if n + 2 ≤ buf.length then
    .ok (2 + n, ⟨buf.take n ++ old.bytes.drop n, beVal ((buf.drop n).take 2), v6⟩)
  else .ub

/-- utils/Network.cpp:175-184 `toData`. -/
def Addr.toData (a : Addr) : List UInt8 := a.bytes.take (Addr.size a.ipv6) ++ be16 a.port

/-- `memcmp(...) < 0` on byte sequences of the same length. -/
def lexLt : List UInt8 → List UInt8 → Bool
  | a :: as, b :: bs => if a ≠ b then a < b else lexLt as bs
  | _, _ => false

/-- utils/Network.cpp:191-194 `operator<`. -/
def Addr.lt (a r : Addr) : Bool :=
  a.port < r.port || (a.port == r.port && lexLt (a.bytes.take (Addr.size a.ipv6)) (r.bytes.take (Addr.size a.ipv6)))

/-- utils/Network.cpp:196-199 `operator==`. -/
def Addr.eq (a r : Addr) : Bool :=
  a.port == r.port && a.bytes.take (Addr.size a.ipv6) == r.bytes.take (Addr.size a.ipv6)

/-- utils/Network.cpp:186-189 `valid`. -/
def Addr.valid (a : Addr) : Bool := a.port != 0

/-- utils/Network.cpp:122-137 `iToString`. -/
def iToString (i : Nat) (s : List UInt8) : List UInt8 :=
  let (i, s) := if i > 99 then (i - i / 100 * 100, s ++ [UInt8.ofNat (48 + i / 100)]) else (i, s)
  let (i, s) := if i > 9 then (i - i / 10 * 10, s ++ [UInt8.ofNat (48 + i / 10)]) else (i, s)
  s ++ [UInt8.ofNat (48 + i)]

/-- utils/Network.cpp:154-159: the digits of the port, written from the back. -/
def portDigits (p : Nat) (acc : List UInt8) : List UInt8 :=
  if p / 10 = 0 then UInt8.ofNat (48 + p % 10) :: acc else portDigits (p / 10) (UInt8.ofNat (48 + p % 10) :: acc)
termination_by p
decreasing_by omega

/-- utils/Network.cpp:139-163 `toIpv4String`. -/
def toIpv4String (b : List UInt8) (port : Nat) : Res (List UInt8) := do
  let b0 ← rd b 0
  let b1 ← rd b 1
  let b2 ← rd b 2
  let b3 ← rd b 3
  let s := iToString b0.toNat [] ++ [chr '.']
  let s := iToString b1.toNat s ++ [chr '.']
  let s := iToString b2.toNat s ++ [chr '.']
  let s := iToString b3.toNat s ++ [chr ':']
  pure (s ++ portDigits port [])

end Verif.Net

namespace Verif.Dht
open Verif Net

/-- Core/Dht/Node.h:8-25 `NodeId`: 20 bytes. -/
abbrev Id := List UInt8

/-- Core/Dht/Node.cpp:67-77 `distance`. -/
def distance (l r : Id) : Id := List.zipWith (· ^^^ ·) l r

/-- Core/Dht/Node.cpp:88-89 `while (d >>= 1) l++`. -/
def shifts (d : Nat) : Nat := if d / 2 = 0 then 0 else shifts (d / 2) + 1
termination_by d
decreasing_by omega

/-- Core/Dht/Node.cpp:79-96 `length`; the byte at index `i` of 20 has `19 - i` bytes behind it. -/
def length : Id → Nat
  | [] => 0
  | a :: t => if a ≠ 0 then t.length * 8 + shifts a.toNat else length t

/-- Core/Dht/Node.cpp:20-33 `closerToNodeThan`. -/
def closerToNodeThan (a maxDistance target : Id) : Bool :=
  let dist := distance a target
  if length dist ≠ 0 then lexLt dist maxDistance else false

/-- Core/Dht/Node.cpp:35-40 `closerThan`. -/
def closerThan (a other target : Id) : Bool := closerToNodeThan a (distance other target) target

/-- Core/Dht/Node.cpp:111-120 `operator<`. -/
def idLt (l r : Id) : Bool := lexLt l r

/-- Core/Dht/Node.h:29-36 `NodeInfo`; equal when the ids are (Core/Dht/Node.cpp:106-109). -/
structure NodeInfo where
  id : Id
  addr : Addr
deriving DecidableEq, Repr

/-- Core/Dht/Node.cpp:98-104 `NodeInfo::parse` into a fresh object; `junk` is its uninitialised
memory. -/
def NodeInfo.parse (junk : List UInt8) (buf : List UInt8) (v6 : Bool) : Res (Nat × NodeInfo) :=
  if 20 ≤ buf.length then do
    let r ← Addr.parse ⟨junk, 0, false⟩ (buf.drop 20) v6
    pure (20 + r.1, ⟨buf.take 20, r.2⟩)
  else .ub

/-- Core/Dht/Node.cpp:106-109 `NodeInfo::operator==`. -/
def NodeInfo.same (a b : NodeInfo) : Bool := a.id == b.id

end Verif.Dht
