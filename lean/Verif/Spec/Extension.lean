import Verif.Spec.Bencode
import Verif.Model.Addr
/-! What the extended handshake says (BEP 10), and what hole punching is for (BEP 55). -/

namespace Verif.Spec.Ext
open Verif Bencode Net

/-- The number last given for the name in "m". -/
def number (m : List (List UInt8 × BVal)) (name : String) : Option Nat :=
  m.reverse.findSome? (fun kv => match kv.2 with
    | .int n => if kv.1 = ascii name then some n else none
    | _ => none)

/-- The first dictionary of that name. -/
def dictOf (kvs : List (List UInt8 × BVal)) (name : String) : Option (List (List UInt8 × BVal)) :=
  kvs.findSome? (fun kv => match kv.2 with
    | .dict d => if kv.1 = ascii name then some d else none
    | _ => none)

/-- The first text of that name. -/
def textOf (kvs : List (List UInt8 × BVal)) (name : String) : Option (List UInt8) :=
  kvs.findSome? (fun kv => match kv.2 with
    | .str s => if kv.1 = ascii name then some s else none
    | _ => none)

/-- The first number of that name. -/
def numberOf (kvs : List (List UInt8 × BVal)) (name : String) : Option Nat :=
  kvs.findSome? (fun kv => match kv.2 with
    | .int n => if kv.1 = ascii name then some n else none
    | _ => none)

/-- The number of the extension: a byte. -/
def idOf (kvs : List (List UInt8 × BVal)) (name : String) : Option Nat :=
  (number ((dictOf kvs "m").getD []) name).map (· % 256)

/-- All values in the dictionary "m" are numbers. -/
def Numbers (kvs : List (List UInt8 × BVal)) : Prop :=
  ∀ d, dictOf kvs "m" = some d → ∀ kv ∈ d, ∃ n, kv.2 = .int n ∧ n < 2 ^ 63

/-- A whole address: 16 bytes are kept, of an IPv4 address the first four count. -/
def Whole (a : Addr) : Prop := a.bytes.length = 16 ∧ a.port < 65536

/-- The address as others see it: the bytes that count and the port. -/
def wire (a : Addr) : Bool × List UInt8 × Nat := (a.ipv6, a.bytes.take (if a.ipv6 then 16 else 4), a.port)

/-- An extended message, as framed on the wire. -/
def framed (id : Nat) (payload : List UInt8) : List UInt8 :=
  be32 (payload.length + 2) ++ [20, UInt8.ofNat id] ++ payload

/-- A message for hole punching: its kind (0 rendezvous, 1 connect, 2 error), the address, for an error its number. -/
def punch (kind : Nat) (a : Addr) (e : Nat) : List UInt8 :=
  [UInt8.ofNat kind, if a.ipv6 then 1 else 0] ++ a.bytes.take (if a.ipv6 then 16 else 4) ++ be16 a.port ++
    (if kind = 2 then be32 e else [])

end Verif.Spec.Ext
