import Verif.Model.Bencode
/-! Bencoded values and their encoding. -/

namespace Verif.Bencode
open Verif

/-- Bencoded values; dictionaries are sequences of entries, in any order and with repeated keys. -/
inductive BVal where
  | int (n : Nat)
  | str (s : List UInt8)
  | list (vs : List BVal)
  | dict (kvs : List (List UInt8 × BVal))

/-- The encoding of a byte string. -/
def encStr (s : List UInt8) : List UInt8 := dec s.length ++ chr ':' :: s

mutual
/-- The encoding of a value (BEP 3). -/
def BVal.enc : BVal → List UInt8
  | .int n => chr 'i' :: dec n ++ [chr 'e']
  | .str s => encStr s
  | .list vs => chr 'l' :: encList vs ++ [chr 'e']
  | .dict kvs => chr 'd' :: encDict kvs ++ [chr 'e']
def encList : List BVal → List UInt8
  | [] => []
  | v :: vs => v.enc ++ encList vs
def encDict : List (List UInt8 × BVal) → List UInt8
  | [] => []
  | kv :: kvs => encStr kv.1 ++ kv.2.enc ++ encDict kvs
end

mutual
/-- Writing a value with the calls of the writer. -/
def BVal.write : BVal → List UInt8 → List UInt8
  | .int n, d => addNumber d n
  | .str s, d => addText d s
  | .list vs, d => endArray (writeList vs (startArray d))
  | .dict kvs, d => endMap (writeDict kvs (startMap d))
def writeList : List BVal → List UInt8 → List UInt8
  | [], d => d
  | v :: vs, d => writeList vs (v.write d)
def writeDict : List (List UInt8 × BVal) → List UInt8 → List UInt8
  | [], d => d
  | kv :: kvs, d => writeDict kvs (kv.2.write (addText d kv.1))
end

mutual
/-- Number of parser objects of a value: one for each value and each key. -/
def BVal.count : BVal → Nat
  | .int _ => 1
  | .str _ => 1
  | .list vs => 1 + countList vs
  | .dict kvs => 1 + countDict kvs
def countList : List BVal → Nat
  | [] => 0
  | v :: vs => v.count + countList vs
def countDict : List (List UInt8 × BVal) → Nat
  | [] => 0
  | kv :: kvs => 1 + kv.2.count + countDict kvs
end

mutual
/-- Numbers fit 64 bits, strings have fewer than 2^31 bytes. -/
def BVal.fits : BVal → Prop
  | .int n => n < 18446744073709551616
  | .str s => s.length < 2147483648
  | .list vs => fitsList vs
  | .dict kvs => fitsDict kvs
def fitsList : List BVal → Prop
  | [] => True
  | v :: vs => v.fits ∧ fitsList vs
def fitsDict : List (List UInt8 × BVal) → Prop
  | [] => True
  | kv :: kvs => kv.1.length < 2147483648 ∧ kv.2.fits ∧ fitsDict kvs
end

mutual
/-- What a user of the parser sees starting from object `k`, going through the public calls
(`isInt`/`isText`/`isList`/`isMap`, `getBigInt`, `toString`, `getFirstItem`, `getNextSibling`). -/
def tree (mem : List UInt8) (objs : List Obj) : Nat → Nat → Res BVal
  | 0, _ => .diverge
  | n + 1, k => do
    let o ← rd objs k
    match o.type with
    | .number => do
      let v ← getBigInt mem o
      pure (.int v)
    | .text => pure (.str (o.bytes mem))
    | .list => do
      let f ← firstItem objs k
      let vs ← treeItems mem objs n f
      pure (.list vs)
    | .dictionary => do
      let f ← firstItem objs k
      let kvs ← treeEntries mem objs n f
      pure (.dict kvs)
    | .none => .ub
def treeItems (mem : List UInt8) (objs : List Obj) : Nat → Option Nat → Res (List BVal)
  | _, none => .ok []
  | 0, some _ => .diverge
  | n + 1, some k => do
    let v ← tree mem objs n k
    let nx ← nextSibling objs k
    let vs ← treeItems mem objs n nx
    pure (v :: vs)
def treeEntries (mem : List UInt8) (objs : List Obj) : Nat → Option Nat → Res (List (List UInt8 × BVal))
  | _, none => .ok []
  | 0, some _ => .diverge
  | n + 1, some k => do
    let key ← rd objs k
    let vi ← nextSibling objs k
    match vi with
    | none => .ub
    | some vi => do
      let v ← tree mem objs n vi
      let nx ← nextSibling objs vi
      let kvs ← treeEntries mem objs n nx
      pure ((key.bytes mem, v) :: kvs)
end

end Verif.Bencode
