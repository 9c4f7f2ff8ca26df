import Verif.Model.Bencode
/-! Reading of parsed bencode values: the accessors with a key name and the element loop. -/

namespace Verif.Bencode
open Verif

/-- utils/BencodeParser.cpp:303-307 `getInt(name)`. -/
def getIntKey (mem : List UInt8) (objs : List Obj) (k : Nat) (name : List UInt8) : Res Int := do
  match ← findKey mem objs k name .number with
  | some j => do
    let o ← rd objs j
    getInt mem o
  | none => pure 0

/-- utils/BencodeParser.cpp:314-318 `getBigInt(name)`. -/
def getBigIntKey (mem : List UInt8) (objs : List Obj) (k : Nat) (name : List UInt8) : Res Nat := do
  match ← findKey mem objs k name .number with
  | some j => do
    let o ← rd objs j
    getBigInt mem o
  | none => pure 0

/-- utils/BencodeParser.cpp:240-254 `getTxtItem`: the bytes of the item. -/
def getTxtItem (mem : List UInt8) (objs : List Obj) (k : Nat) (name : List UInt8) : Res (Option (List UInt8)) := do
  match ← findKey mem objs k name .text with
  | some j => do
    let o ← rd objs j
    pure (some (o.bytes mem))
  | none => pure none

/-- utils/BencodeParser.cpp:275-280 `getTxt(name)`. -/
def getTxtKey (mem : List UInt8) (objs : List Obj) (k : Nat) (name : List UInt8) : Res (List UInt8) := do
  let t ← getTxtItem mem objs k name
  pure (t.getD [])

/-- The loop over the elements of a list, utils/BencodeParser.h:53-65. -/
def itemsLoop (objs : List Obj) : Nat → Option Nat → Res (List Nat)
  | _, none => .ok []
  | 0, some _ => .diverge
  | n + 1, some k => do
    let nx ← nextSibling objs k
    let ks ← itemsLoop objs n nx
    pure (k :: ks)

/-- The elements of the list `k`. -/
def items (objs : List Obj) (k : Nat) : Res (List Nat) := do
  let f ← firstItem objs k
  itemsLoop objs (objs.length + 1) f

/-- utils/BencodeParser.cpp:203-206 `getRoot`. -/
def getRoot (objs : List Obj) : Option Obj := objs.head?

end Verif.Bencode
