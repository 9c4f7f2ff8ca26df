import Verif.Model.Bencode
/-!
Reading and writing XML (utils/Xml.h, utils/Xml.cpp).

Positions in the input are the rest of the input from there on.  Pointers to elements are indices, so going past the end of the
vector is undefined behaviour.
-/

namespace Verif.Xml
open Verif Bencode

/-- `Element::Type` (utils/Xml.h:13). -/
inductive Kind where
  | node | string | attribute | cdata
deriving DecidableEq, Repr

/-- `Element` (utils/Xml.h:10-30). -/
structure El where
  name : List UInt8
  kind : Kind
  hasValue : Bool := false
  next : Nat := 0
  first : Nat := 0
  attrs : Nat := 0
deriving DecidableEq, Repr

/-- `elements`, `currentTreeStack` (the last one first) and `prevSibling` (utils/Xml.cpp:17-23). -/
structure St where
  els : List El := []
  stack : List Nat := []
  prev : Nat := 0
deriving DecidableEq, Repr

/-- Changes one element. -/
def upd (els : List El) (k : Nat) (f : El → El) : List El :=
  match els[k]? with
  | some e => els.set k (f e)
  | none => els

/-- Text before a tag (utils/Xml.cpp:27-37). -/
def text (s : St) (t : List UInt8) : St :=
  if t = [] then s
  else match s.stack with
    | [] => s
    | k :: _ => { s with els := upd s.els k (fun e => { e with hasValue := true }) ++ [{ name := t, kind := .string }] }

/-- The contents up to the first `]]>`, and what follows it (utils/Xml.cpp:45-56).  The search starts two bytes
early, at `A[`, which cannot match. -/
def cdata : List UInt8 → Option (List UInt8 × List UInt8)
  | [] => none
  | c :: cs =>
    if c = chr ']' ∧ cs.take 2 = [chr ']', chr '>'] then some ([], cs.drop 2)
    else (cdata cs).map fun r => (c :: r.1, r.2)

/-- The attributes of a tag (utils/Xml.cpp:115-160): names and values; `none`: the text cannot be read.  Fuel: the
length of the text. -/
def attrs : Nat → List UInt8 → Option (List (List UInt8 × List UInt8))
  | 0, _ => some []
  | n + 1, l =>
    let l := l.dropWhile isSpace
    if l = [] then some []
    else
      let name := l.takeWhile fun c => c != chr '=' && !isSpace c
      match (l.dropWhile fun c => c != chr '=' && !isSpace c).dropWhile fun c => c != chr '=' with
      | [] => some []
      | _ :: l =>
        match l.dropWhile isSpace with
        | [] => none
        | q :: l =>
          if q = chr '\'' ∨ q = chr '"' then
            match l.dropWhile fun c => c != q with
            | [] => none
            | _ :: r => (attrs n r).map fun as => (name, l.takeWhile fun c => c != q) :: as
          else none

/-- The attributes are appended and counted, in 8 bits, at the open tag (utils/Xml.cpp:153-159). -/
def addAttrs (s : St) : List (List UInt8 × List UInt8) → St
  | [] => s
  | a :: as =>
    match s.stack with
    | [] => addAttrs s as
    | k :: _ =>
      addAttrs { s with els := upd (s.els ++ [{ name := a.1, kind := .attribute, hasValue := true }, { name := a.2, kind := .string }]) k
                          (fun e => { e with attrs := (e.attrs + 1) % 256 }) } as

/-- A tag that opens an element (utils/Xml.cpp:101-111); offsets have 16 bits. -/
def openTag (s : St) (name : List UInt8) : St :=
  let els := if s.prev = 0 then s.els else upd s.els s.prev fun e => { e with next := (s.els.length - s.prev) % 65536 }
  let els := match s.stack with
    | [] => els
    | k :: _ => upd els k fun e => if e.first = 0 then { e with first := (s.els.length - k) % 65536 } else e
  { els := els ++ [{ name := name, kind := .node }], stack := s.els.length :: s.stack, prev := 0 }

/-- A tag that closes an element (utils/Xml.cpp:74-82). -/
def closeTag (s : St) : St :=
  match s.stack with
  | [] => s
  | k :: ks => { s with stack := ks, prev := k }

/-- A tag, the text between `<` and `>` (utils/Xml.cpp:59-160).  Elements that close themselves are left out, their
attributes are not.  `isspace` on a negative `char` is taken as false, as in glibc. -/
def tag (s : St) (t : List UInt8) : Option St :=
  let name := t.takeWhile fun c => !isSpace c
  let rest := t.dropWhile fun c => !isSpace c
  if t.head? = some (chr '/') then (attrs rest.length rest).map (addAttrs (closeTag s))
  else if t.getLast? = some (chr '/') ∨ (t.head? = some (chr '?') ∧ t.getLast? = some (chr '?')) then
    (attrs rest.length rest.dropLast).map (addAttrs s)
  else if 5 < t.length ∧ t.take 3 = ascii "!--" ∧ t.drop (t.length - 2) = ascii "--" then some s
  else (attrs rest.length rest).map (addAttrs (openTag s name))

/-- The loop of `Document::parse` (utils/Xml.cpp:25-161); `none`: `parse` returns false.  Fuel: one more than the
length of the input. -/
def loop : Nat → St → List UInt8 → Res (Option St)
  | 0, _, _ => .diverge
  | n + 1, s, l =>
    let s := text s (l.takeWhile fun c => c != chr '<')
    match l.dropWhile fun c => c != chr '<' with
    | [] => .ok (some s)
    | _ :: l =>
      if l.take 8 = ascii "![CDATA[" ∧ 8 < l.length then
        match cdata (l.drop 8) with
        | none => .ok none
        | some r => loop n { s with els := s.els ++ [{ name := r.1, kind := .cdata }] } r.2
      else match l.dropWhile fun c => c != chr '>' with
        | [] => .ok none
        | _ :: r =>
          match tag s (l.takeWhile fun c => c != chr '>') with
          | none => .ok none
          | some s => loop n s r

/-- `Document::parse` (utils/Xml.cpp:15-164): the elements, or false. -/
def parse (l : List UInt8) : Res (Option (List El)) :=
  (loop (l.length + 1) {} l).bind fun r =>
    match r with
    | none => .ok none
    | some s => .ok (if s.els ≠ [] ∧ s.stack = [] then some s.els else none)

/-! ### Looking at the elements -/

/-- `Element::value()` (utils/Xml.cpp:166-171). -/
def value (els : List El) (k : Nat) : Res (List UInt8) := do
  let e ← rd els k
  let v ← rd els (k + e.attrs + 1)
  pure (if (e.hasValue ∧ v.kind = .string) ∨ v.kind = .cdata then v.name else [])

/-- `nextSibling()` (utils/Xml.cpp:198-201). -/
def nextSibling (els : List El) (k : Nat) : Res (Option Nat) := do
  let e ← rd els k
  pure (if e.next = 0 then none else some (k + e.next))

/-- `firstNode()` (utils/Xml.cpp:219-222). -/
def firstChild (els : List El) (k : Nat) : Res (Option Nat) := do
  let e ← rd els k
  pure (if e.first = 0 then none else some (k + e.first))

/-- The loops of utils/Xml.cpp:204-217, 224-237.  Fuel: the number of elements. -/
def search (els : List El) (name : List UInt8) : Nat → Option Nat → Res (Option Nat)
  | _, none => .ok none
  | 0, some _ => .diverge
  | n + 1, some k => do
    let e ← rd els k
    if e.name = name then pure (some k)
    else
      let k ← nextSibling els k
      search els name n k

/-- `firstNode(name)` (utils/Xml.cpp:224-237). -/
def firstNode (els : List El) (k : Nat) (name : List UInt8) : Res (Option Nat) := do
  let c ← firstChild els k
  search els name els.length c

/-- `nextSibling(name)` (utils/Xml.cpp:204-217). -/
def nextNode (els : List El) (k : Nat) (name : List UInt8) : Res (Option Nat) := do
  let c ← nextSibling els k
  search els name els.length c

/-- `value(name)` (utils/Xml.cpp:185-191). -/
def valueOf (els : List El) (k : Nat) (name : List UInt8) : Res (List UInt8) := do
  match ← firstNode els k name with
  | some n => value els n
  | none => pure []

/-- `strtoull(v.data(), nullptr, 10)`.  The text goes on behind `v` with a `<`, a `]` or a quote, which ends any
number. -/
def strtoull (v : List UInt8) : Nat :=
  let l := v.dropWhile isSpace
  let neg := l.head? = some (chr '-')
  let l := if neg ∨ l.head? = some (chr '+') then l.drop 1 else l
  let n := decVal (l.takeWhile isDigit)
  if n ≥ 18446744073709551616 then 18446744073709551615
  else if neg then (18446744073709551616 - n) % 18446744073709551616
  else n

/-- `valueNumber()` (utils/Xml.cpp:179-183). -/
def valueNumber (els : List El) (k : Nat) : Res Nat := do
  let v ← value els k
  pure (if v = [] then 0 else strtoull v)

/-! ### Writer -/

/-- The line break before a tag (utils/Xml.cpp:248-251, 309-315). -/
def indent (depth : Nat) : List UInt8 := 10 :: List.replicate depth 9

/-- `Element(buffer, name)` (utils/Xml.cpp:239-244). -/
def openRoot (b name : List UInt8) : List UInt8 := b ++ [chr '<'] ++ name ++ [chr '>']

/-- `createChild` (utils/Xml.cpp:246-258, 275-278) for a child that is `depth` deep. -/
def openChild (b : List UInt8) (depth : Nat) (name : List UInt8) : List UInt8 :=
  b ++ indent depth ++ [chr '<'] ++ name ++ [chr '>']

/-- `Element(parent, name, attributes)` (utils/Xml.cpp:260-273). -/
def openAttrs (b : List UInt8) (depth : Nat) (name : List UInt8) (as : List (List UInt8 × List UInt8)) : List UInt8 :=
  (openChild b depth name).dropLast ++ (as.map fun a => [chr ' '] ++ a.1 ++ [chr '=', chr '"'] ++ a.2 ++ [chr '"']).flatten ++ [chr '>']

/-- `close` (utils/Xml.cpp:307-321). -/
def close (b : List UInt8) (depth : Nat) (hasChildren : Bool) (name : List UInt8) : List UInt8 :=
  (if hasChildren then b ++ indent depth else b) ++ [chr '<', chr '/'] ++ name ++ [chr '>']

/-- `addValue` (utils/Xml.cpp:280-285, 292-296) of an element whose children are `depth` deep. -/
def addValue (b : List UInt8) (depth : Nat) (name v : List UInt8) : List UInt8 :=
  close (openChild b depth name ++ v) depth false name

/-- `addValue` of a number (utils/Xml.cpp:287-290). -/
def addNumber (b : List UInt8) (depth : Nat) (name : List UInt8) (n : Nat) : List UInt8 := addValue b depth name (dec n)

/-- `addValueCData` (utils/Xml.cpp:298-305). -/
def addCData (b : List UInt8) (depth : Nat) (name v : List UInt8) : List UInt8 :=
  close (openChild b depth name ++ ascii "<![CDATA[" ++ v ++ ascii "]]>") depth false name

end Verif.Xml
