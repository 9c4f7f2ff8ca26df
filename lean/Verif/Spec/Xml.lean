import Verif.Model.Xml
/-! XML trees, how they are written, and what looking at them should show. -/

namespace Verif.Spec.XmlTree
open Verif

/-- An element with text, with CDATA, or with elements in it. -/
inductive Tree where
  | text (name v : List UInt8)
  | cdata (name v : List UInt8)
  | node (name : List UInt8) (kids : List Tree)

/-- The name of an element. -/
def Tree.name : Tree → List UInt8
  | .text n _ => n
  | .cdata n _ => n
  | .node n _ => n

/-- The elements in an element. -/
def Tree.kids : Tree → List Tree
  | .node _ cs => cs
  | _ => []

mutual
/-- The tree as text, with one element per line: the writer's calls for an element that is `d` deep. -/
def Tree.write (d : Nat) : Tree → List UInt8
  | .text n v => chr '<' :: n ++ chr '>' :: v ++ chr '<' :: chr '/' :: n ++ [chr '>']
  | .cdata n v => chr '<' :: n ++ chr '>' :: ascii "<![CDATA[" ++ v ++ ascii "]]>" ++ chr '<' :: chr '/' :: n ++ [chr '>']
  | .node n cs => chr '<' :: n ++ chr '>' :: writeKids (d + 1) cs ++ 10 :: List.replicate d 9 ++ chr '<' :: chr '/' :: n ++ [chr '>']
def writeKids (d : Nat) : List Tree → List UInt8
  | [] => []
  | c :: cs => 10 :: List.replicate d 9 ++ c.write d ++ writeKids d cs
end

mutual
/-- The number of elements the reader makes of a tree. -/
def Tree.count : Tree → Nat
  | .text _ v => if v = [] then 1 else 2
  | .cdata _ _ => 2
  | .node _ cs => 2 + countKids cs
def countKids : List Tree → Nat
  | [] => 0
  | c :: cs => 1 + c.count + countKids cs
end

/-- Letters only. -/
def GoodName (n : List UInt8) : Prop := n ≠ [] ∧ ∀ c ∈ n, (65 ≤ c.toNat ∧ c.toNat ≤ 90) ∨ (97 ≤ c.toNat ∧ c.toNat ≤ 122)

mutual
/-- Names are words, text has no `<`, CDATA no `]]>`, and something is in every node. -/
def Tree.Good : Tree → Prop
  | .text n v => GoodName n ∧ chr '<' ∉ v
  | .cdata n v => GoodName n ∧ ¬ ascii "]]>" <:+: v
  | .node n cs => GoodName n ∧ cs ≠ [] ∧ goodKids cs
def goodKids : List Tree → Prop
  | [] => True
  | c :: cs => c.Good ∧ goodKids cs
end

/-- The element a path leads to; each step takes the `i`-th element of that name. -/
def Tree.at (t : Tree) : List (List UInt8 × Nat) → Option Tree
  | [] => some t
  | p :: ps =>
    match (t.kids.filter fun c => c.name = p.1)[p.2]? with
    | some c => c.at ps
    | none => none

/-- Going on to the `i`-th next element of that name. -/
def next (els : List Xml.El) (name : List UInt8) : Nat → Option Nat → Res (Option Nat)
  | _, none => .ok none
  | 0, k => .ok k
  | i + 1, some k => (Xml.nextNode els k name).bind (next els name i)

/-- Following a path with the calls of the reader. -/
def walk (els : List Xml.El) (k : Nat) : List (List UInt8 × Nat) → Res (Option Nat)
  | [] => .ok (some k)
  | p :: ps => (Xml.firstNode els k p.1).bind fun c => (next els p.1 p.2 c).bind fun c =>
    match c with
    | none => .ok none
    | some k => walk els k ps

/-- What the reader should tell at an element. -/
def Shows (els : List Xml.El) (k : Nat) : Tree → Prop
  | .text _ v => Xml.value els k = .ok v
  | .cdata _ v => Xml.value els k = .ok v
  | .node _ _ => True

/-- Reading a document and asking the reader. -/
def ask {α} (doc : List UInt8) (f : List Xml.El → Res α) : Res (Option α) :=
  (Xml.parse doc).bind fun els =>
    match els with
    | none => .ok none
    | some els => (f els).bind fun a => .ok (some a)

end Verif.Spec.XmlTree
