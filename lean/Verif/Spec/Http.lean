import Verif.Model.Http
import Verif.Proof.BencodeGet
namespace Verif.Spec
open Http Net

/-- The end of a line. -/
def crlf : List UInt8 := [13, 10]

/-- No end of a line inside. -/
def OneLine (l : List UInt8) : Prop := ∀ a b, l ≠ a ++ crlf ++ b

/-- The header of an HTTP reply: status line, fields, empty line. -/
def header (status : List UInt8) (fields : List (List UInt8 × List UInt8)) : List UInt8 :=
  status ++ crlf ++ fields.flatMap (fun f => f.1 ++ ascii ": " ++ f.2 ++ crlf) ++ crlf

/-- A status line and fields as HTTP has them; names of fields contain no colon, nor does the status line. -/
structure GoodHeader (status : List UInt8) (fields : List (List UInt8 × List UInt8)) : Prop where
  http : status.take 4 = ascii "HTTP"
  line : OneLine status
  colon : chr ':' ∉ status
  fieldLine : ∀ f ∈ fields, OneLine (f.1 ++ ascii ": " ++ f.2)
  name : ∀ f ∈ fields, chr ':' ∉ f.1

/-- The letters of a text in capitals. -/
def capital (c : UInt8) : UInt8 := if chr 'a' ≤ c ∧ c ≤ chr 'z' then c - chr 'a' + chr 'A' else c
def capitals (l : List UInt8) : List UInt8 := l.map capital

/-- The name of a field, in any case. -/
def named (f : List UInt8 × List UInt8) (name : String) : Prop := capitals f.1 = ascii name

/-- Hexadecimal digits of a number. -/
def hexNumber (n : Nat) : List UInt8 :=
  if n < 16 then [if n < 10 then UInt8.ofNat (48 + n) else UInt8.ofNat (87 + n)]
  else hexNumber (n / 16) ++ [if n % 16 < 10 then UInt8.ofNat (48 + n % 16) else UInt8.ofNat (87 + n % 16)]
termination_by n
decreasing_by omega

/-- A chunk of a chunked body. -/
def chunk (data : List UInt8) : List UInt8 := hexNumber data.length ++ crlf ++ data ++ crlf

/-- A status line that says the request succeeded. -/
def says200 (status : List UInt8) : Prop := ∃ a b, capitals status = a ++ ascii "200 OK" ++ b

end Verif.Spec

namespace Verif.Spec
open Bencode Http Net

/-- The number a dictionary has under a name, 0 if none. -/
def number (kvs : List (List UInt8 × BVal)) (name : String) : Nat :=
  match lookup kvs (ascii name) .number with
  | some (.int n) => n
  | _ => 0

/-- A peer in compact form: four address bytes and the port. -/
def compactPeer (p : List UInt8 × Nat) : List UInt8 := p.1 ++ be16 p.2

/-- The text a dictionary has under a name. -/
def textOf (kvs : List (List UInt8 × BVal)) (name : String) : Option (List UInt8) :=
  match lookup kvs (ascii name) .text with
  | some (.str s) => some s
  | _ => none

/-- The interval announced: the minimum if given, else the usual one, else five minutes. -/
def interval (kvs : List (List UInt8 × BVal)) : Nat :=
  if number kvs "min interval" ≠ 0 then number kvs "min interval" else if number kvs "interval" ≠ 0 then number kvs "interval" else 300

end Verif.Spec
