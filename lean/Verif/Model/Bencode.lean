import Verif.Common
/-! Bencode writer and parser (utils/BencodeWriter.cpp, utils/BencodeParser.cpp).

The parser works on memory: `mem` is the buffer followed by whatever is readable after it, `bodyEnd`
the end of the buffer. Reading outside `mem` is undefined behaviour, so a theorem can say how far past
the buffer the parser looks. Recursion and loops take fuel; running out of it for every amount of fuel
is non-termination. -/

namespace Verif.Bencode
open Verif

/-- `std::to_string` of an unsigned number. -/
def dec (n : Nat) : List UInt8 :=
  if n < 10 then [UInt8.ofNat (48 + n)] else dec (n / 10) ++ [UInt8.ofNat (48 + n % 10)]
termination_by n
decreasing_by omega

/-- The number written by a sequence of decimal digits. -/
def decVal (l : List UInt8) : Nat := l.foldl (fun a c => a * 10 + (c.toNat - 48)) 0

/-! ### Writer -/

/-- utils/BencodeWriter.cpp:9-12. -/
def startMap (d : List UInt8) : List UInt8 := d ++ [chr 'd']
/-- utils/BencodeWriter.cpp:41-44. -/
def endMap (d : List UInt8) : List UInt8 := d ++ [chr 'e']
/-- utils/BencodeWriter.cpp:46-49. -/
def startArray (d : List UInt8) : List UInt8 := d ++ [chr 'l']
/-- utils/BencodeWriter.cpp:57-60. -/
def endArray (d : List UInt8) : List UInt8 := d ++ [chr 'e']
/-- utils/BencodeWriter.cpp:124-129. -/
def addNumber (d : List UInt8) (n : Nat) : List UInt8 := (d ++ [chr 'i']) ++ dec n ++ [chr 'e']
/-- utils/BencodeWriter.cpp:139-144 (`std::string`), :131-137 for a C string without its terminator. -/
def addText (d : List UInt8) (t : List UInt8) : List UInt8 := d ++ dec t.length ++ [chr ':'] ++ t
/-- utils/BencodeWriter.cpp:14-18. -/
def startMapItem (d name : List UInt8) : List UInt8 := startMap (addText d name)
/-- utils/BencodeWriter.cpp:62-66. -/
def addItemNumber (d name : List UInt8) (n : Nat) : List UInt8 := addNumber (addText d name) n
/-- utils/BencodeWriter.cpp:68-78. -/
def addItemText (d name t : List UInt8) : List UInt8 := addText (addText d name) t
/-- utils/BencodeWriter.cpp:80-86. -/
def addItemFromBuffer (d name t : List UInt8) : List UInt8 := addText d name ++ dec t.length ++ [chr ':'] ++ t
/-- utils/BencodeWriter.cpp:114-122. -/
def addRawData (d t : List UInt8) : List UInt8 := d ++ t
/-- utils/BencodeWriter.cpp:35-39. -/
def startRawMapItem (d text : List UInt8) : List UInt8 := startMap (d ++ text)
/-- utils/BencodeWriter.cpp:51-55. -/
def startRawArrayItem (d text : List UInt8) : List UInt8 := startArray (d ++ text)
/-- utils/BencodeWriter.cpp:88-92. -/
def addRawItemNumber (d text : List UInt8) (n : Nat) : List UInt8 := addNumber (d ++ text) n
/-- utils/BencodeWriter.cpp:94-104. -/
def addRawItemText (d text t : List UInt8) : List UInt8 := addText (d ++ text) t
/-- utils/BencodeWriter.cpp:106-112. -/
def addRawItemFromBuffer (d text t : List UInt8) : List UInt8 := (d ++ text) ++ dec t.length ++ [chr ':'] ++ t

/-! ### Parser -/

/-- utils/BencodeParser.h:23. -/
inductive Ty where
  | none | number | text | list | dictionary
deriving DecidableEq, Repr

/-- utils/BencodeParser.h:15-28 `Object`; `data` is a position in `mem`. -/
structure Obj where
  data : Nat := 0
  size : Int := 0
  next : Nat := 0
  type : Ty := .none
deriving DecidableEq, Repr

/-- The memory the parser works in, and the end of the buffer. -/
structure Env where
  mem : List UInt8
  bodyEnd : Nat

/-- Parser state: position and `objects`. -/
structure PSt where
  pos : Nat
  objs : List Obj
deriving DecidableEq, Repr

/-- utils/BencodeParser.cpp:35. -/
def isDigit (c : UInt8) : Bool := 48 ≤ c.toNat && c.toNat ≤ 57

/-- `isspace` of the C locale. -/
def isSpace (c : UInt8) : Bool := c.toNat = 32 || (9 ≤ c.toNat && c.toNat ≤ 13)

/-- How many bytes from here on satisfy `p`; reads one byte more. -/
def spanLen (p : UInt8 → Bool) : List UInt8 → Res Nat
  | [] => .ub
  | c :: cs => if p c then do
      let n ← spanLen p cs
      pure (n + 1)
    else .ok 0

/-- `strtol(p, &end, 10)` with 64-bit `long`: value and number of bytes consumed. -/
def strtol (l : List UInt8) : Res (Int × Nat) := do
  let w ← spanLen isSpace l
  let c ← rd l w
  let s := if c = chr '-' ∨ c = chr '+' then 1 else 0
  let d ← spanLen isDigit (l.drop (w + s))
  let v : Int := decVal ((l.drop (w + s)).take d)
  let v := if c = chr '-' then -v else v
  if d = 0 then pure (0, 0)
  else pure (max (-9223372036854775808) (min 9223372036854775807 v), w + s + d)

/-- Conversion of a `long` to `int`. -/
def toInt32 (v : Int) : Int := (v + 2147483648) % 4294967296 - 2147483648

/-- utils/BencodeParser.cpp:157-172, the part of `parseString` after `strtol`: `p` is the position after
the number, `c` the byte there, `size` the number. `none`: error, the position is then `bodyEnd`.
A pointer before the memory is undefined behaviour. -/
def textAt (e : Env) (objs : List Obj) (p : Nat) (size : Int) (c : UInt8) : Res (Option Nat × PSt) :=
  if c ≠ chr ':' ∨ (e.bodyEnd : Int) - p < size then .ok (none, ⟨e.bodyEnd, objs⟩)
  else if (p : Int) + 1 + size < 0 then .ub
  else .ok (some objs.length,
    ⟨((p : Int) + 1 + size).toNat, objs ++ [{ data := p + 1, size := size, type := .text }]⟩)

/-- utils/BencodeParser.cpp:150-173 `parseString`. -/
def parseString (e : Env) (s : PSt) : Res (Option Nat × PSt) := do
  let r ← strtol (e.mem.drop s.pos)
  let c ← rd e.mem (s.pos + r.2)
  textAt e s.objs (s.pos + r.2) (toInt32 r.1) c

/-- utils/BencodeParser.cpp:182-186: the digits of a number. `l` is the memory from `pos` on. -/
def intLoop (bodyEnd : Nat) : List UInt8 → Nat → Nat → Res (Nat × Nat)
  | [], _, _ => .ub
  | c :: cs, pos, size =>
    if (isDigit c || (c == chr '-' && size == 0)) && pos != bodyEnd then intLoop bodyEnd cs (pos + 1) (size + 1)
    else .ok (pos, size)

/-- utils/BencodeParser.cpp:175-201 `parseInt`. -/
def parseInt (e : Env) (s : PSt) : Res (Option Nat × PSt) := do
  let r ← intLoop e.bodyEnd (e.mem.drop (s.pos + 1)) (s.pos + 1) 0
  let c ← rd e.mem r.1
  if c ≠ chr 'e' then pure (none, { s with pos := e.bodyEnd })
  else pure (some s.objs.length,
    { pos := r.1 + 1, objs := s.objs ++ [{ data := s.pos + 1, size := r.2, type := .number }] })

/-- utils/BencodeParser.cpp:70 `NOT_END_OF_ELEMENTS`: the byte is read before the position is compared. -/
def notEnd (e : Env) (pos : Nat) : Res Bool := do
  let c ← rd e.mem pos
  pure (c != chr 'e' && decide (pos < e.bodyEnd))

/-- `uint16_t` difference `(uint16_t)a - b`. -/
def diff16 (a b : Nat) : Nat := (a % 65536 + 65536 - b % 65536) % 65536

/-- utils/BencodeParser.cpp:91, :131: sets the sibling offset of an object. -/
def setNext (objs : List Obj) (k n : Nat) : List Obj := objs.modify k fun o => { o with next := n }

/-- utils/BencodeParser.cpp:96-104, :139-147: the end of a list or dictionary. -/
def finish (e : Env) (root : Nat) (count : Nat) (s : PSt) : Res (Option Nat × PSt) := do
  let ne ← notEnd e (s.pos + 1)
  pure (some root,
    { pos := s.pos + 1
      objs := s.objs.modify root fun o =>
        { o with size := count, next := if ne then diff16 s.objs.length root else 0 } })

mutual

/-- utils/BencodeParser.cpp:37-62 `internalParse`, with the starts of `parseList` (:76-81) and
`parseDictionary` (:111-116). Returns the index of the object, `none` for a null pointer. -/
def internalParse (e : Env) : Nat → PSt → Res (Option Nat × PSt)
  | 0, _ => .diverge
  | n + 1, s => do
    let c ← rd e.mem s.pos
    if isDigit c then parseString e s
    else if c = chr 'i' then parseInt e s
    else if c = chr 'l' then do
      let r ← listLoop e n 0 ⟨s.pos + 1, s.objs ++ [{ type := .list }]⟩
      finish e s.objs.length r.1 r.2
    else if c = chr 'd' then do
      let r ← dictLoop e n 0 ⟨s.pos + 1, s.objs ++ [{ type := .dictionary }]⟩
      finish e s.objs.length r.1 r.2
    else pure (none, { s with pos := e.bodyEnd })

/-- utils/BencodeParser.cpp:83-94. -/
def listLoop (e : Env) : Nat → Nat → PSt → Res (Nat × PSt)
  | 0, _, _ => .diverge
  | n + 1, count, s => do
    let go ← notEnd e s.pos
    if go then do
      let r ← internalParse e n s
      match r.1 with
      | some k => do
        let ne ← notEnd e r.2.pos
        listLoop e n (count + 1)
          { r.2 with objs := setNext r.2.objs k (if ne then diff16 r.2.objs.length s.objs.length else 0) }
      | none => listLoop e n count r.2
    else pure (count, s)

/-- utils/BencodeParser.cpp:118-137. `objects[objPos - 1]` with `objPos` 0 is undefined behaviour. -/
def dictLoop (e : Env) : Nat → Nat → PSt → Res (Nat × PSt)
  | 0, _, _ => .diverge
  | n + 1, count, s => do
    let go ← notEnd e s.pos
    if go then do
      let key ← parseString e s
      match key.1 with
      | some _ => do
        let r ← internalParse e n key.2
        match r.1 with
        | some k => do
          let objPos := key.2.objs.length % 65536
          if objPos = 0 then .ub
          else do
            let ne ← notEnd e r.2.pos
            dictLoop e n (count + 1)
              { r.2 with objs := setNext (setNext r.2.objs (objPos - 1) 1) k
                                   (if ne then diff16 r.2.objs.length objPos else 0) }
        | none => dictLoop e n 0 r.2
      | none => dictLoop e n count key.2
    else pure (count, s)

end

/-- The result of `BencodeParser::parse`: `objects`, `bodyEnd` and `remainingData` afterwards. -/
structure Parsed where
  objs : List Obj
  bodyEnd : Nat
  remaining : Nat
deriving DecidableEq, Repr

/-- utils/BencodeParser.cpp:15-33 `parse` on the `length` bytes of `mem` from `start` on. -/
def parseAt (fuel : Nat) (mem : List UInt8) (start length : Nat) : Res Parsed := do
  let r ← internalParse ⟨mem, start + length⟩ fuel ⟨start, []⟩
  pure { objs := r.2.objs, bodyEnd := r.2.pos
         remaining := if r.2.pos ≥ start + length then 0 else length - (r.2.pos - start) }

/-- `parse` of a buffer followed in memory by `after`. -/
def parse (fuel : Nat) (data after : List UInt8) : Res Parsed := parseAt fuel (data ++ after) 0 data.length

/-! ### Navigation -/

/-- utils/BencodeParser.cpp:345-348 `toString`. -/
def Obj.bytes (mem : List UInt8) (o : Obj) : List UInt8 := (mem.drop o.data).take o.size.toNat

/-- utils/BencodeParser.cpp:340-343 `equals`, for a name without NUL. -/
def Obj.equals (mem : List UInt8) (o : Obj) (name : List UInt8) : Bool :=
  decide (o.size = name.length) && o.bytes mem == name

/-- utils/BencodeParser.cpp:325-328 `getFirstItem`: index of the object. -/
def firstItem (objs : List Obj) (k : Nat) : Res (Option Nat) := do
  let o ← rd objs k
  pure (if o.size ≠ 0 then some (k + 1) else none)

/-- utils/BencodeParser.cpp:330-333 `getNextSibling`. -/
def nextSibling (objs : List Obj) (k : Nat) : Res (Option Nat) := do
  let o ← rd objs k
  pure (if o.next ≠ 0 then some (k + o.next) else none)

/-- utils/BencodeParser.cpp:213-219, :229-235, :245-251, :292-298: the loop of `getDictObject`,
`getListObject`, `getTxtItem` and `getIntObject`, which differ in the type wanted. -/
def findLoop (mem : List UInt8) (objs : List Obj) (name : List UInt8) (ty : Ty) : Nat → Option Nat → Res (Option Nat)
  | _, none => .ok none
  | 0, some _ => .diverge
  | n + 1, some k => do
    let o ← rd objs k
    let v ← rd objs (k + 1)
    if o.equals mem name ∧ v.type = ty then pure (some (k + 1))
    else do
      let nx ← nextSibling objs (k + 1)
      findLoop mem objs name ty n nx

/-- utils/BencodeParser.cpp:208-254, :287-301. -/
def findKey (mem : List UInt8) (objs : List Obj) (k : Nat) (name : List UInt8) (ty : Ty) : Res (Option Nat) := do
  let f ← firstItem objs k
  findLoop mem objs name ty (objs.length + 1) f

/-- utils/BencodeParser.cpp:320-323 `getBigInt`: `strtoull` of the digits, which saturates and
negates modulo 2^64 after a minus sign. -/
def getBigInt (mem : List UInt8) (o : Obj) : Res Nat := do
  let l := mem.drop o.data
  let w ← spanLen isSpace l
  let c ← rd l w
  let s := if c = chr '-' ∨ c = chr '+' then 1 else 0
  let d ← spanLen isDigit (l.drop (w + s))
  let v := decVal ((l.drop (w + s)).take d)
  if v ≥ 18446744073709551616 then pure 18446744073709551615
  else if c = chr '-' then pure ((18446744073709551616 - v) % 18446744073709551616)
  else pure v

/-- utils/BencodeParser.cpp:309-312 `getInt`. -/
def getInt (mem : List UInt8) (o : Obj) : Res Int := do
  let r ← strtol (mem.drop o.data)
  pure (toInt32 r.1)

end Verif.Bencode
