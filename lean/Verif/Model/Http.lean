import Verif.Model.BencodeGet
import Verif.Model.Addr
/-! HTTP replies, utils/HttpHeader.cpp, and the announce replies of HTTP trackers,
Core/HttpTrackerComm.cpp. -/

namespace Verif.Http
open Verif Bencode Net

def cr : UInt8 := 13
def lf : UInt8 := 10

/-- utils/HttpHeader.h:5-16. -/
structure Info where
  valid : Bool := true
  success : Bool := false
  dataStart : Nat := 0
  dataSize : Nat := 0
  params : List (List UInt8 × List UInt8) := []
deriving DecidableEq, Repr

/-- utils/HttpHeader.cpp:76-84: what precedes the first line end and what follows it. -/
def splitCrlf : List UInt8 → Option (List UInt8 × List UInt8)
  | a :: b :: cs =>
    if a = cr ∧ b = lf then some ([], cs)
    else match splitCrlf (b :: cs) with
      | some (l, r) => some (a :: l, r)
      | none => none
  | _ => none

/-- `find_first_of(c)`. -/
def findByte (c : UInt8) : List UInt8 → Option Nat
  | [] => none
  | x :: xs => if x = c then some 0 else (findByte c xs).map (· + 1)

/-- utils/HttpHeader.cpp:86-92: the parameter in a line. -/
def param (line : List UInt8) : List UInt8 × List UInt8 :=
  match findByte (chr ':') line with
  | some v => if line.length > v + 1 then (line.take v, line.drop (v + 2)) else (line, [])
  | none => (line, [])

/-- utils/HttpHeader.cpp:67-93: the loop over lines; `rest` is the buffer from `pos` on. The result is
`dataStart`, 0 if no empty line was found, and the parameters. `n` bounds the number of rounds. -/
def lines (size : Nat) : Nat → List UInt8 → List (List UInt8 × List UInt8) → Res (Nat × List (List UInt8 × List UInt8))
  | 0, _, _ => .diverge
  | n + 1, a :: b :: cs, ps =>
    if a = cr ∧ b = lf then .ok ((size - cs.length) % 4294967296, ps)
    else match splitCrlf (b :: cs) with
      | some (l, r) => lines size n r (ps ++ [param (a :: l)])
      | none => lines size n (a :: b :: cs) (ps ++ [param []])
  | _ + 1, _, ps => .ok (0, ps)

/-- `::toupper` of the C locale; bytes above 127 are left alone (formally undefined behaviour for a signed
`char`, not modelled). -/
def upper (c : UInt8) : UInt8 := if 97 ≤ c.toNat ∧ c.toNat ≤ 122 then c - 32 else c

/-- `std::stoul` with 64-bit `unsigned long`: an exception, which nobody catches here, is `ub`. -/
def stoul (l : List UInt8) : Res Nat :=
  let l := l.dropWhile isSpace
  let neg := l.head? = some (chr '-')
  let l := if l.head? = some (chr '-') ∨ l.head? = some (chr '+') then l.drop 1 else l
  let ds := l.takeWhile isDigit
  if ds = [] then .ub
  else if decVal ds ≥ 18446744073709551616 then .ub
  else .ok (if neg then (18446744073709551616 - decVal ds) % 18446744073709551616 else decVal ds)

def isHex (c : UInt8) : Bool := isDigit c || (65 ≤ c.toNat && c.toNat ≤ 70) || (97 ≤ c.toNat && c.toNat ≤ 102)
def hexDigit (c : UInt8) : Nat := if isDigit c then c.toNat - 48 else if c.toNat ≤ 70 then c.toNat - 55 else c.toNat - 87
def hexVal (l : List UInt8) : Nat := l.foldl (fun a c => a * 16 + hexDigit c) 0

/-- `strtoul(p, nullptr, 16)` with 64-bit `unsigned long`; `l` is the memory from `p` on. -/
def strtoul16 (l : List UInt8) : Res Nat := do
  let w ← spanLen isSpace l
  let c ← rd l w
  let s := if c = chr '-' ∨ c = chr '+' then 1 else 0
  let l := l.drop (w + s)
  let d ← spanLen isHex l
  let x := l.drop d
  let v ← if d = 1 ∧ l.head? = some (chr '0') ∧ (x.head? = some (chr 'x') ∨ x.head? = some (chr 'X')) then do
      let e ← spanLen isHex (x.drop 1)
      pure (hexVal ((x.drop 1).take e))
    else pure (hexVal (l.take d))
  if v ≥ 18446744073709551616 then pure 18446744073709551615
  else pure (if c = chr '-' then (18446744073709551616 - v) % 18446744073709551616 else v)

/-- utils/HttpHeader.cpp:20-26: the position of the next line end, or of the last byte. -/
def crlfPos : List UInt8 → Nat
  | a :: b :: cs => if a = cr ∧ b = lf then 0 else crlfPos (b :: cs) + 1
  | _ => 0

/-- utils/HttpHeader.cpp:10-49 `readChunkedData`; `ptr` is the buffer from `ptr` on (`pos + 1 > size` in line
28 never holds), `after` the memory behind the buffer. -/
def chunks (size : Nat) (after : List UInt8) : Nat → List UInt8 → Nat → Res (List (Nat × Nat))
  | _, [], _ => .ok []
  | 0, _, _ => .diverge
  | n + 1, ptr, chunkSize =>
    let pos := crlfPos ptr
    if pos = 0 then chunks size after n (ptr.drop 2) 0
    else if chunkSize = 0 then do
      let v ← strtoul16 (ptr ++ after)
      chunks size after n (ptr.drop (pos + 2)) (v % 4294967296)
    else do
      let r ← chunks size after n (ptr.drop (pos + 2)) 0
      pure (((size - ptr.length) % 4294967296, chunkSize) :: r)

/-- utils/HttpHeader.cpp:95-113, one parameter, already in capitals. -/
def apply (buffer after : List UInt8) (i : Info) (p : List UInt8 × List UInt8) : Res Info := do
  let i ← if p.1 = ascii "CONTENT-LENGTH" ∧ p.2 ≠ [] then do
      let v ← stoul p.2
      pure { i with dataSize := v % 4294967296 }
    else pure i
  if i.dataSize = 0 ∧ p.1 = ascii "TRANSFER-ENCODING" ∧ p.2 = ascii "CHUNKED" then do
    let c ← chunks buffer.length after (buffer.length + 1) (buffer.drop i.dataStart) 0
    match c with
    | [] => pure i
    | x :: _ => pure { i with dataStart := x.1, dataSize := x.2 }
  else pure i

/-- utils/HttpHeader.cpp:95-113, the loop over parameters. -/
def applyAll (buffer after : List UInt8) : List (List UInt8 × List UInt8) → Info → Res Info
  | [], i => .ok i
  | p :: ps, i => do
    let i ← apply buffer after i p
    applyAll buffer after ps i

/-- `find(sub) != npos`. -/
def contains (sub : List UInt8) : List UInt8 → Bool
  | [] => sub == []
  | x :: xs => sub.isPrefixOf (x :: xs) || contains sub xs

/-- utils/HttpHeader.cpp:56-122 `read`, with at most `n` rounds of the loop over lines. -/
def read (n : Nat) (buffer after : List UInt8) : Res Info :=
  if buffer.length < 4 ∨ ¬(buffer.take 4 = ascii "HTTP" ∨ buffer.take 4 = ascii "http") then .ok { valid := false }
  else do
    let r ← lines buffer.length n buffer []
    let ps := r.2.map fun p => (p.1.map upper, p.2.map upper)
    let i ← applyAll buffer after ps { dataStart := r.1, params := ps }
    let i := if i.dataStart ≠ 0 ∧ ¬(i.dataSize ≠ 0 ∨ buffer.length = i.dataStart) then { i with valid := false } else i
    match ps with
    | [] => pure i
    | p :: _ => pure (if contains (ascii "200 OK") p.1 then { i with success := true } else i)

/-! ### Announce replies -/

/-- Core/Interface.h:73-81. -/
structure Announce where
  interval : Nat := 300
  leech : Nat := 0
  seed : Nat := 0
  peers : List Addr := []
deriving DecidableEq, Repr

/-- An `int` stored in a `uint32_t`. -/
def toU32 (v : Int) : Nat := (v % 4294967296).toNat

/-- Core/HttpTrackerComm.cpp:177-181 with utils/Network.cpp:14-17 and 64-69: `count` peers from the memory at
`l`; `junk` is what the objects are made in. -/
def readPeers (junk : Addr) : Nat → List UInt8 → Res (List Addr)
  | 0, _ => .ok []
  | n + 1, l =>
    if 6 ≤ l.length then do
      let a ← junk.set (l.take 4) (beVal ((l.drop 4).take 2)) false
      let r ← readPeers junk n (l.drop 6)
      pure (a :: r)
    else .ub

/-- Core/HttpTrackerComm.cpp:171-182. -/
def readPeersKey (junk : Addr) (mem : List UInt8) (objs : List Obj) : Res (List Addr) := do
  match ← findKey mem objs 0 (ascii "peers") .text with
  | some k => do
    let o ← rd objs k
    if o.size.tmod 6 = 0 then readPeers junk (o.size / 6).toNat (mem.drop o.data) else pure []
  | none => pure []

/-- Core/HttpTrackerComm.cpp:160-183: the dictionary `objs[0]`. -/
def readAnnounceDict (junk : Addr) (mem : List UInt8) (objs : List Obj) : Res Announce := do
  let mi ← getIntKey mem objs 0 (ascii "min interval")
  let i := toU32 mi
  let i ← if i = 0 then do
      let v ← getIntKey mem objs 0 (ascii "interval")
      pure (toU32 v)
    else pure i
  let i := if i = 0 then 300 else i
  let seed ← getIntKey mem objs 0 (ascii "complete")
  let leech ← getIntKey mem objs 0 (ascii "incomplete")
  let ps ← readPeersKey junk mem objs
  pure { interval := i, seed := toU32 seed, leech := toU32 leech, peers := ps }

/-- Core/HttpTrackerComm.cpp:145-193 `readAnnounceResponse`: the number returned and the response; `after` is
the memory behind the buffer. (Nothing inside the `try` throws.) -/
def readAnnounce (junk : Addr) (n fuel : Nat) (buffer after : List UInt8) : Res (Nat × Announce) := do
  let i ← read n buffer after
  if i.valid = false ∨ i.success = false then pure (4294967295, {})
  else if i.dataSize ≠ 0 ∧ i.dataStart ≠ 0 ∧ (i.dataStart + i.dataSize) % 4294967296 ≤ buffer.length then do
    let p ← parseAt fuel (buffer ++ after) i.dataStart i.dataSize
    match getRoot p.objs with
    | some o =>
      if o.type = .dictionary then do
        let r ← readAnnounceDict junk (buffer ++ after) p.objs
        pure ((i.dataStart + i.dataSize) % 4294967296, r)
      else pure ((i.dataStart + i.dataSize) % 4294967296, {})
    | none => pure ((i.dataStart + i.dataSize) % 4294967296, {})
  else pure (0, {})

end Verif.Http
