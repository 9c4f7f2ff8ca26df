import Verif.Common
/-! Text encodings: hex, URL escapes, base32. -/

namespace Verif.Encoding

/-- utils/HexEncoding.cpp:5-15 `fromHexa`. Only reached for characters that passed the check in
`decodeHexa`; `char` arithmetic is modelled modulo 256. -/
def fromHexa (h : UInt8) : UInt8 :=
  if h ≤ chr '9' then h - chr '0'
  else if h ≤ chr 'F' then h - chr 'A' + 10
  else if h ≤ chr 'f' then h - chr 'a' + 10
  else h

/-- utils/HexEncoding.cpp:21, the accepted characters. -/
def isHexa (c : UInt8) : Bool :=
  (chr '0' ≤ c && c ≤ chr '9') || (chr 'a' ≤ c && c ≤ chr 'f') || (chr 'A' ≤ c && c ≤ chr 'F')

/-- `std::string::operator[] const`: the terminating NUL is readable at `size()`, anything after it
is undefined behaviour. -/
def strAt (s : List UInt8) (i : Nat) : Res UInt8 :=
  if i < s.length then rd s i else if i = s.length then .ok 0 else .ub

/-- utils/HexEncoding.cpp:27-33, the decoding loop from index `i` with `n` bytes left. -/
def decodeHexaLoop (src : List UInt8) : Nat → Nat → Res (List UInt8)
  | _, 0 => .ok []
  | i, n + 1 => do
    let f ← strAt src (i * 2)
    let s ← strAt src (i * 2 + 1)
    let rest ← decodeHexaLoop src (i + 1) n
    pure (((fromHexa f <<< 4) + fromHexa s) :: rest)

/-- utils/HexEncoding.cpp:17-36 `decodeHexa(from, to, size)`. `none` is the `false` result,
`some bytes` what is written to `to[0..size)`. -/
def decodeHexa (src : List UInt8) (size : Nat) : Res (Option (List UInt8)) :=
  if src.all isHexa then Res.map' some (decodeHexaLoop src 0 size) else .ok none

/-- utils/HexEncoding.cpp:38 `hex_chars` (also utils/UrlEncoding.cpp:33 `lookup`), index below 16. -/
def hexChar (n : UInt8) : UInt8 :=
  if n < 10 then chr '0' + n else chr 'A' + (n - 10)

/-- utils/HexEncoding.cpp:40-53 `hexToString`. -/
def hexToString (bs : List UInt8) : List UInt8 :=
  bs.flatMap fun (b : UInt8) => [hexChar (b >>> 4), hexChar (b &&& 0xf)]

/-! ### URL escapes -/

/-- utils/UrlEncoding.cpp:38-40, characters copied verbatim. -/
def urlPlain (c : UInt8) : Bool :=
  (48 ≤ c && c ≤ 57) || (65 ≤ c && c ≤ 90) || (97 ≤ c && c ≤ 122)

/-- utils/UrlEncoding.cpp:31-54 `UrlEncode`. -/
def urlEncode (bs : List UInt8) : List UInt8 :=
  bs.flatMap fun (c : UInt8) =>
    if urlPlain c then [c]
    else [chr '%', hexChar ((c &&& 0xF0) >>> 4), hexChar (c &&& 0x0F)]

/-- Hex digit value, as recognised by `sscanf("%zx")`. -/
def hexDigit? (c : UInt8) : Option Nat :=
  if isHexa c then some (fromHexa c).toNat else none

/-- C `isspace` in the "C" locale. -/
def isSpace (c : UInt8) : Bool := c == 32 || (9 ≤ c && c ≤ 13)

/-- `sscanf(s, "%zx", &ii)` on a string of at most two characters (utils/UrlEncoding.cpp:21):
leading white space skipped, optional sign, then hex digits (a lone `0x` reads the `0`).
`none` means no conversion: `ii` keeps its old value. A negative value wraps to 64 bits. -/
def scanHex (s : List UInt8) : Option Nat :=
  match s with
  | [a, b] =>
    match hexDigit? a, hexDigit? b with
    | some x, some y => some (x * 16 + y)
    | some x, none => some x
    | none, some y =>
      if isSpace a || a == chr '+' then some y
      else if a == chr '-' then some ((18446744073709551616 - y) % 18446744073709551616)
      else none
    | none, none => none
  | [a] => hexDigit? a
  | _ => none

/-- utils/UrlEncoding.cpp:4-29 `UrlDecode`. `ii` is the scratch variable of the function (`none` =
not yet initialised); using it uninitialised is undefined behaviour. The C string passed to
`sscanf` ends at the first NUL. -/
def urlDecodeAux (ii : Option Nat) : List UInt8 → Res (List UInt8)
  | [] => .ok []
  | c :: rest =>
    if c ≠ chr '%' then do
      let r ← urlDecodeAux ii rest
      pure ((if c == chr '+' then 32 else c) :: r)
    else
      let ii' := match scanHex ((rest.take 2).takeWhile (· ≠ 0)) with
        | some v => some v
        | none => ii
      match ii' with
      | none => .ub
      | some v => do
        let r ← urlDecodeAux ii' (rest.drop 2)
        pure (UInt8.ofNat v :: r)
termination_by l => l.length
decreasing_by all_goals (simp <;> omega)

/-- utils/UrlEncoding.cpp:4-29 `UrlDecode`. -/
def urlDecode (s : List UInt8) : Res (List UInt8) := urlDecodeAux none s

/-! ### Base32 -/

/-- `std::toupper` in the "C" locale (utils/Base32.cpp:23). For bytes above 127 the argument is a
negative `char`, where glibc's table returns it unchanged. -/
def toUpper (c : UInt8) : UInt8 := if chr 'a' ≤ c && c ≤ chr 'z' then c - 32 else c

/-- utils/Base32.cpp:23-36: value of one input character; `none` = invalid character,
`some none` = the padding character. -/
def b32Char (c : UInt8) : Option (Option UInt8) :=
  let c := toUpper c
  if chr 'A' ≤ c && c ≤ chr 'Z' then some (some (c - chr 'A'))
  else if chr '2' ≤ c && c ≤ chr '7' then some (some (c - chr '2' + 26))
  else if c == chr '=' then some none
  else if c == chr '1' then some (some 8)
  else none

/-- utils/Base32.cpp:21-37: reads up to 8 characters into `inbuf` (zero filled), tracking the
position of the first `=` in `pad`. -/
def b32Read : List UInt8 → Nat → Nat → Option (List UInt8 × Nat)
  | [], _, pad => some ([], pad)
  | c :: cs, j, pad =>
    match b32Char c with
    | none => none
    | some (some v) =>
      match b32Read cs (j + 1) pad with
      | none => none
      | some (l, p) => some (v :: l, p)
    | some none =>
      match b32Read cs (j + 1) (if pad == 0 then j else pad) with
      | none => none
      | some (l, p) => some (0 :: l, p)

/-- utils/Base32.cpp:40-51: eight 5-bit groups to five bytes. -/
def b32Out (i : List UInt8) : List UInt8 :=
  let g := fun k => i.getD k 0   -- `inbuf` is zero filled (line 20), so the default is the code's
  [ (g 0 <<< 3) ||| (g 1 >>> 2),
    ((g 1 &&& 0x3) <<< 6) ||| (g 2 <<< 1) ||| ((g 3 &&& 0x10) >>> 4),
    ((g 3 &&& 0x0f) <<< 4) ||| ((g 4 &&& 0x1e) >>> 1),
    ((g 4 &&& 0x01) <<< 7) ||| ((g 5 &&& 0x1f) <<< 2) ||| ((g 6 &&& 0x18) >>> 3),
    ((g 6 &&& 0x07) <<< 5) ||| g 7 ]

/-- utils/Base32.cpp:53 `input_output_mapping`. -/
def b32Map : List Nat := [5, 1, 1, 2, 2, 3, 4, 4, 5]

/-- utils/Base32.cpp:6-60 `base32decode`. An invalid character makes the whole result empty. -/
def base32decodeAux : List UInt8 → Option (List UInt8)
  | [] => some []
  | c :: cs =>
    let s := c :: cs
    let avail := min 8 s.length
    let padStart := if avail < 8 then avail else 0
    match b32Read (s.take 8) 0 padStart with
    | none => none
    | some (inbuf, pad) =>
      match base32decodeAux (s.drop 8) with
      | none => none
      | some rest => some ((b32Out inbuf).take (b32Map.getD pad 0) ++ rest)
termination_by l => l.length
decreasing_by simp; omega

/-- utils/Base32.cpp:6-60 `base32decode`. -/
def base32decode (s : List UInt8) : List UInt8 :=
  match base32decodeAux s with
  | none => []
  | some r => r

end Verif.Encoding
