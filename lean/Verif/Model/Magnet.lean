import Verif.Model.Encoding
/-! Magnet links: Core/Api/InterfaceImpl.cpp. Texts are byte lists. -/

namespace Verif.Magnet
open Encoding

/-- Core/Api/InterfaceImpl.cpp:10-34 `parseTorrentHash`. `none` is the `false` result (nothing is
written to `to` then). `isspace` on a negative `char` is taken as false, as in glibc. -/
def parseTorrentHash (src : List UInt8) : Res (Option (List UInt8)) :=
  if src.length = 32 ∧ (base32decode src).length = 20 then .ok (some (base32decode src))
  else
    let src := if src.length = 44 then src.filter (fun c => !isSpace c) else src
    if src.length = 40 then decodeHexa src 20 else .ok none

/-- The fields of `TorrentFileMetadata` the function touches (Api/Interface.h:28-30, 87-90; the sizes,
which are zeroed, are left out). -/
structure Meta where
  hash : List UInt8
  name : List UInt8
  announce : List UInt8
  announceList : List (List UInt8)
deriving DecidableEq, Repr

/-- Text before the first `c` (`substr(pos, find_first_of(c, pos) - pos)`). -/
def before (c : UInt8) (s : List UInt8) : List UInt8 := s.takeWhile (· ≠ c)
/-- Text after the first `c`; empty when there is none. -/
def after (c : UInt8) (s : List UInt8) : List UInt8 := (s.dropWhile (· ≠ c)).drop 1

/-- Core/Api/InterfaceImpl.cpp:96-117, one parameter with its name and value; the flag is `correct`. -/
def param (m : Meta) (correct : Bool) (name value : List UInt8) : Res (Meta × Bool) :=
  if name = ascii "xt" ∧ 9 < value.length ∧ value.take 9 = ascii "urn:btih:" then do
    match ← parseTorrentHash (value.drop 9) with
    | some h => pure ({ m with hash := h }, true)
    | none => pure (m, false)
  else if name = ascii "tr" then do
    let v ← urlDecode value
    pure ({ m with
      announce := if m.announceList.isEmpty then v else m.announce
      announceList := m.announceList ++ [v] }, correct)
  else if name = ascii "dn" then do
    let v ← urlDecode value
    pure ({ m with name := v }, correct)
  else pure (m, correct)

/-- Core/Api/InterfaceImpl.cpp:91-117, one element (the text up to the next `&`). `valueStartPos` is
below `elementEndPos` exactly when the element contains a `=`. -/
def elem (m : Meta) (correct : Bool) (e : List UInt8) : Res (Meta × Bool) :=
  if chr '=' ∈ e then param m correct (before (chr '=') e) (after (chr '=') e) else pure (m, correct)

/-- Core/Api/InterfaceImpl.cpp:88-121, the loop. `s` is the link from `dataPos` on. -/
def loop (m : Meta) (correct : Bool) : List UInt8 → Res (Meta × Bool)
  | [] => .ok (m, correct)
  | c :: cs => do
    let r ← elem m correct (before (chr '&') (c :: cs))
    loop r.1 r.2 (after (chr '&') (c :: cs))
termination_by s => s.length
decreasing_by
  simp only [after, List.length_drop]
  have : ((c :: cs).dropWhile (· ≠ chr '&')).length ≤ (c :: cs).length := (List.dropWhile_sublist _).length_le
  simp only [List.length_cons] at this ⊢
  omega

/-- Core/Api/InterfaceImpl.cpp:78-127 `parseMagnetLink`; the flag is `Status::Success`. -/
def parseMagnetLink (m : Meta) (link : List UInt8) : Res (Meta × Bool) := do
  if link.length < 8 then pure (m, false)
  else
    let r ← if link.take 8 = ascii "magnet:?" then loop m false (link.drop 8) else pure (m, false)
    if r.2 then pure r
    else match ← parseTorrentHash link with
      | some h => pure ({ r.1 with hash := h }, true)
      | none => pure (r.1, false)

end Verif.Magnet
