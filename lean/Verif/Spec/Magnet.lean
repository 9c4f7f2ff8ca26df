import Verif.Spec.Encoding
/-! What a magnet link says, independent of how it is parsed. -/

namespace Verif.Spec

/-- What a URL-encoded text means: `+` is a space, `%XY` the byte with these hex digits (either letter
case), everything else stands for itself. -/
inductive UrlMeans : List UInt8 → List UInt8 → Prop where
  | nil : UrlMeans [] []
  | raw (c s v) : c ≠ chr '%' → c ≠ chr '+' → UrlMeans s v → UrlMeans (c :: s) (c :: v)
  | plus (s v) : UrlMeans s v → UrlMeans (chr '+' :: s) (chr ' ' :: v)
  | esc (x y : Fin 16) (h l s v) :
      h ∈ [(ascii "0123456789ABCDEF")[x.val]?, (ascii "0123456789abcdef")[x.val]?].filterMap id →
      l ∈ [(ascii "0123456789ABCDEF")[y.val]?, (ascii "0123456789abcdef")[y.val]?].filterMap id →
      UrlMeans s v → UrlMeans (chr '%' :: h :: l :: s) (UInt8.ofNat (x.val * 16 + y.val) :: v)

/-- Lower case hex digits of a byte string, high digit first. -/
def hexText (bs : List UInt8) : List UInt8 :=
  bs.flatMap fun b => [(ascii "0123456789abcdef").getD (b.toNat / 16) 0, (ascii "0123456789abcdef").getD (b.toNat % 16) 0]

/-- `s` is a text for the 20-byte hash `h`: 40 hex digits or 32 base32 characters, in any letter case. -/
inductive HashText (h : List UInt8) : List UInt8 → Prop where
  | hex (s) : h.length = 20 → s.map lower = hexText h → HashText h s
  | b32 (s) : h.length = 20 → s.map lower = (b32Encode h).map lower → HashText h s

/-- The parameters of a magnet link. -/
inductive Param where
  /-- `xt=urn:btih:<text>`, naming the hash -/
  | hash (text h : List UInt8)
  /-- `xt=urn:btih:<text>` where the text is no hash: a wrong length or a `:` in it -/
  | badHash (text : List UInt8)
  /-- `dn=<text>`, the display name -/
  | name (text v : List UInt8)
  /-- `tr=<text>`, a tracker -/
  | tracker (text v : List UInt8)
  /-- any other `<key>=<text>` -/
  | other (key text : List UInt8)
  /-- something without `=` -/
  | junk (text : List UInt8)

/-- How the parameter is written. -/
def Param.text : Param → List UInt8
  | .hash t _ => ascii "xt=urn:btih:" ++ t
  | .badHash t => ascii "xt=urn:btih:" ++ t
  | .name t _ => ascii "dn=" ++ t
  | .tracker t _ => ascii "tr=" ++ t
  | .other k t => k ++ chr '=' :: t
  | .junk t => t

/-- The text is a correct way to write the value. -/
def Param.Good : Param → Prop
  | .hash t h => HashText h t
  | .badHash t => t ≠ [] ∧ chr '&' ∉ t ∧ (t.length ≠ 32 ∧ t.length ≠ 40 ∧ t.length ≠ 44 ∨ chr ':' ∈ t)
  | .name t v => UrlMeans t v ∧ chr '&' ∉ t
  | .tracker t v => UrlMeans t v ∧ chr '&' ∉ t
  | .other k t => k ≠ ascii "xt" ∧ k ≠ ascii "dn" ∧ k ≠ ascii "tr" ∧ chr '=' ∉ k ∧ chr '&' ∉ k ∧ chr '&' ∉ t
  | .junk t => chr '=' ∉ t ∧ chr '&' ∉ t

/-- The link with the given parameters, separated by `&`. -/
def magnet (ps : List Param) : List UInt8 :=
  ascii "magnet:?" ++ List.intercalate [chr '&'] (ps.map Param.text)

/-- The hash parameters of a list, in order (`none` for a text that is no hash). -/
def hashes (ps : List Param) : List (Option (List UInt8)) :=
  ps.filterMap fun | .hash _ h => some (some h) | .badHash _ => some none | _ => none
/-- The names and trackers a list of parameters gives, in order. -/
def names (ps : List Param) : List (List UInt8) := ps.filterMap fun | .name _ v => some v | _ => none
def trackers (ps : List Param) : List (List UInt8) := ps.filterMap fun | .tracker _ v => some v | _ => none

end Verif.Spec
