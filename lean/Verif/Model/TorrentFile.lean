import Verif.Model.Bencode
/-! Info hash of a torrent file (utils/TorrentFileParser.cpp). -/

namespace Verif.TorrentFile
open Verif Bencode

/-- utils/TorrentFileParser.cpp:99-119: the end of the info dictionary, found from its `pieces` entry.
The byte before the rest of the dictionary is replaced by 'd' while the rest is parsed. -/
def infoEnd (fuel : Nat) (mem : List UInt8) (p : Parsed) (infod : Nat) : Res (Option Nat) := do
  let f ← findKey mem p.objs infod (ascii "pieces") .text
  match f with
  | none => pure none
  | some k => do
    let pieces ← rd p.objs k
    let e := pieces.data + pieces.size.toNat
    let c ← rd mem e
    if c ≠ chr 'e' then do
      let sub ← parseAt fuel (mem.set (e - 1) (chr 'd')) (e - 1) (p.bodyEnd - (e - 1))
      pure (some (if sub.objs = [] then e else sub.bodyEnd))
    else pure (some (e + 1))

/-- utils/TorrentFileParser.cpp:87-126: walks over the keys and the values of the root. Returns the
start and end of the info dictionary. -/
def infoLoop (fuel : Nat) (mem : List UInt8) (p : Parsed) : Nat → Option Nat → Res (Option (Nat × Nat))
  | _, none => .ok none
  | 0, some _ => .diverge
  | n + 1, some it => do
    let o ← rd p.objs it
    let nx ← nextSibling p.objs it
    if o.type = .text ∧ o.equals mem (ascii "info") then
      match nx with
      | none => .ub   -- null pointer dereferenced, :97
      | some infod => do
        let d ← rd p.objs infod
        if d.type = .dictionary then do
          let e ← infoEnd fuel mem p infod
          pure (e.map fun e => (o.data + 4, e))
        else pure none
    else infoLoop fuel mem p n nx

/-- utils/TorrentFileParser.cpp:79-138 `generateInfoHash`: the bytes hashed (`info.data`), or `none` if
there is no hash. -/
def generateInfoHash (fuel : Nat) (mem : List UInt8) (p : Parsed) : Res (Option (List UInt8)) := do
  if p.objs = [] then pure none
  else do
    let f ← firstItem p.objs 0
    let r ← infoLoop fuel mem p (p.objs.length + 1) f
    pure (r.map fun r => (mem.drop r.1).take (r.2 - r.1))

/-- utils/TorrentFileParser.cpp:11-23 `TorrentFileParser::parse`, the info hash only. `sha1` is the
hash function. -/
def torrentHash (fuel : Nat) (sha1 : List UInt8 → List UInt8) (data after : List UInt8) : Res (Option (List UInt8)) := do
  let p ← Bencode.parse fuel data after
  let r ← generateInfoHash fuel (data ++ after) p
  pure (r.map sha1)

end Verif.TorrentFile
