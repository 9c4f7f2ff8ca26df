import Verif.Spec.Bencode
/-! What a torrent file says (BEP 3, BEP 12, BEP 27). -/

namespace Verif.Spec.Metafile
open Verif Bencode

/-- The content of a torrent: one file, or files with paths below the name of the torrent. -/
inductive Content where
  | single (length : Nat)
  | multi (files : List (List (List UInt8) × Nat))
deriving DecidableEq, Repr

/-- What a torrent file tells. -/
structure Torrent where
  announce : Option (List UInt8)
  /-- lists of trackers (BEP 12) -/
  tiers : Option (List (List (List UInt8)))
  createdBy : Option (List UInt8)
  date : Option Nat
  name : List UInt8
  pieceLength : Nat
  /-- a hash for each piece -/
  pieces : List (List UInt8)
  /-- BEP 27: 1 for a private torrent -/
  priv : Option Nat
  content : Content

/-- The value of a key. -/
def entry (kvs : List (List UInt8 × BVal)) (key : String) : Option BVal :=
  (kvs.find? (fun kv => kv.1 == ascii key)).map (·.2)

/-- The dictionary tells path and length of a file. -/
def IsFile (v : BVal) (f : List (List UInt8) × Nat) : Prop :=
  ∃ kvs, v = .dict kvs ∧ entry kvs "length" = some (.int f.2) ∧ entry kvs "path" = some (.list (f.1.map .str))

/-- The values tell these files. -/
def AreFiles : List BVal → List (List (List UInt8) × Nat) → Prop
  | [], [] => True
  | v :: vs, f :: fs => IsFile v f ∧ AreFiles vs fs
  | _, _ => False

/-- The info dictionary tells what the torrent contains. -/
structure IsInfo (kvs : List (List UInt8 × BVal)) (t : Torrent) : Prop where
  name : entry kvs "name" = some (.str t.name)
  length : entry kvs "piece length" = some (.int t.pieceLength)
  pieces : entry kvs "pieces" = some (.str t.pieces.flatten)
  priv : entry kvs "private" = t.priv.map .int
  content : match t.content with
    | .single n => entry kvs "length" = some (.int n) ∧ entry kvs "files" = none
    | .multi fs => ∃ vs, entry kvs "files" = some (.list vs) ∧ AreFiles vs fs

/-- A torrent file: a dictionary with an info dictionary.  Other keys may be there, at any place. -/
structure IsTorrent (kvs ikvs : List (List UInt8 × BVal)) (t : Torrent) : Prop where
  announce : entry kvs "announce" = t.announce.map .str
  tiers : entry kvs "announce-list" = t.tiers.map (fun ts => .list (ts.map (fun t => .list (t.map .str))))
  createdBy : entry kvs "created by" = t.createdBy.map .str
  date : entry kvs "creation date" = t.date.map .int
  entry : entry kvs "info" = some (.dict ikvs)
  info : IsInfo ikvs t

/-- The lengths of the files. -/
def Torrent.lengths (t : Torrent) : List Nat :=
  match t.content with
  | .single n => [n]
  | .multi fs => fs.map (·.2)

/-- Where the files are: one file has the name of the torrent, more are in a folder of that name. -/
def Torrent.paths (t : Torrent) : List (List (List UInt8)) :=
  match t.content with
  | .single _ => [[t.name]]
  | .multi fs => fs.map (fun f => t.name :: f.1)

/-- The trackers: those of the lists, or else the one tracker. -/
def Torrent.trackers (t : Torrent) : List (List UInt8) :=
  match t.tiers with
  | some ts => ts.flatten
  | none => match t.announce with
    | some a => if a = [] then [] else [a]
    | none => []

/-- Numbers in their usual limits: a piece has a length below 2^32, hashes have 20 bytes, a path has at least one part,
and the name is text without zeros. -/
structure Usual (t : Torrent) : Prop where
  length : 0 < t.pieceLength ∧ t.pieceLength < 2 ^ 32
  hashes : ∀ h ∈ t.pieces, h.length = 20
  priv : ∀ n, t.priv = some n → n < 2 ^ 31
  name : 0 ∉ t.name
  paths : ∀ fs, t.content = .multi fs → ∀ f ∈ fs, f.1 ≠ []

end Verif.Spec.Metafile
