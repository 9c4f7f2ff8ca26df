import Verif.Model.TorrentFile
import Verif.Model.BencodeGet
import Verif.Model.Layout
/-! Reading a torrent file and writing it again (utils/TorrentFileParser.cpp, Core/Api/InterfaceImpl.cpp:129-200). -/

namespace Verif.Metafile
open Verif Bencode

/-- Api/Interface.h:22-25 `File`: the name and the path; the numbers are those of `Layout.File`. -/
structure FileName where
  name : List UInt8
  path : List (List UInt8)
deriving DecidableEq, Repr

/-- Api/Interface.h:46-71 `TorrentInfo`: the numbers are those of `Layout.Info`.  `paths` only holds the memory of the
paths, which are taken as bytes here.  The hash is `none` until it was computed; it has no value then. -/
structure Info where
  hash : Option (List UInt8) := none
  files : List FileName := []
  name : List UInt8 := []
  pieces : List (List UInt8) := []
  isPrivate : Bool := false
  data : List UInt8 := []
  layout : Layout.Info := {}
deriving DecidableEq, Repr

/-- Api/Interface.h:82-99 `TorrentFileMetadata`. -/
structure Meta where
  announce : List UInt8 := []
  announceList : List (List UInt8) := []
  info : Info := {}
  createdBy : List UInt8 := []
  creationDate : Nat := 0
deriving DecidableEq, Repr

/-- utils/TorrentFileParser.cpp:169-177: the pieces, 20 bytes each. -/
def chunks : Nat → List UInt8 → List (List UInt8)
  | 0, _ => []
  | n + 1, s => s.take 20 :: chunks n (s.drop 20)

/-- A C string ends at the first zero. -/
def cstr (s : List UInt8) : List UInt8 := s.takeWhile (· != 0)

/-- utils/BencodeParser.cpp:282-285 `getTxt()` of an object. -/
def txt (mem : List UInt8) (o : Obj) : List UInt8 := if o.type = .text then o.bytes mem else []

/-- utils/TorrentFileParser.cpp:197-206: the loop over the parts of a path.  The last one is the name. -/
def pathLoop (mem : List UInt8) (objs : List Obj) : List Nat → FileName → Res FileName
  | [], f => .ok f
  | k :: ks, f => do
    let o ← rd objs k
    if o.next = 0 then pathLoop mem objs ks { f with name := txt mem o }
    else pathLoop mem objs ks { f with path := f.path ++ [txt mem o] }

/-- utils/TorrentFileParser.cpp:190-207: the path of one file. -/
def readPath (mem : List UInt8) (objs : List Obj) (namePath : List UInt8) (k : Nat) : Res FileName := do
  match ← findKey mem objs k (ascii "path") .list with
  | some j => do
    let ks ← items objs j
    pathLoop mem objs ks ⟨[], [namePath]⟩
  | none => pure ⟨[], [namePath]⟩

/-- utils/TorrentFileParser.cpp:190-210: the path and the length of one file. -/
def readFile (mem : List UInt8) (objs : List Obj) (namePath : List UInt8) (k : Nat) : Res (FileName × Nat) := do
  let f ← readPath mem objs namePath k
  let size ← getBigIntKey mem objs k (ascii "length")
  pure (f, size)

/-- utils/TorrentFileParser.cpp:187-219: the loop over the files. -/
def readFiles (mem : List UInt8) (objs : List Obj) (namePath : List UInt8) : List Nat → Res (List (FileName × Nat))
  | [] => .ok []
  | k :: ks => do
    let f ← readFile mem objs namePath k
    let fs ← readFiles mem objs namePath ks
    pure (f :: fs)

/-- utils/TorrentFileParser.cpp:159-242 `parseTorrentInfo` of the dictionary `k`.  The numbers of the files are those of
`Layout.parseInfo`; dividing by a piece length of zero is found there, after all of the files were read. -/
def readInfo (mem : List UInt8) (objs : List Obj) (k : Nat) : Res Info := do
  let ps ← getIntKey mem objs k (ascii "piece length")
  let pieceSize := (ps % 4294967296).toNat
  let ph ← getTxtItem mem objs k (ascii "pieces")
  let pieces := match ph with
    | some s => if s.length % 20 = 0 then chunks (s.length / 20) s else []
    | none => []
  let priv ← getIntKey mem objs k (ascii "private")
  match ← findKey mem objs k (ascii "files") .list with
  | some j => do
    let name ← getTxtKey mem objs k (ascii "name")
    let ks ← items objs j
    let fs ← readFiles mem objs (cstr name) ks
    let l ← Layout.parseInfo pieceSize pieces.length (.multi (fs.map (·.2)))
    pure { files := fs.map (·.1), name, pieces, isPrivate := priv != 0, layout := l }
  | none => do
    let size ← getBigIntKey mem objs k (ascii "length")
    let name ← getTxtKey mem objs k (ascii "name")
    let l ← Layout.parseInfo pieceSize pieces.length (.single size)
    pure { files := [⟨name, []⟩], name, pieces, isPrivate := priv != 0, layout := l }

/-- utils/TorrentFileParser.cpp:52-58: the texts of one list of trackers. -/
def tierLoop (mem : List UInt8) (objs : List Obj) : List Nat → Res (List (List UInt8))
  | [] => .ok []
  | k :: ks => do
    let o ← rd objs k
    let rest ← tierLoop mem objs ks
    pure (if o.type = .text then o.bytes mem :: rest else rest)

/-- utils/TorrentFileParser.cpp:48-59: one list of trackers. -/
def readTier (mem : List UInt8) (objs : List Obj) (k : Nat) : Res (List (List UInt8)) := do
  let o ← rd objs k
  if o.type = .list then do
    let js ← items objs k
    tierLoop mem objs js
  else pure []

/-- utils/TorrentFileParser.cpp:46-62: the loop over the lists of trackers. -/
def announceLoop (mem : List UInt8) (objs : List Obj) : List Nat → Res (List (List UInt8))
  | [] => .ok []
  | k :: ks => do
    let tier ← readTier mem objs k
    let rest ← announceLoop mem objs ks
    pure (tier ++ rest)

/-- utils/TorrentFileParser.cpp:44-66: the trackers of the file. -/
def readTrackers (mem : List UInt8) (objs : List Obj) (announce : List UInt8) : Res (List (List UInt8)) := do
  match ← findKey mem objs 0 (ascii "announce-list") .list with
  | some j => do
    let ks ← items objs j
    announceLoop mem objs ks
  | none => pure (if announce ≠ [] then [announce] else [])

/-- utils/TorrentFileParser.cpp:68-71: the info dictionary of the file. -/
def readRootInfo (mem : List UInt8) (objs : List Obj) : Res Info := do
  match ← findKey mem objs 0 (ascii "info") .dictionary with
  | some j => readInfo mem objs j
  | none => pure {}

/-- utils/TorrentFileParser.cpp:35-77 `loadTorrentFileInfo`. -/
def load (mem : List UInt8) (p : Parsed) : Res Meta := do
  let root ← rd p.objs 0
  if root.type ≠ .dictionary then pure {}
  else do
    let a ← getTxtItem mem p.objs 0 (ascii "announce")
    let announce := a.getD []
    let announceList ← readTrackers mem p.objs announce
    let info ← readRootInfo mem p.objs
    let createdBy ← getTxtKey mem p.objs 0 (ascii "created by")
    let creationDate ← getBigIntKey mem p.objs 0 (ascii "creation date")
    pure { announce, announceList, info, createdBy, creationDate }

/-- utils/TorrentFileParser.cpp:11-23 `TorrentFileParser::parse`, with :128-137 of `generateInfoHash`.  `sha1` is the hash
function, `after` what is in memory behind the file. -/
def parse (fuel : Nat) (sha1 : List UInt8 → List UInt8) (data after : List UInt8) : Res Meta := do
  let p ← Bencode.parse fuel data after
  if p.objs = [] then pure {}
  else do
    let m ← load (data ++ after) p
    match ← TorrentFile.generateInfoHash fuel (data ++ after) p with
    | some d => pure { m with info := { m.info with data := d, hash := some (sha1 d) } }
    | none => pure m

/-- utils/TorrentFileParser.cpp:140-157 `TorrentFileParser::parseTorrentInfo` of the bytes of an info dictionary.  `return {}`
makes a hash of zeros. -/
def parseTorrentInfo (fuel : Nat) (sha1 : List UInt8 → List UInt8) (data after : List UInt8) : Res Info := do
  let p ← Bencode.parse fuel data after
  if p.objs = [] then pure { hash := some (List.replicate 20 0) }
  else do
    let i ← readInfo (data ++ after) p.objs 0
    pure { i with hash := some (sha1 data) }

/-- Core/Api/InterfaceImpl.cpp:137-153: the trackers. -/
def writeTrackers (d : List UInt8) : List (List UInt8) → List UInt8
  | [] => d
  | a :: as => writeTrackers (endArray (addText (startArray d) a)) as

/-- Core/Api/InterfaceImpl.cpp:172-175: a path, without its first part.  Each part is written as a C string. -/
def writePath (d : List UInt8) : List (List UInt8) → List UInt8
  | [] => d
  | x :: xs => writePath (addText d (cstr x)) xs

/-- Core/Api/InterfaceImpl.cpp:166-179: the files. -/
def writeFiles (d : List UInt8) : List (FileName × Layout.File) → List UInt8
  | [] => d
  | f :: fs =>
    let d := startMap d
    let d := addRawItemNumber d (ascii "6:length") f.2.size
    let d := startRawArrayItem d (ascii "4:path")
    let d := endMap (endArray (writePath d (f.1.path.drop 1)))
    writeFiles d fs

/-- Core/Api/InterfaceImpl.cpp:159-192: an info dictionary made from what is known. -/
def writeInfo (d : List UInt8) (i : Info) : List UInt8 :=
  let d := startRawMapItem d (ascii "4:info")
  let d :=
    if 1 < i.files.length then
      endArray (writeFiles (startRawArrayItem d (ascii "5:files")) (i.files.zip i.layout.files))
    else match i.layout.files with
      | [f] => addRawItemNumber d (ascii "6:length") f.size
      | _ => d
  let d := addRawItemText d (ascii "4:name") i.name
  let d := addRawItemNumber d (ascii "12:piece length") i.layout.pieceSize
  let d := addRawItemFromBuffer d (ascii "6:pieces") i.pieces.flatten
  let d := if i.isPrivate then addRawItemNumber d (ascii "7:private") 1 else d
  endMap d

/-- Core/Api/InterfaceImpl.cpp:129-200 `createTorrentFileData`. -/
def create (m : Meta) : List UInt8 :=
  let d := startMap []
  let d := if m.announce ≠ [] then addRawItemText d (ascii "8:announce") m.announce else d
  let d := if m.announceList ≠ [] then
      endArray (writeTrackers (startRawArrayItem d (ascii "13:announce-list")) m.announceList)
    else d
  let d := if m.createdBy ≠ [] then addRawItemText d (ascii "10:created by") m.createdBy else d
  let d := if m.creationDate ≠ 0 then addRawItemNumber d (ascii "13:creation date") m.creationDate else d
  let d := if m.info.data = [] then writeInfo d m.info
    else addRawData (addRawData d (ascii "4:info")) m.info.data
  endMap d

end Verif.Metafile
