import Verif.Common
import Verif.Model.Metafile
/-! Where the files of a torrent lie, moving them and deleting them (Core/Storage.cpp).

The file system is a list of what is at which place below its root, which is a folder itself; there are no links, and a
".." leads to the folder above even where the part before it does not exist.  Relative paths begin at the root.  Reading
and writing what a program may not read or write, and running out of room, are not modelled here. -/

namespace Verif.Location
open Verif

/-- The places of the file system: the names from the root on. -/
abbrev Place := List (List UInt8)

/-- What may be at a place. -/
inductive Node where
  | dir
  | file (content : List UInt8)
deriving DecidableEq, Repr

/-- The file system. -/
abbrev Fs := List (Place × Node)

/-- What is at a place. -/
def get (fs : Fs) (p : Place) : Option Node :=
  if p = [] then some .dir else (fs.find? (fun e => e.1 = p)).map (·.2)

/-- One part of a path: nothing and "." stay, ".." goes up. -/
def step (p : Place) (part : List UInt8) : Place :=
  if part = [] ∨ part = ascii "." then p
  else if part = ascii ".." then p.dropLast
  else p ++ [part]

/-- The parts between the separators. -/
def splitSep : List UInt8 → List (List UInt8)
  | [] => [[]]
  | c :: s =>
    if c = 47 then [] :: splitSep s
    else match splitSep s with
      | [] => [[c]]
      | w :: ws => (c :: w) :: ws

/-- Core/Storage.cpp:13-20 `utf8Path`, and how the system follows the path: it ends at the first zero. -/
def resolve (s : List UInt8) : Place := (splitSep (s.takeWhile (· != 0))).foldl step []

/-- std::filesystem::exists -/
def present (fs : Fs) (p : Place) : Bool := (get fs p).isSome

/-- std::filesystem::file_size with an error code: all ones for a folder and for nothing. -/
def fileSize (fs : Fs) (p : Place) : Nat :=
  match get fs p with
  | some (.file c) => c.length
  | _ => 18446744073709551615

/-- Is the place `q` inside of the folder `p`? -/
def inside (p q : Place) : Bool := p.isPrefixOf q && p.length < q.length

/-- std::filesystem::is_empty of what is there. -/
def isEmpty (fs : Fs) (p : Place) : Bool :=
  match get fs p with
  | some (.file c) => c.isEmpty
  | _ => !fs.any (fun e => inside p e.1)

/-- May `o` be renamed to `n`? -/
def mayRename (fs : Fs) (o n : Place) : Bool :=
  get fs n.dropLast = some .dir && !inside o n && n ≠ [] && o ≠ [] &&
  (match get fs o, get fs n with
    | none, _ => false
    | some _, none => true
    | some .dir, some .dir => isEmpty fs n
    | some (.file _), some (.file _) => true
    | _, _ => false)

/-- std::filesystem::rename with an error code: `none` is an error.  What is inside comes along, what is at the new place
is gone. -/
def rename (fs : Fs) (o n : Place) : Option Fs :=
  if o = n ∧ present fs o then some fs
  else if mayRename fs o n then
    some ((fs.filter (fun e => !n.isPrefixOf e.1)).map
      (fun e => if o.isPrefixOf e.1 then (n ++ e.1.drop o.length, e.2) else e))
  else none

/-- std::filesystem::remove with an error code: a folder is removed if it is empty. -/
def remove (fs : Fs) (p : Place) : Fs :=
  match get fs p with
  | some (.file _) => fs.filter (fun e => e.1 ≠ p)
  | some .dir => if isEmpty fs p then fs.filter (fun e => e.1 ≠ p) else fs
  | none => fs

/-- std::filesystem::remove_all with an error code. -/
def removeAll (fs : Fs) (p : Place) : Fs := fs.filter (fun e => !p.isPrefixOf e.1)

/-- std::filesystem::create_directories: the folders on the way from `p` along `q`; `none` where a file is in the way. -/
def makeDirs (fs : Fs) (p : Place) : Place → Option Fs
  | [] => some fs
  | n :: q =>
    match get fs (p ++ [n]) with
    | some .dir => makeDirs fs (p ++ [n]) q
    | some (.file _) => none
    | none => makeDirs ((p ++ [n], .dir) :: fs) (p ++ [n]) q

/-- Core/Storage.cpp:599-611 `createPath` of a path that ends with a separator or is empty: the folder is made unless
something is there. -/
def createPath (fs : Fs) (p : List UInt8) : Option Fs :=
  if p = [] then none
  else if present fs (resolve p) then some fs
  else makeDirs fs [] (resolve p)

/-- Core/Storage.h: what a torrent keeps of its place: the path, and of the torrent the name and the names of its files. -/
structure Storage where
  path : List UInt8
  name : List UInt8
  files : List Metafile.FileName
deriving DecidableEq, Repr

/-- Api/Interface.h: the answers used here. -/
inductive Status where
  | success
  | invalidPath
  | notEmpty
  | allocationProblem
deriving DecidableEq, Repr

/-- Core/Storage.cpp:35-36, 41-42, 580-581: a separator is added. -/
def slash (p : List UInt8) : List UInt8 := if p ≠ [] ∧ p.getLast? ≠ some 47 then p ++ [47] else p

/-- Core/Storage.cpp:30-37 `init`. -/
def init (location : List UInt8) : List UInt8 := slash (location.map (fun c => if c = 92 then 47 else c))

/-- Core/Storage.cpp:566-574 `getRootpath`, `getCurrentRootpath` -/
def rootPath (name path : List UInt8) : Place := resolve (path ++ name)

/-- Core/Storage.cpp:576-592 `getFullpath`: the text of the path. -/
def fullText (f : Metafile.FileName) (path : List UInt8) : List UInt8 :=
  f.path.foldl (fun s p => s ++ p ++ [47]) (slash path) ++ f.name

/-- Core/Storage.cpp:576-597 `getFullpath` -/
def fullPath (f : Metafile.FileName) (path : List UInt8) : Place := resolve (fullText f path)

/-- Core/Storage.cpp:46-49: is there a folder?  The path ends with a separator; the empty path is nothing. -/
def folderThere (fs : Fs) (p : List UInt8) : Bool := p ≠ [] && get fs (resolve p) = some .dir

/-- Core/Storage.cpp:55-64: is the new place taken? -/
def taken (fs : Fs) (st : Storage) (n : Place) : Bool :=
  if st.files.length = 1 then fileSize fs n ≠ 0
  else present fs n && !isEmpty fs n

/-- Core/Storage.cpp:51-75: moving what is there. -/
def moveFiles (fs : Fs) (st : Storage) (p : List UInt8) : Status × Fs :=
  if taken fs st (rootPath st.name p) then (.notEmpty, fs)
  else if present fs (rootPath st.name st.path) then
    match rename fs (rootPath st.name st.path) (rootPath st.name p) with
    | some fs' => (.success, fs')
    | none => (.allocationProblem, fs)
  else (.success, fs)

/-- Core/Storage.cpp:51-84: moving, and making the folder. -/
def relocate (fs : Fs) (st : Storage) (p : List UInt8) (move : Bool) : Status × Fs :=
  if folderThere fs p then
    if move && !st.files.isEmpty then moveFiles fs st p else (.success, fs)
  else
    match createPath fs p with
    | some fs' => (.success, fs')
    | none => (.invalidPath, fs)

/-- Core/Storage.cpp:39-88 `setPath`. -/
def setPath (fs : Fs) (st : Storage) (p : List UInt8) (move : Bool) : Status × Fs × Storage :=
  if st.path = slash p then (.success, fs, st)
  else
    match relocate fs st (slash p) move with
    | (.success, fs') => (.success, fs', { st with path := slash p })
    | (s, fs') => (s, fs', st)

/-- Core/Storage.cpp:225-239 `deleteAll`. -/
def deleteAll (fs : Fs) (st : Storage) : Fs :=
  let fs1 := st.files.foldl (fun s f => remove s (fullPath f st.path)) fs
  if st.files.length > 1 then removeAll fs1 (rootPath st.name st.path) else fs1

/-- Core/Storage.cpp:206-223 `getAllocatedSize`. -/
def allocated (fs : Fs) (st : Storage) : List Nat :=
  st.files.map (fun f => if present fs (fullPath f st.path) then fileSize fs (fullPath f st.path) else 0)

/-- Api/Interface.h:193-202 `PathValidation`; the status is `none` if the room could not be found out. -/
structure Validation where
  missing : Nat := 0
  required : Nat := 0
  full : Nat := 0
  available : Nat := 0
  enough : Option Bool := none
deriving DecidableEq, Repr

/-- Core/Storage.cpp:626-638: the loop over the selected files, each with its number and the room it needs. -/
def needLoop (fs : Fs) (st : Storage) (path : List UInt8) : List (Nat × Nat) → Validation → Res Validation
  | [], v => .ok v
  | (i, size) :: rest, v => do
    let f ← rd st.files i
    let existing := if present fs (fullPath f path) then fileSize fs (fullPath f path) else 0
    needLoop fs st path rest
      { v with
        missing := if existing < size then (v.missing + (size - existing)) % 18446744073709551616 else v.missing
        required := (v.required + size) % 18446744073709551616 }

/-- Core/Storage.cpp:613-655 `validatePath` of an absolute path: `space` is what the system tells of the room at a place,
the whole and what is available.  It is asked at the root. -/
def validatePath (fs : Fs) (space : Place → Option (Nat × Nat)) (st : Storage) (selection : List (Nat × Nat))
    (path : List UInt8) : Res Validation := do
  let v ← needLoop fs st path selection {}
  match space [] with
  | none => pure v
  | some (full, available) =>
    pure { v with full, available, enough := some (!decide (available < v.missing)) }

end Verif.Location
