import Verif.Model.BencodeGet
import Verif.Model.PieceState
/-! The saved state of a torrent and the saved list of torrents (Core/State.cpp). A file is its
contents; opening and writing files is not modelled (a file that cannot be opened leaves everything as
it was). The file is read into a `std::string`, so one zero byte is readable after the contents. -/

namespace Verif.State
open Verif Bencode PieceState

/-- Core/State.h:9-40 `TorrentState`, with Api/Interface.h:105-109 `FileSelection` as a pair of
selected and priority (`uint8_t`, Api/Interface.h:100). `lastStateTime` has no initial value in the
code; it is 0 here. -/
structure TState where
  name : List UInt8 := []
  pieceSize : Nat := 0
  fullSize : Nat := 0
  downloadPath : List UInt8 := []
  selection : List (Bool × Nat) := []
  pieces : List UInt8 := []
  lastStateTime : Nat := 0
  addedTime : Nat := 0
  started : Bool := false
  unfinished : List PState := []
  downloaded : Nat := 0
  uploaded : Nat := 0
  version : Nat := 1
deriving DecidableEq, Repr

/-- Core/State.cpp:44-49: one unfinished piece. -/
def saveUnfinished (d : List UInt8) (p : PState) : List UInt8 :=
  let d := startMap d
  let d := addRawItemFromBuffer d (ascii "6:blocks") p.blocksState
  let d := addRawItemNumber d (ascii "9:remaining") p.remainingBlocks
  let d := addRawItemNumber d (ascii "5:index") p.index
  let d := addRawItemNumber d (ascii "10:downloaded") p.downloadedSize
  endMap d

/-- Core/State.cpp:56-59: the selection of one file. -/
def saveSelection (d : List UInt8) (s : Bool × Nat) : List UInt8 :=
  let d := startArray d
  let d := addNumber d s.1.toNat
  let d := addNumber d s.2
  endArray d

/-- Core/State.cpp:13-66 `TorrentState::save`: the contents of the file. -/
def save (s : TState) : List UInt8 :=
  let d := startMap []
  let d := startMapItem d (ascii "info")
  let d := addRawItemText d (ascii "4:name") s.name
  let d := addRawItemNumber d (ascii "9:pieceSize") s.pieceSize
  let d := addRawItemNumber d (ascii "8:fullSize") s.fullSize
  let d := endMap d
  let d := addRawItemText d (ascii "12:downloadPath") s.downloadPath
  let d := addRawItemFromBuffer d (ascii "6:pieces") s.pieces
  let d := addRawItemNumber d (ascii "13:lastStateTime") s.lastStateTime
  let d := addRawItemNumber d (ascii "9:addedTime") s.addedTime
  let d := addRawItemNumber d (ascii "7:started") s.started.toNat
  let d := addRawItemNumber d (ascii "8:uploaded") s.uploaded
  let d := addRawItemNumber d (ascii "10:downloaded") s.downloaded
  let d := addRawItemNumber d (ascii "7:version") s.version
  let d := startRawArrayItem d (ascii "10:unfinished")
  let d := s.unfinished.foldl saveUnfinished d
  let d := endArray d
  let d := startRawArrayItem d (ascii "9:selection")
  let d := s.selection.foldl saveSelection d
  let d := endArray d
  endMap d

/-- Conversion of an `int` to `uint32_t`. -/
def toU32 (v : Int) : Nat := (v % 4294967296).toNat

/-- Core/State.cpp:85-90: the entry "info". -/
def loadInfo (mem : List UInt8) (objs : List Obj) (s : TState) : Res TState := do
  match ← findKey mem objs 0 (ascii "info") .dictionary with
  | none => pure s
  | some k => do
    let name ← getTxtKey mem objs k (ascii "name")
    let pieceSize ← getIntKey mem objs k (ascii "pieceSize")
    let fullSize ← getBigIntKey mem objs k (ascii "fullSize")
    pure { s with name := name, pieceSize := toU32 pieceSize, fullSize := fullSize % 4294967296 }

/-- Core/State.cpp:92-98: the plain entries. -/
def loadPlain (mem : List UInt8) (objs : List Obj) (s : TState) : Res TState := do
  let downloadPath ← getTxtKey mem objs 0 (ascii "downloadPath")
  let lastStateTime ← getBigIntKey mem objs 0 (ascii "lastStateTime")
  let addedTime ← getBigIntKey mem objs 0 (ascii "addedTime")
  let started ← getIntKey mem objs 0 (ascii "started")
  let uploaded ← getBigIntKey mem objs 0 (ascii "uploaded")
  let downloaded ← getBigIntKey mem objs 0 (ascii "downloaded")
  let version ← getIntKey mem objs 0 (ascii "version")
  pure { s with downloadPath := downloadPath, lastStateTime := lastStateTime, addedTime := addedTime,
                started := decide (started ≠ 0), uploaded := uploaded, downloaded := downloaded,
                version := toU32 version }

/-- Core/State.cpp:100-103: the entry "pieces". -/
def loadPieces (mem : List UInt8) (objs : List Obj) (s : TState) : Res TState := do
  match ← getTxtItem mem objs 0 (ascii "pieces") with
  | none => pure s
  | some t => pure { s with pieces := t }

/-- Core/State.cpp:107-124: the elements of "unfinished". -/
def loadUnfinishedLoop (mem : List UInt8) (objs : List Obj) : List Nat → Res (List PState)
  | [] => .ok []
  | k :: ks => do
    let o ← rd objs k
    let here : List PState ←
      if o.type = .dictionary then do
        match ← getTxtItem mem objs k (ascii "blocks") with
        | some t => do
          let index ← getIntKey mem objs k (ascii "index")
          let remaining ← getIntKey mem objs k (ascii "remaining")
          let downloaded ← getIntKey mem objs k (ascii "downloaded")
          if t ≠ [] ∧ toU32 downloaded ≠ 0 then
            pure [{ blocksState := t, remainingBlocks := toU32 remaining, downloadedSize := toU32 downloaded,
                    index := toU32 index }]
          else pure []
        | none => pure []
      else pure []
    let rest ← loadUnfinishedLoop mem objs ks
    pure (here ++ rest)

/-- Core/State.cpp:104-125: the entry "unfinished". -/
def loadUnfinished (mem : List UInt8) (objs : List Obj) (s : TState) : Res TState := do
  match ← findKey mem objs 0 (ascii "unfinished") .list with
  | none => pure s
  | some k => do
    let ks ← items objs k
    let us ← loadUnfinishedLoop mem objs ks
    pure { s with unfinished := us }

/-- `getInt()` of an item that exists; lists and dictionaries have no data, `strtol` then gets a null
pointer (utils/BencodeParser.cpp:309-312). -/
def itemInt (mem : List UInt8) (objs : List Obj) (k : Nat) : Res Int := do
  let o ← rd objs k
  if o.type = .number ∨ o.type = .text then getInt mem o else .ub

/-- Core/State.cpp:129-138: the elements of "selection"; a missing item is a null pointer. -/
def loadSelectionLoop (mem : List UInt8) (objs : List Obj) : List Nat → Res (List (Bool × Nat))
  | [] => .ok []
  | k :: ks => do
    let o ← rd objs k
    let here : Bool × Nat ←
      if o.type = .list then do
        match ← firstItem objs k with
        | none => .ub
        | some f => do
          let sel ← itemInt mem objs f
          match ← nextSibling objs f with
          | none => .ub
          | some g => do
            let prio ← itemInt mem objs g
            pure (decide (sel ≠ 0), (prio % 256).toNat)
      else pure (false, 50)
    let rest ← loadSelectionLoop mem objs ks
    pure (here :: rest)

/-- Core/State.cpp:126-139: the entry "selection". -/
def loadSelection (mem : List UInt8) (objs : List Obj) (s : TState) : Res TState := do
  match ← findKey mem objs 0 (ascii "selection") .list with
  | none => pure s
  | some k => do
    let ks ← items objs k
    let sel ← loadSelectionLoop mem objs ks
    pure { s with selection := sel }

/-- Core/State.cpp:68-143 `TorrentState::load` of a file with the contents `data` into `s`. -/
def load (fuel : Nat) (s : TState) (data : List UInt8) : Res (Bool × TState) := do
  let mem := data ++ [0]
  let p ← parse fuel data [0]
  match getRoot p.objs with
  | none => pure (false, s)
  | some _ => do
    let s ← loadInfo mem p.objs s
    let s ← loadPlain mem p.objs s
    let s ← loadPieces mem p.objs s
    let s ← loadUnfinished mem p.objs s
    let s ← loadSelection mem p.objs s
    pure (true, s)

/-- Core/State.cpp:165-167: one torrent of the list. -/
def saveName (d : List UInt8) (name : List UInt8) : List UInt8 :=
  endMap (addRawItemText (startMap d) (ascii "4:name") name)

/-- Core/State.cpp:151-172 `TorrentsList::save`: the contents of the file. -/
def saveList (names : List (List UInt8)) : List UInt8 :=
  endArray (names.foldl saveName (startArray []))

/-- Core/State.cpp:192-198: the elements of the list. -/
def loadListLoop (mem : List UInt8) (objs : List Obj) : List Nat → Res (List (List UInt8))
  | [] => .ok []
  | k :: ks => do
    let name ← getTxtKey mem objs k (ascii "name")
    let rest ← loadListLoop mem objs ks
    pure (name :: rest)

/-- Core/State.cpp:174-202 `TorrentsList::load`; the file's root is taken to be a list (the iterator of
a dictionary steps two objects at a time). -/
def loadList (fuel : Nat) (names : List (List UInt8)) (data : List UInt8) : Res (Bool × List (List UInt8)) := do
  let p ← parse fuel data [0]
  match getRoot p.objs with
  | none => pure (false, names)
  | some _ => do
    let ks ← items p.objs 0
    let ns ← loadListLoop (data ++ [0]) p.objs ks
    pure (true, ns)

end Verif.State
