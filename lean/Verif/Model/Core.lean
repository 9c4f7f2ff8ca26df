import Verif.Model.Trackers
/-!
The list of torrents (Core/Core.cpp): adding files and magnets, removing torrents, saving the list and loading it.

Adding looks for the hash under the mutex, gives it free, and later appends under the mutex again
(Core/Core.cpp:174-191, 205-221), so it is two steps, and calls of other threads may come between them.  Everything
else is one step.
-/

namespace Verif.Torrents
open Verif

/-- An info hash. -/
abbrev Hash := List UInt8

/-- What reading a `.torrent` file or a magnet link yields (Api/Interface.h:87-100), as far as Core/Core.cpp looks at
it.  The reading itself is `Model/TorrentFile` and `Model/Magnet`. -/
structure Info where
  hash : Hash
  pieces : Nat
  announce : List (List UInt8)
deriving DecidableEq, Repr

/-- A torrent (Core/Torrent.h:22-76).  `id`: the object; `full`: `loadedState` is Full; `known`: the info dictionary is
in memory; `utm`: the metadata is fetched from peers. -/
structure Tor where
  id : Nat
  info : Info
  full : Bool
  known : Bool
  utm : Bool := false
  trackers : List Trackers.Info
deriving DecidableEq, Repr

/-- A `.torrent` file of the state folder: with an info dictionary, or written without knowing one
(Core/Api/InterfaceImpl.cpp:160-194); `sized`: with a piece length that is not 0. -/
inductive Content where
  | good (i : Info)
  | made (sized : Bool) (announce : List (List UInt8))
deriving DecidableEq, Repr

/-- The `.state` file of a listed torrent at launch: missing, of a torrent that does not run, of one that runs, or
without name. -/
inductive Saved where
  | absent | plain | started | unnamed
deriving DecidableEq, Repr

/-- The client.  `pending`: calls of threads that have not found the hash and have not appended yet; `files`: the
`.torrent` files, by the hash in their name; `list`: the saved list of torrents. -/
structure Sys where
  up : Bool := false
  torrents : List Tor := []
  pending : List (Nat × Tor) := []
  files : List (Hash × Content) := []
  list : List Hash := []
  fresh : Nat := 0
deriving DecidableEq, Repr

/-- `mtt::Status`, the values returned here. -/
inductive Status where
  | success | merged | alreadyExists | invalidInput
deriving DecidableEq, Repr

/-- The file of that hash. -/
def fileOf (fs : List (Hash × Content)) (h : Hash) : Option Content := (fs.find? fun f => f.1 == h).map (·.2)

/-- `Torrent::saveTorrentFile` (Core/Torrent.cpp:141-151): the file is replaced. -/
def putFile (fs : List (Hash × Content)) (h : Hash) (c : Content) : List (Hash × Content) :=
  (h, c) :: fs.filter fun f => f.1 != h

/-- `Torrent::removeMetaFiles` (Core/Torrent.cpp:153-158). -/
def dropFile (fs : List (Hash × Content)) (h : Hash) : List (Hash × Content) := fs.filter fun f => f.1 != h

/-- `Torrent::loadFileInfo` (Core/Torrent.cpp:91-114) with `Peers::reloadTorrentInfo` (Core/Peers.cpp:379-390; at launch
the trackers are added later, by the constructor of the peers).  A file made without info is a dictionary of
other contents, so it has another hash, `fake` of the old one; with a piece length of 0 reading it divides by zero
(utils/TorrentFileParser.cpp:226). -/
def loadInfo (fake : Hash → Hash) (fs : List (Hash × Content)) (t : Tor) : Res (Bool × Tor) :=
  if t.full then .ok (true, t)
  else if t.utm then .ok (false, t)
  else match fileOf fs t.info.hash with
    | none => .ok (false, { t with full := true })
    | some (.good i) =>
      .ok (true, { t with full := true, known := true, info := i, trackers := Trackers.addTrackers t.trackers i.announce })
    | some (.made sized an) =>
      if sized then
        .ok (true, { t with full := true, known := true, info := ⟨fake t.info.hash, 0, an⟩
                            trackers := Trackers.addTrackers t.trackers an })
      else .ub

/-- The loop of `Peers::importTrackers` (Core/Peers.cpp:320-331).  Returns the announce list, the trackers, and whether
one was added. -/
def importLoop : List (List UInt8) → List (List UInt8) → List Trackers.Info → Bool → List (List UInt8) × List Trackers.Info × Bool
  | [], an, ts, added => (an, ts, added)
  | u :: us, an, ts, added =>
    if an.contains u then importLoop us an ts added
    else match Trackers.addTracker ts u with
      | (ts, .success) => importLoop us (an ++ [u]) ts true
      | (ts, _) => importLoop us an ts added

/-- What `createTorrentFileData` makes of a torrent (Core/Api/InterfaceImpl.cpp:129-200).  A torrent of a saved state
knows its piece length, a magnet without metadata does not. -/
def contentOf (t : Tor) : Content := if t.known then .good t.info else .made (!t.utm) t.info.announce

/-- `Peers::importTrackers` (Core/Peers.cpp:312-343).  Taken as one step with the search for the torrent. -/
def importTrackers (fake : Hash → Hash) (fs : List (Hash × Content)) (t : Tor) (urls : List (List UInt8)) :
    Res (Tor × List (Hash × Content) × Bool) :=
  (loadInfo fake fs t).bind fun r =>
    let l := importLoop urls r.2.info.announce r.2.trackers false
    let t := { r.2 with info := { r.2.info with announce := l.1 }, trackers := l.2.1 }
    .ok (t, if l.2.2 then putFile fs t.info.hash (contentOf t) else fs, l.2.2)

/-- `Core::getTorrent` (Core/Core.cpp:233-244). -/
def getTorrent (ts : List Tor) (h : Hash) : Option Tor := ts.find? fun t => t.info.hash == h

/-- The torrent with that object is replaced. -/
def update (ts : List Tor) (t : Tor) : List Tor := ts.map fun x => if x.id = t.id then t else x

/-- The torrent was found: Core/Core.cpp:174-180, 210-216. -/
def merge (fake : Hash → Hash) (s : Sys) (t : Tor) (urls : List (List UInt8)) : Res (Sys × Option (Status × Option Nat)) :=
  (importTrackers fake s.files t urls).bind fun r =>
    .ok ({ s with torrents := update s.torrents r.1, files := r.2.1 },
      some (if r.2.2 then .merged else .alreadyExists, some t.id))

/-- `Torrent::fromFile` (Core/Torrent.cpp:21-35), with the constructor of the peers (Core/Peers.cpp:18-20). -/
def fromFile (id : Nat) (i : Info) : Tor :=
  { id := id, info := i, full := true, known := true, trackers := Trackers.addTrackers [] i.announce }

/-- `Torrent::fromMagnetLink` (Core/Torrent.cpp:37-49) with `downloadMetadata` (Core/Core.cpp:226), done when the torrent
is appended. -/
def fromMagnet (id : Nat) (i : Info) : Tor :=
  { id := id, info := i, full := false, known := false, utm := true, trackers := Trackers.addTrackers [] i.announce }

/-- `Torrent::fromSavedState` (Core/Torrent.cpp:51-89): the info is read at once if the name is missing or the torrent is
started. -/
def fromSaved (fake : Hash → Hash) (fs : List (Hash × Content)) (id : Nat) (h : Hash) : Saved → Res (Option Tor)
  | .absent => .ok none
  | .plain => .ok (some { id := id, info := ⟨h, 0, []⟩, full := false, known := false, trackers := [] })
  | .started =>
    (loadInfo fake fs { id := id, info := ⟨h, 0, []⟩, full := false, known := false, trackers := [] }).bind fun r => .ok (some r.2)
  | .unnamed =>
    (loadInfo fake fs { id := id, info := ⟨h, 0, []⟩, full := false, known := false, trackers := [] }).bind fun r =>
      .ok (if r.1 then some r.2 else none)

/-- The loop of `Core::init` (Core/Core.cpp:80-95). -/
def loadAll (fake : Hash → Hash) (saved : Hash → Saved) (fs : List (Hash × Content)) : List Hash → Nat → List Tor → Res (List Tor)
  | [], _, ts => .ok ts
  | h :: hs, id, ts =>
    (fromSaved fake fs id h (saved h)).bind fun r =>
      match r with
      | none => loadAll fake saved fs hs (id + 1) ts
      | some t =>
        if (getTorrent ts t.info.hash).isSome then loadAll fake saved fs hs (id + 1) ts
        else loadAll fake saved fs hs (id + 1) (ts ++ [t])

/-- Calls and happenings.  `crash`: the process dies; `file`, `magnet`: a thread calls `addFile`, `addMagnet`, which goes as far as the search
(`none`: the link cannot be read); `push`: the call of that thread goes on; `metadata`: the metadata of a magnet
is complete and has that info; `load`: a call that needs the info of a torrent (Core/Torrent.cpp:91); `disk`:
somebody else changes the state folder. -/
inductive Ev where
  | launch (saved : Hash → Saved)
  | quit
  | crash
  | file (th : Nat) (i : Info)
  | magnet (th : Nat) (i : Option Info)
  | push (th : Nat)
  | remove (h : Hash)
  | metadata (id : Nat) (i : Info)
  | load (id : Nat)
  | disk (h : Hash) (c : Option Content)

/-- `saveTorrentList` (Core/Core.cpp:100-109). -/
def names (ts : List Tor) : List Hash := ts.map fun t => t.info.hash

/-- The second half of adding: Core/Core.cpp:187-200, 218-230.  Without `init` there is no listener. -/
def push (s : Sys) (t : Tor) : Res (Sys × Option (Status × Option Nat)) :=
  if s.up then
    .ok ({ s with torrents := s.torrents ++ [t], list := names (s.torrents ++ [t])
                  files := if t.known then putFile s.files t.info.hash (.good t.info) else s.files },
      some (.success, some t.id))
  else .ub

/-- `Core::removeTorrent` (Core/Core.cpp:246-275). -/
def remove (s : Sys) (h : Hash) : Sys × Option (Status × Option Nat) :=
  match s.torrents.findIdx? fun t => t.info.hash == h with
  | none => (s, some (.invalidInput, none))
  | some k =>
    ({ s with torrents := s.torrents.eraseIdx k, list := names (s.torrents.eraseIdx k), files := dropFile s.files h },
      some (.success, none))

/-- One step; what the call returns: the status and the torrent.  `metadata`: Core/Torrent.cpp:214-226, the trackers stay. -/
def step (fake : Hash → Hash) (s : Sys) : Ev → Res (Sys × Option (Status × Option Nat))
  | .launch saved =>
    if s.up then .ok (s, none)
    else (loadAll fake saved s.files s.list s.fresh []).bind fun ts =>
      .ok ({ s with up := true, torrents := ts, fresh := s.fresh + s.list.length }, none)
  | .quit =>
    if s.up then .ok ({ s with up := false, torrents := [], list := names s.torrents }, none) else .ok (s, none)
  | .crash => .ok ({ s with up := false, torrents := [], pending := [] }, none)
  | .file th i =>
    if s.pending.any fun p => p.1 == th then .ok (s, none)
    else match getTorrent s.torrents i.hash with
      | some t => merge fake s t i.announce
      | none =>
        if i.pieces = 0 then .ok (s, some (.invalidInput, none))
        else .ok ({ s with pending := s.pending ++ [(th, fromFile s.fresh i)], fresh := s.fresh + 1 }, none)
  | .magnet th i =>
    if s.pending.any fun p => p.1 == th then .ok (s, none)
    else match i with
      | none => .ok (s, some (.invalidInput, none))
      | some i =>
        match getTorrent s.torrents i.hash with
        | some t => merge fake s t i.announce
        | none => .ok ({ s with pending := s.pending ++ [(th, fromMagnet s.fresh i)], fresh := s.fresh + 1 }, none)
  | .push th =>
    match s.pending.find? fun p => p.1 == th with
    | none => .ok (s, none)
    | some p => push { s with pending := s.pending.filter fun q => q.1 != th } p.2
  | .remove h => .ok (remove s h)
  | .metadata id i =>
    match s.torrents.find? fun t => t.id == id with
    | none => .ok (s, none)
    | some t =>
      if t.utm && !t.known then
        let t := { t with full := true, known := true, info := { i with announce := t.info.announce } }
        .ok ({ s with torrents := update s.torrents t, files := putFile s.files t.info.hash (.good t.info) }, none)
      else .ok (s, none)
  | .load id =>
    match s.torrents.find? fun t => t.id == id with
    | none => .ok (s, none)
    | some t => (loadInfo fake s.files t).bind fun r => .ok ({ s with torrents := update s.torrents r.2 }, none)
  | .disk h none => .ok ({ s with files := dropFile s.files h }, none)
  | .disk h (some c) => .ok ({ s with files := putFile s.files h c }, none)

/-- A history. -/
def run (fake : Hash → Hash) (s : Sys) : List Ev → Res Sys
  | [] => .ok s
  | e :: es => (step fake s e).bind fun r => run fake r.1 es

end Verif.Torrents
