import Verif.Common

/-!
Model of the life of one torrent (Core/Torrent.cpp, with what Core/Files.cpp, Core/Core.cpp and
Core/MetadataDownload.cpp contribute): starting, stopping, checking of files, arrival of metadata, saving
and loading over restarts, and work left in the torrent's thread pool.

Every call of the interface and every handler of the pool is one step; the pool's handlers wait in
`posts` and `checks` and are run by separate events, in any order.  A handler that needs the torrent's
mutex while its owner waits for the handler's thread hangs: outcome `diverge`.
-/

namespace Verif.Life

/-- `mttApi::Torrent::State` (Api/Torrent.h:28-35).  `Stopping` cannot be seen between steps. -/
inductive St where
  | stopped | active | checking | metadata
deriving Repr, DecidableEq

/-- `mtt::Torrent::StopReason` (Core/Torrent.h:35). -/
inductive Reason where
  | deinit | manual | internal
deriving Repr, DecidableEq

/-- What `Files::start` meets on the disk (Core/Files.cpp:33-76): nothing special, files changed since they
were last seen so that a check begins, or preallocation failing. -/
inductive Env where
  | fine | check | fail
deriving Repr, DecidableEq

/-- The metadata download of a magnet (Core/MetadataDownload.h, `State`): running, complete; `named`: what
arrives has a name. -/
structure Utm where
  active : Bool := true
  finished : Bool := false
  named : Bool := false
deriving Repr, DecidableEq

/-- Handlers handed to the pool by `service.post`: start after metadata (Core/Torrent.cpp:233), stop after a
failed write (Core/Downloader.cpp:217-222), end of the metadata download
(Core/MetadataDownload.cpp:138-139). -/
inductive Task where
  | start | stopErr | utmStop
deriving Repr, DecidableEq

/-- A torrent (Core/Torrent.h:22-76).  `err`: `lastError` is not Success; `full`: `loadedState` is Full;
`hasInfo`: the info dictionary is in memory; `named`: its name is not empty; `cur`: the check in
`Files::checkState`; `checks`: checks still worked on, with their `rejected`; `transfer`: `FileTransfer` is
started (Core/FileTransfer.cpp:19-55). -/
structure T where
  started : Bool := false
  changed : Bool := false
  err : Bool := false
  full : Bool := false
  hasInfo : Bool := false
  named : Bool := false
  utm : Option Utm := none
  checking : Bool := false
  cur : Option Nat := none
  checks : List (Nat × Bool) := []
  next : Nat := 0
  transfer : Bool := false
  posts : List Task := []
deriving Repr, DecidableEq

/-- What a state file tells (Core/State.h, `TorrentState`; its reading and writing is `Model/State`):
started, and whether the name is not empty. -/
structure Saved where
  started : Bool
  named : Bool
deriving Repr, DecidableEq

/-- The state folder as far as this torrent goes: its `.state` file, its `.torrent` file (with or without a
name), and whether the list of torrents mentions it. -/
structure Disk where
  state : Option Saved := none
  file : Option Bool := none
  listed : Bool := false
deriving Repr, DecidableEq

/-- The client: whether it runs, the torrent, if it is loaded, and the state folder. -/
structure Sys where
  up : Bool := true
  tor : Option T := none
  disk : Disk := {}
deriving Repr, DecidableEq

/-- `Torrent::getState` (Core/Torrent.cpp:240-252). -/
def T.state (t : T) : St :=
  if t.checking then .checking
  else if (match t.utm with | some u => u.active | none => false) then .metadata
  else if !t.started then .stopped
  else .active

/-- `Torrent::save` (Core/Torrent.cpp:116-139).  Writing is taken to succeed. -/
def save (t : T) (d : Disk) : T × Disk :=
  if t.changed then ({ t with changed := t.started }, { d with state := some ⟨t.started, t.named⟩ })
  else (t, d)

/-- `Files::stop` (Core/Files.cpp:79-90). -/
def filesStop (t : T) : T :=
  if t.checking then
    { t with
      checking := false
      checks := match t.cur with
        | some i => t.checks.map fun c => if c.1 = i then (c.1, true) else c
        | none => t.checks }
  else t

/-- `MetadataDownload::stop` (Core/MetadataDownload.cpp:44-61) with the callback given by
`Torrent::downloadMetadata` (Core/Torrent.cpp:214-235): complete metadata is taken over and written, the
state is marked changed, and if the torrent is started a `start` is posted. -/
def utmStop (t : T) (d : Disk) : T × Disk :=
  match t.utm with
  | some u =>
    if u.active then
      if u.finished then
        ({ t with
            utm := some { u with active := false }
            hasInfo := true, full := true, named := u.named, changed := true
            posts := if t.started then t.posts ++ [.start] else t.posts },
          { d with file := some u.named })
      else ({ t with utm := some { u with active := false } }, d)
    else (t, d)
  | none => (t, d)

/-- `ServiceThreadpool::stop` (utils/ServiceThreadpool.cpp:47-60) called with the torrent's mutex held and
`stopping` set: waits until the handlers are done.  A posted `start`, and the `start` that follows a check
that was not rejected (Core/Torrent.cpp:169-182), wait for the mutex, so nobody proceeds; a `stop` returns
at once. -/
def join (t : T) : Res T :=
  if t.posts.contains .start || t.checks.any (fun c => !c.2) then .diverge
  else .ok { t with posts := [], checks := [], checking := false, cur := none }

/-- Only an internal stop leaves the pool alone (Core/Torrent.cpp:334-335). -/
def waitPool (r : Reason) (t : T) : Res T := if r = .internal then .ok t else join t

/-- The rest of `Torrent::stop` for a started torrent (Core/Torrent.cpp:337-350). -/
def stopTail (r : Reason) (t : T) (d : Disk) : T × Disk :=
  let t := if r = .manual then { t with started := false } else t
  let (t, d) := save t d
  ({ t with started := false, err := if r = .internal then t.err else false }, d)

/-- `Torrent::stop` (Core/Torrent.cpp:308-351). -/
def stop (r : Reason) (t : T) (d : Disk) : Res (T × Disk) :=
  let t := filesStop t
  let (t, d) := utmStop t d
  if !t.started then .ok (save t d)
  else (waitPool r { t with transfer := false }).bind fun t => .ok (stopTail r t d)

/-- `Torrent::loadFileInfo` (Core/Torrent.cpp:91-114). -/
def loadInfo (t : T) (d : Disk) : Bool × T :=
  if t.full then (true, t)
  else if t.utm.isSome then (false, t)
  else match d.file with
    | some n => (true, { t with full := true, hasInfo := true, named := n })
    | none => (false, { t with full := true, err := true })

/-- `Files::checkFiles` (Core/Files.cpp:348-390) with `Torrent::prepareForChecking`
(Core/Torrent.cpp:160-167). -/
def beginCheck (t : T) : T :=
  if t.checking then t
  else { t with
    checks := t.checks ++ [(t.next, false)], cur := some t.next, next := t.next + 1
    checking := true, transfer := false, err := false }

/-- `Files::start` (Core/Files.cpp:33-76). -/
def filesStart (env : Env) (t : T) : T :=
  if t.checking then { t with err := false }
  else match env with
    | .fine => { t with err := false }
    | .check => { beginCheck t with err := false }
    | .fail => { t with err := true }

/-- The second half of `Torrent::start` (Core/Torrent.cpp:285-305); the result tells whether it returned
Success. -/
def startFiles (env : Env) (t : T) (d : Disk) : Res (Bool × T × Disk) :=
  let (loaded, t) := loadInfo t d
  let t := if loaded then filesStart env t else t
  if t.err then do
    let (t, d) ← stop .internal t d
    .ok (false, t, d)
  else
    .ok (true, { t with started := true, changed := true, transfer := t.transfer || !t.checking }, d)

/-- `Torrent::start` (Core/Torrent.cpp:270-306); `downloadMetadata` (Core/Torrent.cpp:207-238) sets the
download going again. -/
def start (env : Env) (t : T) (d : Disk) : Res (Bool × T × Disk) :=
  if t.state = .metadata then .ok (true, { t with started := true }, d)
  else match t.utm with
    | some u =>
      if u.finished then startFiles env t d
      else .ok (true, { t with utm := some { u with active := true } }, d)
    | none => startFiles env t d

/-- The end of check number `i` in `checks`: `localOnFinish` (Core/Files.cpp:358-370) and
`Torrent::refreshAfterChecking` (Core/Torrent.cpp:169-182). -/
def checkDone (i : Nat) (env : Env) (t : T) (d : Disk) : Res (T × Disk) :=
  match t.checks[i]? with
  | none => .ok (t, d)
  | some c =>
    let t := { t with checks := t.checks.eraseIdx i, checking := false, cur := none }
    if c.2 then .ok (t, d)
    else
      let t := { t with changed := true }
      if t.started then do
        let (_, t, d) ← start env t d
        .ok (t, d)
      else stop .manual t d

/-- Handler number `i` of `posts` runs. -/
def runPost (i : Nat) (env : Env) (t : T) (d : Disk) : Res (T × Disk) :=
  match t.posts[i]? with
  | none => .ok (t, d)
  | some p =>
    let t := { t with posts := t.posts.eraseIdx i }
    match p with
    | .start => do
      let (_, t, d) ← start env t d
      .ok (t, d)
    | .stopErr => stop .internal { t with err := true } d
    | .utmStop => .ok (utmStop t d)

/-- The destructor of a torrent (Core/Torrent.h:22-76, members in reverse order): the pool, whose destructor
waits for its handlers (utils/ServiceThreadpool.cpp:14-17), goes after the mutex, the peers and the
transfer, so a handler that calls `start`, `stop` or the metadata download finds them gone.  A rejected
check only uses what is still there.  Nobody else is taken to own the torrent. -/
def destroy (t : T) : Res Unit :=
  if t.posts.isEmpty && t.checks.all (fun c => c.2) then .ok () else .ub

/-- `Torrent::fromSavedState` (Core/Torrent.cpp:51-89) as called by `Core::init` (Core/Core.cpp:75-95). -/
def launch (env : Env) (d : Disk) : Res (Option T × Disk) :=
  if !d.listed then .ok (none, d)
  else match d.state with
    | none => .ok (none, d)
    | some s =>
      let t : T := { named := s.named }
      let (ok, t) := if s.named then (true, t) else
        let (ok, t) := loadInfo t d
        (ok, { t with changed := true })
      if !ok then .ok (none, d)
      else if s.started then do
        let (_, t, d) ← start env t d
        .ok (some t, d)
      else .ok (some t, d)

/-- Events.  `addFile`/`addMagnet`: `Core::addFile`, `Core::addMagnet` for a torrent not loaded; `start`,
`stop`, `check`: the calls of the interface; `metaDone`: the last piece of the metadata arrives
(Core/MetadataDownload.cpp:133-141); `fail`: the downloader cannot write (Core/Downloader.cpp:215-223);
`select`: a change of the selection, with the outcome of preallocation (Core/Files.cpp:145-219); `touch`:
any other call that loads the info; `quit`: `Core::deinit`; `crash`: the process dies; `launch`:
`Core::init`; `loseFile`: the `.torrent` file disappears. -/
inductive Ev where
  | addFile (named : Bool)
  | addMagnet (named : Bool)
  | start (env : Env)
  | stop
  | check
  | checkDone (i : Nat) (env : Env)
  | metaDone (named : Bool)
  | post (i : Nat) (env : Env)
  | fail
  | select (ok : Bool)
  | touch
  | quit
  | crash
  | launch (env : Env)
  | remove
  | loseFile
deriving Repr, DecidableEq

/-- One step.  Adding: Core/Core.cpp:170-231 with `Torrent::fromFile`, `fromMagnetLink`
(Core/Torrent.cpp:21-49); `select`: Core/Files.cpp:145-219 with `Torrent::refreshSelection`
(Core/Torrent.cpp:184-192); quitting: Core/Core.cpp:122-131; removing: Core/Core.cpp:246-275 with
`removeMetaFiles` (Core/Torrent.cpp:153-158).  The result of `start` is returned.  Duplicates are the
business of `Model/Core`. -/
def step (s : Sys) (e : Ev) : Res (Sys × Option Bool) :=
  match s.tor, e with
  | none, .addFile n =>
    if s.up then
      .ok ({ s with tor := some { full := true, hasInfo := true, changed := true, named := n }
                    disk := { s.disk with file := some n, listed := true } }, none)
    else .ok (s, none)
  | none, .addMagnet n =>
    if s.up then
      .ok ({ s with tor := some { named := n, utm := some {} }
                    disk := { s.disk with listed := true } }, none)
    else .ok (s, none)
  | none, .launch env =>
    if s.up then .ok (s, none)
    else do
      let (t, d) ← launch env s.disk
      .ok (⟨true, t, d⟩, none)
  | none, .quit =>
    if s.up then .ok (⟨false, none, { s.disk with listed := false }⟩, none) else .ok (s, none)
  | none, .crash => .ok ({ s with up := false }, none)
  | none, .loseFile => .ok ({ s with disk := { s.disk with file := none } }, none)
  | none, _ => .ok (s, none)
  | some t, .start env => do
    let (b, t, d) ← start env t s.disk
    .ok ({ s with tor := some t, disk := d }, some b)
  | some t, .stop => do
    let (t, d) ← stop .manual t s.disk
    .ok ({ s with tor := some t, disk := d }, none)
  | some t, .check => .ok ({ s with tor := some (beginCheck t) }, none)
  | some t, .checkDone i env => do
    let (t, d) ← checkDone i env t s.disk
    .ok ({ s with tor := some t, disk := d }, none)
  | some t, .metaDone n =>
    match t.utm with
    | some u =>
      if u.active && !u.finished then
        .ok ({ s with tor := some { t with utm := some { u with finished := true, named := n }
                                           posts := t.posts ++ [.utmStop] } }, none)
      else .ok (s, none)
    | none => .ok (s, none)
  | some t, .post i env => do
    let (t, d) ← runPost i env t s.disk
    .ok ({ s with tor := some t, disk := d }, none)
  | some t, .fail =>
    if t.transfer then .ok ({ s with tor := some { t with posts := t.posts ++ [.stopErr] } }, none)
    else .ok (s, none)
  | some t, .select ok =>
    if t.started && !ok then do
      let (t, d) ← stop .internal { t with err := true } s.disk
      .ok ({ s with tor := some t, disk := d }, none)
    else .ok ({ s with tor := some { t with changed := true } }, none)
  | some t, .touch => .ok ({ s with tor := some (loadInfo t s.disk).2 }, none)
  | some t, .quit => do
    let (t, d) ← stop .deinit t { s.disk with listed := true }
    destroy t
    .ok (⟨false, none, d⟩, none)
  | some _, .crash => .ok (⟨false, none, s.disk⟩, none)
  | some t, .remove => do
    let (t, _) ← stop .manual t s.disk
    destroy t
    .ok ({ s with tor := none, disk := {} }, none)
  | some _, .loseFile => .ok ({ s with disk := { s.disk with file := none } }, none)
  | some _, _ => .ok (s, none)

/-- A sequence of steps. -/
def run (s : Sys) : List Ev → Res Sys
  | [] => .ok s
  | e :: es => do
    let (s, _) ← step s e
    run s es

/-- What the interface reports: nothing if the torrent is not there. -/
def Sys.report (s : Sys) : Option St := s.tor.map T.state

end Verif.Life
