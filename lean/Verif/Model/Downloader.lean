import Verif.Model.PieceState
import Verif.Model.Map
/-! Choosing what to download from whom, and what becomes of the blocks (Core/Downloader.cpp), with the
parts of Core/PeerCommunication.cpp, Core/FileTransfer.cpp and Core/DownloadStorage.cpp that feed it.

Every handler is one step: `requestsMutex` is held over almost all of it. (`sortPieces` called from
`FileTransfer::updateMeasures`, the tests of `messageReceived` before the lock and the API calls on
`files.progress` are not protected by it; they are taken to be free of data races.) Connections are
numbered. Times do not appear: what depends on them is an argument of the events. -/

namespace Verif.Downloader
open Verif Layout Progress PieceState

/-- Core/PeerCommunication.h `PeerState::action`: before the handshake, after it, after `close()`. -/
inductive Action where
  | opened
  | established
  | closed
deriving DecidableEq, Repr

/-- What the downloader looks at in a `PeerCommunication`: `state.action`, `state.peerChoking`,
`state.amInterested`, `info.pieces` (Core/PeerCommunication.h; Api/Interface.h). -/
structure Peer where
  action : Action := .opened
  choking : Bool := true
  interested : Bool := false
  pieces : PP := {}
deriving DecidableEq, Repr

/-- Core/Downloader.h:42-47 `RequestedPiece`. -/
structure ReqPiece where
  idx : Nat
  active : Nat := 0
  blocks : List Bool := []
deriving DecidableEq, Repr

/-- Core/Downloader.h:40-56 `PeerRequestsInfo`. `delta` is `deltaReceive`, truncated: a number that
depends on the times of arrival. -/
structure PeerReq where
  current : List ReqPiece := []
  requested : List Nat := []
  delta : Nat := 0
  group : Nat := 0
  suspicion : Nat := 0
deriving DecidableEq, Repr

/-- Core/Downloader.h:71-78 `RequestInfo`; sets of peers as lists. -/
structure Req where
  piece : PState
  counter : Nat := 0
  active : List Nat := []
  sources : List Nat := []
  groups : List Nat := []
deriving DecidableEq, Repr

/-- The state of the downloader, of the files and of the connections. `checks`: the piece checks
posted to the pool of the storage. `finishes`: posted calls of `finish`. `running`:
`FileTransfer::refreshTimer` is set. -/
structure St where
  files : FilesState
  prio : List Nat
  sorted : List (Nat × Nat) := []
  requests : Map Req := []
  infos : Map PeerReq := []
  peers : Map Peer := []
  groupIdx : Nat := 0
  fastCheck : Bool := true
  checking : Nat := 0
  checks : List (Nat × Req) := []
  fresh : List Nat := []
  unfinished : List PState := []
  finishes : Nat := 0
  running : Bool := true
deriving DecidableEq, Repr

/-- What is sent, told to others, or visible through the API. `completed i`: all blocks of piece `i`
are there, its request is gone and it counts as received. `dropped i`: its request is gone. -/
inductive Act where
  | request (p : Nat) (b : BlockInfo)
  | interested (p : Nat)
  | close (p : Nat)
  | ban (p : Nat)
  | have (p idx : Nat)
  | bitfield (p : Nat) (data : List UInt8)
  | store (b : BlockInfo)
  | completed (idx : Nat)
  | dropped (idx : Nat)
  | finished
  | failed
deriving DecidableEq, Repr

/-- Core/Downloader.cpp:171-175 `isMissingPiece`. -/
def missing (s : St) (idx : Nat) : Res Bool := wantedPiece s.files.progress idx

def insertNew (l : List Nat) (x : Nat) : List Nat := if x ∈ l then l else l ++ [x]

/-- Core/Downloader.cpp:531-545 `getRequest`. -/
def getRequest (s : St) (idx : Nat) : St × Req :=
  match s.requests.get idx with
  | some q => (s, q)
  | none =>
    let r := requestPiece s.files.info s.unfinished idx
    ({ s with requests := s.requests.put idx { piece := r.1 }, unfinished := r.2 }, { piece := r.1 })

/-- Core/Downloader.cpp:651-671: `n` turns from block `next`, `count` already sent. -/
def sendLoop (i : Info) (bs : List UInt8) (bc max : Nat) :
    Nat → Nat → Nat → ReqPiece → Res (ReqPiece × Nat × List BlockInfo)
  | 0, _, count, r => .ok (r, count, [])
  | n + 1, next, count, r => do
    let b ← rd bs next
    let free ← if b = 0 then do
        let f ← rd r.blocks next
        pure (!f)
      else pure false
    let r' := if free then { r with blocks := r.blocks.set next true, active := u32 (r.active + 1) } else r
    let count' := if free then count + 1 else count
    let o := if free then [getPieceBlockInfo i r.idx next] else []
    if count' = max then pure (r', count', o)
    else do
      let t ← sendLoop i bs bc max n ((next + 1) % bc) count' r'
      pure (t.1, t.2.1, o ++ t.2.2)

/-- Core/Downloader.cpp:644-675 `sendPieceRequests`: the changed entry of the peer, the changed
request, the number of blocks and the blocks. The number of blocks of the piece is cut to 16 bits;
a remainder by zero is undefined behaviour. -/
def sendPieceRequests (i : Info) (r : ReqPiece) (q : Req) (max : Nat) :
    Res (ReqPiece × Req × Nat × List BlockInfo) :=
  let bc := q.piece.blocksState.length % 65536
  if bc = 0 then .ub
  else do
    let t ← sendLoop i q.piece.blocksState bc max bc (q.counter % bc) 0 r
    pure (t.1, { q with counter := (q.counter + t.2.1) % 65536 }, t.2.1, t.2.2)

/-- Core/Downloader.cpp:563-564, 628: nobody is asked for the piece. -/
def idle (s : St) (idx : Nat) : Bool :=
  match s.requests.get idx with
  | none => true
  | some q => q.active.isEmpty

/-- Core/Downloader.cpp:556-570. -/
def fastFind (s : St) (pp : PP) (first : Nat) : List (Nat × Nat) → Res (Option Nat)
  | [] => .ok none
  | (idx, pr) :: rest =>
    if first ≠ pr then .ok none
    else do
      let m ← missing s idx
      let h ← if m then hasPiece pp idx else pure false
      if h && idle s idx then pure (some idx) else fastFind s pp first rest

/-- Core/Downloader.cpp:581-602 `getBestSharedRequest`. -/
def bestShared (s : St) (info : PeerReq) (shared : List Nat) : Option Nat :=
  shared.foldl (fun best idx =>
    match s.requests.get idx with
    | none => best
    | some q =>
      if info.group ≠ 0 ∧ info.group ∈ q.groups then best
      else
        match best.bind s.requests.get with
        | none => some idx
        | some b =>
          if b.active.length > q.active.length ∨ (b.active.length = q.active.length ∧ b.counter > q.counter) then
            some idx else best) none

/-- Core/Downloader.cpp:604-641: the chosen piece, and `fastCheck` if it is set. -/
def slowFind (s : St) (info : PeerReq) (pp : PP) (first : Nat) :
    List (Nat × Nat) → Nat → List Nat → Res (Option Nat × Bool)
  | [], _, shared => .ok (bestShared s info shared, false)
  | (idx, pr) :: rest, last, shared => do
    let m ← missing s idx
    let h ← if m then hasPiece pp idx else pure false
    if h then
      match (if last > pr then bestShared s info shared else none) with
      | some i => pure (some i, false)
      | none =>
        if idle s idx then pure (some idx, pr == first)
        else if info.current.any fun r => r.idx == idx then slowFind s info pp first rest pr shared
        else slowFind s info pp first rest pr (shared ++ [idx])
    else slowFind s info pp first rest last shared

/-- Core/Downloader.cpp:547-642 `getBestNextRequest`: the index of the request, which is in the map
afterwards. -/
def getBestNextRequest (s : St) (info : PeerReq) (pp : PP) : Res (St × Option Nat) :=
  match s.sorted with
  | [] => .ok (s, none)
  | (_, first) :: _ => do
    let f ← if s.fastCheck then fastFind s pp first s.sorted else pure none
    match f with
    | some idx => pure ((getRequest s idx).1, some idx)
    | none => do
      let r ← slowFind s info pp first s.sorted first []
      let s := { s with fastCheck := r.2 }
      match r.1 with
      | some idx => pure ((getRequest s idx).1, some idx)
      | none => pure (s, none)

/-- Core/Downloader.cpp:492-493: `std::clamp((uint32_t)info.deltaReceive, 5, 100)`. -/
def limit (delta : Nat) : Nat := max 5 (min delta 100)

/-- Core/Downloader.cpp:505-511: more blocks of the pieces already asked for. -/
def moreLoop (mx : Nat) : List ReqPiece → St → Nat → Res (St × Nat × List ReqPiece × List BlockInfo)
  | [], s, cur => .ok (s, cur, [], [])
  | r :: rs, s, cur => do
    let g := getRequest s r.idx
    let t ← sendPieceRequests s.files.info r g.2 (mx - cur)
    let s := { g.1 with requests := g.1.requests.put r.idx t.2.1 }
    let cur := cur + t.2.2.1
    if cur ≥ mx then pure (s, cur, t.1 :: rs, t.2.2.2)
    else do
      let u ← moreLoop mx rs s cur
      pure (u.1, u.2.1, t.1 :: u.2.2.1, t.2.2.2 ++ u.2.2.2)

/-- Core/Downloader.cpp:503-512. -/
def firstLoop (mx : Nat) (c : List ReqPiece) (s : St) (cur : Nat) : Res (St × Nat × List ReqPiece × List BlockInfo) :=
  if cur < mx then moreLoop mx c s cur else .ok (s, cur, c, [])

/-- Core/Downloader.cpp:514-529: new pieces, at most `n - 1` of them. The pointer `request` is that of
the map element `idx`. -/
def nextLoop (p : Nat) (pp : PP) (mx : Nat) : Nat → St → PeerReq → Nat → Res (St × PeerReq × List BlockInfo)
  | 0, _, _, _ => .diverge
  | n + 1, s, info, cur =>
    if cur < mx then do
      let g ← getBestNextRequest s info pp
      match g.2 with
      | none => pure (g.1, info, [])
      | some idx =>
        match g.1.requests.get idx with
        | none => .ub
        | some q => do
          let t ← sendPieceRequests g.1.files.info ⟨q.piece.index, 0, List.replicate q.piece.blocksState.length false⟩
            { q with active := insertNew q.active p } (mx - cur)
          let u ← nextLoop p pp mx n { g.1 with requests := g.1.requests.put idx t.2.1 }
            { info with current := info.current ++ [t.1], requested := info.requested ++ [q.piece.index] }
            (cur + t.2.2.1)
          pure (u.1, u.2.1, t.2.2.2 ++ u.2.2)
    else .ok (s, info, [])

/-- Core/Downloader.cpp:677-689 `hasWantedPieces`. -/
def hasWanted (s : St) (pp : PP) : List (Nat × Nat) → Res Bool
  | [] => .ok false
  | (idx, _) :: rest =>
    if pp.pieces.length ≠ s.files.info.piecesCount then .ok false
    else do
      let m ← missing s idx
      let h ← if m then hasPiece pp idx else pure false
      if h then pure true else hasWanted s pp rest

/-- Core/PeerCommunication.cpp:290-298 `requestPieceBlock`: sent only on an established connection. -/
def asks (p : Nat) (peer : Peer) (bs : List BlockInfo) : List Act :=
  if peer.action = .established then bs.map (Act.request p) else []

/-- Core/Downloader.cpp:480-529 `evaluateNextRequests`, with `setInterested`
(Core/PeerCommunication.cpp:262-274). No connection of that number: a dangling pointer. The loop for
new pieces takes a different piece every time, so it ends within the number of selected pieces. -/
def evaluate (s : St) (p : Nat) : Res (St × List Act) :=
  match s.infos.get p with
  | none => .ok (s, [])
  | some info =>
    match s.peers.get p with
    | none => .ub
    | some peer =>
      if peer.choking then
        if peer.interested then .ok (s, [])
        else do
          let w ← hasWanted s peer.pieces s.sorted
          if w ∧ peer.action = .established then
            pure ({ s with peers := s.peers.put p { peer with interested := true } }, [.interested p])
          else pure (s, [])
      else do
        let mx := limit info.delta
        let cur := u32 ((info.current.map (·.active)).sum)
        let m ← firstLoop mx info.current s cur
        let u ← nextLoop p peer.pieces mx (s.sorted.length + 1) m.1 { info with current := m.2.2.1 } m.2.1
        pure ({ u.1 with infos := u.1.infos.put p u.2.1 }, asks p peer (m.2.2.2 ++ u.2.2))

/-- Core/Downloader.cpp:338-341 `blockIdx`. -/
def blockIdx (begin : Nat) : Nat := begin / BlockMaxSize

/-- Core/Downloader.cpp:350-361: the answer is taken off the first entry of the piece. -/
def answer (b : BlockInfo) : List ReqPiece → Res (Option (List ReqPiece))
  | [] => .ok none
  | r :: rs =>
    if r.idx = b.index then do
      let f ← rd r.blocks (blockIdx b.begin)
      pure (some ((if f then { r with blocks := r.blocks.set (blockIdx b.begin) false, active := sub32 r.active 1 }
        else r) :: rs))
    else do
      let t ← answer b rs
      pure (t.map (r :: ·))

/-- Core/Downloader.cpp:343-370 `addPeerBlockResponse`: the changed entry of the peer, and whether the
block was asked for. `delta` is the result of `received()` (:691-704). -/
def addPeerBlockResponse (info : PeerReq) (b : BlockInfo) (delta : Nat) : Res (PeerReq × Bool) := do
  let a ← answer b info.current
  match a with
  | some cur => pure ({ info with current := cur, delta := delta }, true)
  | none => pure ({ info with delta := delta }, info.requested.contains b.index)

/-- Core/Downloader.cpp:322-332 and :449-455: the first entry of the piece is taken off. -/
def dropEntry (idx : Nat) (l : List ReqPiece) : List ReqPiece := l.eraseP fun r => r.idx == idx

/-- Core/Downloader.cpp:280-318: the block goes into its request, if there is one and the block is new. -/
def takeBlock (s : St) (p group : Nat) (b : BlockInfo) : Res (St × List Act) :=
  match s.requests.get b.index with
  | none => .ok (s, [])
  | some q =>
    let a := addBlock q.piece b
    if a.1 then
      let q := { q with
        piece := a.2
        groups := if group ≠ 0 then insertNew q.groups group else q.groups
        sources := insertNew q.sources p }
      if q.piece.remainingBlocks = 0 then do
        let m ← missing s q.piece.index
        let prog ← addPiece s.files.progress b.index
        pure ({ s with
          checks := if m then s.checks ++ [(b.index, q)] else s.checks
          checking := if m then u32 (s.checking + 1) else s.checking
          files := { s.files with progress := prog }
          requests := s.requests.del b.index
          infos := s.infos.mapAll fun _ i => { i with current := dropEntry b.index i.current } },
          [.store b, .completed b.index])
      else .ok ({ s with requests := s.requests.put b.index q }, [.store b])
    else .ok (s, [])

/-- Core/Downloader.cpp:263-336 `pieceBlockReceived`. -/
def pieceBlockReceived (s : St) (p : Nat) (b : BlockInfo) (delta : Nat) : Res (St × List Act) :=
  match s.infos.get p with
  | none => .ok (s, [])
  | some info => do
    let a ← addPeerBlockResponse info b delta
    let s := { s with infos := s.infos.put p a.1 }
    if a.2 then do
      let t ← takeBlock s p a.1.group b
      let u ← evaluate t.1 p
      pure (u.1, t.2 ++ u.2)
    else pure (s, [])

/-- Core/Downloader.cpp:372-388 `unchokePeer`. -/
def unchokePeer (s : St) (p : Nat) : Res (St × List Act) :=
  match s.infos.get p with
  | none => .ok (s, [])
  | some info =>
    let current := info.current.map fun r => { r with active := 0, blocks := List.replicate r.blocks.length false }
    evaluate { s with infos := s.infos.put p { info with current := current } } p

/-- What the downloader looks at in a `PeerMessage`. -/
inductive Msg where
  | choke
  | unchoke
  | have (idx : Nat)
  | bitfield (data : List UInt8)
  | piece (b : BlockInfo) (delta : Nat)
  | other
deriving DecidableEq, Repr

/-- Core/PeerCommunication.cpp:367-390, what a message does to the object of the connection. -/
def receive (peer : Peer) : Msg → Res Peer
  | .choke => .ok { peer with choking := true }
  | .unchoke => .ok { peer with choking := false }
  | .have idx => do
    let pp ← addPiece peer.pieces idx
    pure { peer with pieces := pp }
  | .bitfield data => do
    let pp ← fromBitfieldData peer.pieces data
    pure { peer with pieces := pp }
  | _ => .ok peer

/-- `peersRequestsInfo[comm]`: the entry is made if it is not there. -/
def touch (m : Map PeerReq) (p : Nat) : Map PeerReq :=
  match m.get p with
  | some _ => m
  | none => m.put p {}

/-- Core/FileTransfer.cpp:97-103: the pieces of the peer are counted, one read for each piece of the
torrent. -/
def countAvailable (n : Nat) (pp : PP) : Msg → Res Unit
  | .bitfield _ => if pp.pieces.length < n then .ub else .ok ()
  | _ => .ok ()

/-- Core/Downloader.cpp:390-421 `messageReceived`, after Core/FileTransfer.cpp:75-106 (what concerns the
uploader is left out; the counts of available pieces matter for the order of `sorted` only, which is
arbitrary here). -/
def messageReceived (s : St) (p : Nat) (peer : Peer) (m : Msg) : Res (St × List Act) := do
  countAvailable s.files.info.piecesCount peer.pieces m
  if selectedFinished s.files.progress then
    if peer.action = .established ∧ finished peer.pieces then
      pure ({ s with peers := s.peers.put p { peer with action := .closed } }, [.close p])
    else pure (s, [])
  else
    match m with
    | .piece b delta => pieceBlockReceived s p b delta
    | .unchoke => unchokePeer s p
    | .have idx => do
      let w ← missing s idx
      if w then evaluate { s with infos := touch s.infos p } p else pure (s, [])
    | .bitfield _ => do
      let w ← hasWanted s peer.pieces s.sorted
      if w then evaluate { s with infos := touch s.infos p } p else pure (s, [])
    | _ => pure (s, [])

/-- A message on connection `p`: Core/PeerCommunication.cpp:363-432, Core/Peers.cpp `messageReceived`. -/
def message (s : St) (p : Nat) (m : Msg) : Res (St × List Act) :=
  match s.peers.get p with
  | none => .ok (s, [])
  | some peer => do
    let peer ← receive peer m
    let s := { s with peers := s.peers.put p peer }
    if s.running then messageReceived s p peer m else pure (s, [])

/-- Core/PeerCommunication.cpp:407-428 and Core/FileTransfer.cpp:57-67: the handshake of the peer
arrives, the bitfield is sent. -/
def handshake (s : St) (p : Nat) : Res (St × List Act) :=
  match s.peers.get p with
  | none => .ok (s, [])
  | some peer =>
    if peer.action = .opened then do
      let peer := { peer with action := .established, pieces := Progress.init peer.pieces s.files.info.piecesCount }
      let s := { s with peers := s.peers.put p peer }
      if s.running ∧ ¬ empty s.files.progress then do
        let d ← toBitfield s.files.progress
        pure (s, [.bitfield p d])
      else pure (s, [])
    else .ok (s, [])

/-- Core/Downloader.cpp:105-123 `connectionClosed`. -/
def connectionClosed (s : St) (p : Nat) : St :=
  match s.infos.get p with
  | none => s
  | some info => { s with
      requests := s.requests.mapAll fun idx q =>
        if info.current.any fun r => r.idx == idx then { q with active := q.active.erase p } else q
      infos := s.infos.del p }

/-- Api/Status.h, what is told apart of the result of a check. -/
inductive Check where
  | success
  | mismatch
  | error
deriving DecidableEq, Repr

/-- Core/DownloadStorage.cpp:41-53: the result of a check, from the bytes of the piece in the cache and
on the disk (`none`: they could not be read) and the hash in the metadata. -/
def checkResult (sha : List UInt8 → List UInt8) (hash : List UInt8) : Option (List UInt8) → Check
  | none => .error
  | some d => if sha d = hash then .success else .mismatch

/-- `torrent.peers->disconnect(peer, true)` (Core/Peers.cpp:265-284): the connection is closed; the
notification comes later. -/
def closePeer (m : Map Peer) (p : Nat) : Map Peer :=
  match m.get p with
  | some peer => m.put p { peer with action := .closed }
  | none => m

/-- Core/Downloader.cpp:229-260: one source of the piece. -/
def refreshSource (c : Check) (sources : Nat) (s : St) (p : Nat) : St × List Act :=
  match s.infos.get p with
  | none => (s, [])
  | some info =>
    match c with
    | .success => ({ s with infos := s.infos.put p { info with group := 0, suspicion := 0 } }, [])
    | .error => (s, [])
    | .mismatch =>
      let susp := u32 (info.suspicion + 1)
      let s := { s with infos := s.infos.put p { info with suspicion := susp } }
      if sources = 1 ∨ susp > 2 then
        ({ s with
          infos := if info.group ≠ 0 then
              s.infos.mapAll fun _ i => if i.group = info.group then { i with group := 0 } else i
            else s.infos
          peers := closePeer s.peers p }, [.ban p])
      else ({ s with infos := s.infos.put p { info with suspicion := susp, group := s.groupIdx } }, [])

/-- Core/Downloader.cpp:224-261 `refreshPieceSources`. -/
def refreshSources (c : Check) (sources : Nat) : List Nat → St → St × List Act
  | [], s => (s, [])
  | p :: ps, s =>
    let t := refreshSource c sources s p
    let u := refreshSources c sources ps t.1
    (u.1, t.2 ++ u.2)

/-- Core/Downloader.cpp:192-222 `pieceChecked`. -/
def pieceChecked (s : St) (idx : Nat) (c : Check) (q : Req) : Res (St × List Act) := do
  let s := { s with checking := sub32 s.checking 1 }
  let prog ← if c = .success then pure s.files.progress else removePiece s.files.progress idx
  let s := { s with
    fresh := if c = .success then s.fresh ++ [idx] else s.fresh
    files := { s.files with progress := prog }
    groupIdx := if c = .mismatch then u32 (s.groupIdx + 1) else s.groupIdx }
  let t := refreshSources c q.sources.length q.sources s
  if c = .success then
    pure ({ t.1 with finishes :=
      if selectedFinished t.1.files.progress ∧ t.1.checking = 0 then t.1.finishes + 1 else t.1.finishes }, t.2)
  else pure (t.1, t.2 ++ if c = .error then [.failed] else [])

/-- A posted check runs (any of them: the pool has two threads), with the bytes that are read. -/
def check (sha : List UInt8 → List UInt8) (hashes : List (List UInt8)) (s : St) (k : Nat)
    (data : Option (List UInt8)) : Res (St × List Act) :=
  match s.checks[k]? with
  | none => .ok (s, [])
  | some (idx, q) => do
    let h ← rd hashes idx
    pieceChecked { s with checks := s.checks.eraseIdx k } idx (checkResult sha h data) q

/-- Core/Downloader.cpp:177-190 `finish`: seeds are left, the end is reported. -/
def finish (s : St) : Res (St × List Act) :=
  if s.finishes = 0 then .ok (s, [])
  else
    let seed (p : Nat) : Bool := match s.peers.get p with
      | some peer => peer.action = .established ∧ finished peer.pieces
      | none => false
    let ps := (s.infos.map (·.1)).filter seed
    .ok ({ s with finishes := s.finishes - 1
                  peers := ps.foldl closePeer s.peers }, ps.map .close ++ [.finished])

/-- Core/Downloader.cpp:432-441: the pieces of one file, put behind those already there. -/
def filePieces (start count prio : Nat) (acc : List (Nat × Nat)) : List (Nat × Nat) :=
  (List.range' start count).foldl (fun acc idx =>
    if acc.getLast?.map (·.1) = some idx then acc else acc ++ [(idx, prio)]) acc

/-- Core/Downloader.cpp:429-442: the pieces of the selected files. -/
def selectedList : List File → List Bool → List Nat → List (Nat × Nat) → List (Nat × Nat)
  | f :: fs, sel :: sels, pr :: prs, acc =>
    selectedList fs sels prs
      (if sel then filePieces f.startPieceIndex (f.endPieceIndex + 1 - f.startPieceIndex) pr acc else acc)
  | _, _, _, acc => acc

/-- Core/Downloader.cpp:446-465: the requests of pieces no longer missing are dropped. -/
def dropLoop (s : St) : List Nat → Res (St × List Act)
  | [] => .ok (s, [])
  | idx :: rest => do
    let m ← missing s idx
    if m then dropLoop s rest
    else do
      let t ← dropLoop { s with
        requests := s.requests.del idx
        infos := s.infos.mapAll fun _ i => { i with current := dropEntry idx i.current } } rest
      pure (t.1, .dropped idx :: t.2)

/-- Core/Downloader.cpp:476-477. -/
def evaluateAll : List Nat → St → Res (St × List Act)
  | [], s => .ok (s, [])
  | p :: ps, s => do
    let t ← evaluate s p
    let u ← evaluateAll ps t.1
    pure (u.1, t.2 ++ u.2)

/-- Core/Downloader.cpp:421-479 `refreshSelection`. `order` is what shuffling and sorting make of the
list of selected pieces; only events with an `order` that is a permutation of it happen. -/
def refreshSelection (s : St) (order : List (Nat × Nat)) : Res (St × List Act) := do
  let t ← dropLoop { s with sorted := order } (s.requests.map (·.1))
  if selectedFinished t.1.files.progress then pure t
  else do
    let u ← evaluateAll (t.1.infos.map (·.1)) t.1
    pure (u.1, t.2 ++ u.2)

/-- Is `order` an order of the selected pieces? -/
def orderOk (s : St) (order : List (Nat × Nat)) : Bool :=
  order.isPerm (selectedList s.files.info.files s.files.selection s.prio [])

/-- Core/Downloader.cpp:23-43 `stop`, after `Peers::stop` (Core/Peers.cpp:59-93) closed all connections
and told the listener. -/
def stop (s : St) : St :=
  let s := (s.peers.map (·.1)).foldl connectionClosed s
  { s with
    running := false
    peers := []
    unfinished := unfinishedAdd s.unfinished ((s.requests.map (·.2.piece)).filter fun u => u.downloadedSize ≠ 0)
    requests := []
    infos := [] }

/-- What can happen. `select` is the first half of an API call that changes the selection
(Core/Files.cpp:145-196: `Files::select`, then possibly allocation of files), `refresh` the second
half (`Torrent::refreshSelection`); `selectFile` is both without anything in between. `tick` is the
part of `FileTransfer::updateMeasures` (Core/FileTransfer.cpp:225-257) that announces pieces. -/
inductive Ev where
  | connect (p : Nat)
  | handshake (p : Nat)
  | message (p : Nat) (m : Msg)
  | closed (p : Nat)
  | check (k : Nat) (data : Option (List UInt8))
  | finish
  | select (idx : Nat) (sel : Bool)
  | setPriority (idx prio : Nat)
  | refresh (order : List (Nat × Nat))
  | selectFile (idx : Nat) (sel : Bool) (order : List (Nat × Nat))
  | sort (order : List (Nat × Nat))
  | tick
  | start (order : List (Nat × Nat))
  | stop
deriving DecidableEq, Repr

/-- Core/FileTransfer.cpp:249-251: every fresh piece is announced on every established connection. -/
def announce (s : St) : List Act :=
  ((s.peers.map (·.1)).filter fun p => (s.peers.get p).map (·.action) = some .established).flatMap fun p =>
    s.fresh.map (Act.have p)

def select (s : St) (idx : Nat) (sel : Bool) : Res St := do
  let f ← Layout.selectFile s.files idx sel
  pure { s with files := f }

def step (sha : List UInt8 → List UInt8) (hashes : List (List UInt8)) (s : St) : Ev → Res (St × List Act)
  | .connect p => .ok (if (s.peers.get p).isSome ∨ ¬ s.running then s else { s with peers := s.peers.put p {} }, [])
  | .handshake p => handshake s p
  | .message p m => message s p m
  | .closed p => .ok ({ connectionClosed s p with peers := s.peers.del p }, [])
  | .check k data => check sha hashes s k data
  | .finish => finish s
  | .select idx sel => do
    let s ← select s idx sel
    pure (s, [])
  | .setPriority idx prio => .ok ({ s with prio := s.prio.set idx prio }, [])
  | .refresh order => if s.running ∧ orderOk s order then refreshSelection s order else .ok (s, [])
  | .selectFile idx sel order => do
    let t ← select s idx sel
    if t.running then (if orderOk t order then refreshSelection t order else pure (s, [])) else pure (t, [])
  | .sort order => .ok (if order.isPerm s.sorted then { s with sorted := order } else s, [])
  | .tick => .ok (if s.running then ({ s with fresh := [] }, announce s) else (s, []))
  | .start order =>
    if s.running ∨ ¬ orderOk s order then .ok (s, []) else refreshSelection { s with running := true } order
  | .stop => .ok (stop s, [])

/-- A history: the state and what was done at each event. -/
def run (sha : List UInt8 → List UInt8) (hashes : List (List UInt8)) (s : St) :
    List Ev → Res (St × List (Ev × List Act))
  | [] => .ok (s, [])
  | e :: es => do
    let t ← step sha hashes s e
    let u ← run sha hashes t.1 es
    pure (u.1, (e, t.2) :: u.2)

end Verif.Downloader
