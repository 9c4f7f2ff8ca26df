import Verif.Model.Layout
/-! The blocks received of one piece (Core/Interface.cpp, `PieceState`) and the pieces kept over a
stop (Core/DownloadStorage.cpp, `UnfinishedPiecesState`). -/

namespace Verif.PieceState
open Verif Layout

/-- Core/Interface.h:47-56 `PieceState`. -/
structure PState where
  blocksState : List UInt8 := []
  remainingBlocks : Nat := 0
  downloadedSize : Nat := 0
  index : Nat := 0
deriving DecidableEq, Repr

/-- Core/Interface.cpp:103-108 `init`. -/
def init (p : PState) (idx blocksCount : Nat) : PState :=
  { p with remainingBlocks := blocksCount, blocksState := List.replicate blocksCount 0, index := idx }

/-- Core/Interface.cpp:112: the number of the block, in `uint32_t`. -/
def blockNo (begin : Nat) : Nat := u32 (begin + 1) / BlockMaxSize

/-- Core/Interface.cpp:110-124 `addBlock`. -/
def addBlock (p : PState) (b : BlockInfo) : Bool × PState :=
  if p.blocksState[blockNo b.begin]? = some 0 then
    (true, { p with
      blocksState := p.blocksState.set (blockNo b.begin) 1
      remainingBlocks := sub32 p.remainingBlocks 1
      downloadedSize := u32 (p.downloadedSize + b.length) })
  else (false, p)

/-- The blocks in order of arrival; returns what the calls answered. -/
def addBlocks (p : PState) : List BlockInfo → List Bool × PState
  | [] => ([], p)
  | b :: bs =>
    let r := addBlock p b
    let rs := addBlocks r.2 bs
    (r.1 :: rs.1, rs.2)

/-- Core/DownloadStorage.cpp:187-197 `UnfinishedPiecesState::add`. -/
def unfinishedAdd (ps added : List PState) : List PState := ps ++ added

/-- Core/DownloadStorage.cpp:211-220 `getDownloadSize` (a 64-bit sum of 32-bit values, which cannot
wrap for fewer than 2^32 pieces). -/
def unfinishedSize (ps : List PState) : Nat := (ps.map (·.downloadedSize)).sum

/-- Core/DownloadStorage.cpp:233-248 `load`. A moved-from vector is empty. -/
def unfinishedLoad (idx : Nat) : List PState → PState × List PState
  | [] => ({}, [])
  | u :: us =>
    if u.index = idx ∧ u.downloadedSize ≠ 0 then
      (u, { u with blocksState := [], downloadedSize := 0 } :: us)
    else
      let r := unfinishedLoad idx us
      (r.1, u :: r.2)

/-- Core/Downloader.cpp:531-545 `getRequest`, the piece of a new request. -/
def requestPiece (i : Info) (ps : List PState) (idx : Nat) : PState × List PState :=
  let r := unfinishedLoad idx ps
  (if r.1.blocksState.isEmpty then init r.1 idx (getPieceBlocksCount i idx) else r.1, r.2)

end Verif.PieceState
