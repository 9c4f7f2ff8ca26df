import Verif.Model.BencodeGet
import Verif.Model.Layout
/-! Metadata download for magnet links: Core/MetadataReconstruction.cpp, Core/MetadataExtension.cpp,
Core/MetadataDownload.cpp and the receiving end in Core/Torrent.cpp. -/

namespace Verif.Metadata
open Verif Layout Bencode

/-- Core/MetadataExtension.h:12. -/
def PieceSize : Nat := 16384

/-- Core/MetadataReconstruction.h:7-21. `remaining` is the `std::set`, in increasing order. -/
structure Meta where
  buffer : List UInt8 := []
  pieces : Nat := 0
  remaining : List Nat := []
  next : Nat := 0
deriving DecidableEq, Repr

/-- Core/MetadataReconstruction.cpp:10-16: the loop; inserted numbers increase. -/
def initLoop (sz pieces : Nat) (remaining : List Nat) : Nat × List Nat :=
  if sz > 0 then initLoop (if sz > PieceSize then sz - PieceSize else 0) (pieces + 1) (remaining ++ [pieces])
  else (pieces, remaining)
termination_by sz
decreasing_by unfold PieceSize; split <;> omega

/-- Core/MetadataReconstruction.cpp:5-17 `init` of a fresh object (the only caller initialises when
`pieces` is 0). -/
def init (sz : Nat) : Meta :=
  let r := initLoop sz 0 []
  { buffer := List.replicate sz 0, pieces := r.1, remaining := r.2, next := 0 }

/-- `memcpy(&buffer[0] + offset, data, size)`. -/
def copyAt (buffer : List UInt8) (offset : Nat) (data : List UInt8) : Res (List UInt8) :=
  if offset + data.length ≤ buffer.length then
    .ok (buffer.take offset ++ data ++ buffer.drop (offset + data.length))
  else .ub

/-- Core/MetadataReconstruction.cpp:19-31 `addPiece`. -/
def addPiece (m : Meta) (data : List UInt8) (index : Nat) : Res (Bool × Meta) :=
  if index ∈ m.remaining then do
    let b ← copyAt m.buffer (u32 (index * PieceSize)) data
    pure (true, { m with remaining := m.remaining.erase index, buffer := b })
  else .ok (false, m)

/-- Core/MetadataReconstruction.cpp:33-36 `finished`. -/
def finished (m : Meta) : Bool := m.remaining.isEmpty && m.pieces != 0

/-- Core/MetadataReconstruction.cpp:38-53 `getMissingPieceIndex`; `-1` as `uint32_t`. -/
def getMissing (m : Meta) : Nat × Meta :=
  match m.remaining.getLast? with
  | none => (4294967295, m)
  | some last =>
    let n := if m.next > last then 0 else m.next
    ((m.remaining.find? (fun k => n ≤ k)).getD 4294967295, { m with next := u32 (n + 1) })

/-- A call from outside: a piece arrives, or the next piece to request is asked for. -/
inductive Op where
  | add (data : List UInt8) (index : Nat)
  | next

/-- A sequence of calls; returns the pieces to request. -/
def run (m : Meta) : List Op → Res (List Nat × Meta)
  | [] => .ok ([], m)
  | .add data index :: ops => do
    let r ← addPiece m data index
    run r.2 ops
  | .next :: ops => do
    let r := getMissing m
    let rs ← run r.2 ops
    pure (r.1 :: rs.1, rs.2)

/-- The indices of the pieces that arrive. -/
def arrivals : List Op → List Nat
  | [] => []
  | .add _ index :: ops => index :: arrivals ops
  | .next :: ops => arrivals ops

/-! ### Messages -/

/-- Core/MetadataExtension.h:21-27. `none` is an uninitialised member. -/
structure Msg where
  type : Option Int := none
  piece : Option Nat := none
  metadata : List UInt8 := []
  totalSize : Option Nat := none
deriving DecidableEq, Repr

/-- Core/MetadataExtension.cpp:12-51 `Load`; `after` is the memory behind the message. -/
def load (fuel : Nat) (data after : List UInt8) : Res (Bool × Msg) := do
  let mem := data ++ after
  let p ← parse fuel data after
  match getRoot p.objs with
  | none => pure (false, {})
  | some root =>
    if root.type ≠ .dictionary then pure (false, {})
    else do
      match ← findKey mem p.objs 0 (ascii "msg_type") .number with
      | none => pure (true, {})
      | some j => do
        let o ← rd p.objs j
        let t ← getInt mem o
        if t = 0 ∨ t = 2 then do
          let piece ← getIntKey mem p.objs 0 (ascii "piece")
          pure (true, { type := some t, piece := some (piece % 4294967296).toNat })
        else if t = 1 then do
          let piece ← getIntKey mem p.objs 0 (ascii "piece")
          let total ← getIntKey mem p.objs 0 (ascii "total_size")
          let md := if total ≠ 0 ∧ p.remaining ≤ PieceSize then (mem.drop p.bodyEnd).take p.remaining else []
          pure (true, { type := some t, piece := some (piece % 4294967296).toNat,
                        totalSize := some (total % 4294967296).toNat, metadata := md })
        else pure (false, { type := some t })

/-- Core/MetadataExtension.cpp:77-97 `sendPieceResponse`: the message without the six header bytes
(length, Extended, extension id), which the receiver strips. -/
def pieceResponse (index : Nat) (data : List UInt8) (totalSize : Nat) : List UInt8 :=
  addRawData (endMap (addRawItemNumber (addRawItemNumber (addRawItemNumber (startMap [])
    (ascii "8:msg_type") 1) (ascii "5:piece") index) (ascii "10:total_size") totalSize)) data

/-! ### Download -/

/-- The result of `parseTorrentInfo` stored in the torrent, as far as this property needs it: the id and
the raw data. -/
structure TInfo where
  hash : List UInt8 := []
  data : List UInt8 := []
deriving DecidableEq, Repr

/-- Core/MetadataDownload.h:23-64 and the members of Core/Torrent.h touched: `info` is
`infoFile.info`. -/
structure Dl where
  active : Bool := true
  finishedFlag : Bool := false
  stopPosted : Bool := false
  md : Meta := {}
  info : TInfo := {}
deriving DecidableEq, Repr

/-- Core/MetadataDownload.cpp:105-146 for a loaded `Data` message (requests and events left out); an
uninitialised member used is undefined behaviour. -/
def receive (d : Dl) (ok : Bool) (msg : Msg) : Res Dl :=
  if !d.active then .ok d
  else if !ok then .ok d
  else match msg.type with
    | none => .ub
    | some 1 =>
      match msg.piece, msg.totalSize with
      | some piece, some total =>
        if d.md.buffer.length ≠ total then .ok d
        else do
          let r ← addPiece d.md msg.metadata piece
          if finished r.2 then pure { d with md := r.2, finishedFlag := true, stopPosted := d.stopPosted || !d.finishedFlag }
          else pure { d with md := r.2 }
      | _, _ => .ub
    | some _ => .ok d

/-- Messages one after the other, each loaded from its bytes (Core/MetadataDownload.cpp:112-114). -/
def receiveBytes (fuel : Nat) (d : Dl) : List (List UInt8 × List UInt8) → Res Dl
  | [] => .ok d
  | (data, after) :: ms => do
    let l ← load fuel data after
    let d' ← receive d l.1 l.2
    receiveBytes fuel d' ms

/-- Loaded messages one after the other. -/
def receiveAll (d : Dl) : List (Bool × Msg) → Res Dl
  | [] => .ok d
  | m :: ms => do
    let d' ← receive d m.1 m.2
    receiveAll d' ms

/-- Core/MetadataDownload.cpp:158-167: an extension handshake announcing a metadata size. -/
def handshake (d : Dl) (size : Nat) : Dl :=
  if size ≠ 0 ∧ d.md.pieces = 0 then { d with md := init size } else d

/-- utils/TorrentFileParser.cpp:140-157 `parseTorrentInfo`: the id of the info that `parses`. -/
def infoOf (sha1 : List UInt8 → List UInt8) (parses : List UInt8 → Bool) (buffer : List UInt8) : TInfo :=
  if parses buffer then { hash := sha1 buffer, data := buffer } else { hash := [], data := buffer }

/-- Core/MetadataDownload.cpp:45-61 `stop` with Core/Torrent.cpp:214-219: the `End` event replaces the
info of the torrent. -/
def stop (sha1 : List UInt8 → List UInt8) (parses : List UInt8 → Bool) (d : Dl) : Dl :=
  if d.active then
    if finished d.md then
      { d with active := false, info := infoOf sha1 parses d.md.buffer, md := { d.md with buffer := [] } }
    else { d with active := false }
  else d

/-- A message that may be used: all members set, the payload inside the metadata of that size. -/
def Fits (size : Nat) (m : Bool × Msg) : Prop :=
  m.1 = true → m.2.type ≠ none ∧ (m.2.type = some 1 → ∃ piece total, m.2.piece = some piece ∧ m.2.totalSize = some total ∧
    (total = size → piece * 16384 + m.2.metadata.length ≤ size))

end Verif.Metadata
