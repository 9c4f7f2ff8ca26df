import Verif.Model.Downloader
/-! Bytes that are there, for C100. -/

namespace Verif.Spec.DataLeft
open Verif Layout PieceState Downloader

/-- The bytes of the blocks that are marked, from block `k` on, for sizes `f`. -/
def marked (f : Nat → Nat) : Nat → List UInt8 → Nat
  | _, [] => 0
  | k, b :: bs => (if b = 0 then 0 else f k) + marked f (k + 1) bs

/-- The size of block `k` of piece `idx`. -/
def blockSize (i : Info) (idx k : Nat) : Nat := (getPieceBlockInfo i idx k).length

/-- The bytes there of a piece being downloaded. -/
def bytesOf (i : Info) (idx : Nat) (u : PState) : Nat := marked (blockSize i idx) 0 u.blocksState

/-- The size of piece `i` of `full` bytes in pieces of `ps`. -/
def pieceBytes (ps full i : Nat) : Nat := min ps (full - i * ps)

/-- The layout of `full` bytes in `n` pieces, the last of which is shorter than the others. -/
structure Shape (i : Info) (n : Nat) : Prop where
  ps_pos : 0 < i.pieceSize
  ps_lt : i.pieceSize + 16384 ≤ 4294967296
  full_lt : i.fullSize < 18446744073709551616
  short : i.fullSize % i.pieceSize ≠ 0
  count : n = i.fullSize / i.pieceSize + 1
  last : i.lastPieceIndex + 1 = n
  lps : i.lastPieceSize = i.fullSize % i.pieceSize
  lbi : i.lastPieceLastBlockIndex = (i.lastPieceSize - 1) / 16384
  lbs : i.lastPieceLastBlockSize = i.lastPieceSize - (i.lastPieceSize - 1) / 16384 * 16384

/-- Blocks that arrive have the length of the block they are taken for. -/
def rightLength (i : Info) : Ev → Prop
  | .message _ (.piece b _) => b.length = blockSize i b.index ((b.begin + 1) % 4294967296 / 16384)
  | _ => True

/-- What is kept from an earlier run: counted right, of pieces that are not there, each once. -/
def KeptGood (s : St) : Prop :=
  (∀ u ∈ s.unfinished, u.downloadedSize = bytesOf s.files.info u.index u ∧
    (u.downloadedSize ≠ 0 → Progress.hasPiece s.files.progress u.index = .ok false)) ∧
  ((s.unfinished.filter (·.downloadedSize ≠ 0)).map (·.index)).Nodup

/-- The bytes of piece `j` that are there: all of it, or the blocks of it that arrived, while it is downloaded or kept. -/
def there (s : St) (j : Nat) : Nat :=
  if Progress.hasPiece s.files.progress j = .ok true then pieceBytes s.files.info.pieceSize s.files.info.fullSize j
  else match s.requests.get j with
    | some q => bytesOf s.files.info j q.piece
    | none => match s.unfinished.find? fun u => u.index = j ∧ u.downloadedSize ≠ 0 with
      | some u => bytesOf s.files.info j u
      | none => 0

/-- Of all pieces together. -/
def allThere (s : St) (n : Nat) : Nat := ((List.range n).map (there s)).sum

end Verif.Spec.DataLeft
