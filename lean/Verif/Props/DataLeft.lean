import Verif.Proof.DataLeft
import Verif.Props.Downloader

/-! C100: the bytes left, as told to trackers and shown. -/

namespace Verif
open Downloader Layout Progress PieceState Spec Spec.Download Spec.DataLeft DataLeft

namespace DataLeftEx

/-- One file of 40000 bytes in a piece of two blocks and one of 7232 bytes. -/
def info : Info :=
  { files := [⟨40000, 0, 0, 1, 7232⟩], piecesCount := 2, pieceSize := 32768, fullSize := 40000,
    lastPieceIndex := 1, lastPieceSize := 7232, lastPieceLastBlockIndex := 0, lastPieceLastBlockSize := 7232 }

def s0 : St := { files := ⟨info, [true], ⟨[0, 0], 2, 0, 0⟩⟩, prio := [50], running := false }

def state (es : List Downloader.Ev) : St :=
  match Downloader.run id [[1], [2]] s0 es with
  | .ok (s, _) => s
  | _ => s0

def hist (es : List Downloader.Ev) : History :=
  match Downloader.run id [[1], [2]] s0 es with
  | .ok (_, h) => h
  | _ => []

theorem ok {es : List Downloader.Ev} (h : (hist es).isEmpty = false) : Downloader.run id [[1], [2]] s0 es = .ok (state es, hist es) := by
  unfold hist at h
  unfold state hist
  split at h
  · next e => simp [e]
  · simp at h

/-- A peer with all pieces is asked; it sends block `k` of piece `i` with `n` bytes. -/
def asked : List Downloader.Ev := [.start [(0, 50), (1, 50)]] ++ DownloaderEx.peer 1 [192]
def sent (i k n : Nat) : Downloader.Ev := .message 1 (.piece ⟨i, k * 16384, n⟩ 5)

def partly : List Downloader.Ev := asked ++ [sent 0 0 16384, sent 1 0 7232, .stop]

theorem fresh : Download.Fresh s0 := ⟨rfl, rfl, rfl, rfl, rfl, rfl, rfl⟩
theorem kept : KeptOk s0 := by intro u hu; simp [s0] at hu
theorem good : KeptGood s0 := ⟨by intro u hu; simp [s0] at hu, by decide⟩
theorem rel : Rel s0.files.progress [⟨false, true⟩, ⟨false, true⟩] := by constructor <;> decide
theorem shape : Shape info 2 := by constructor <;> decide

end DataLeftEx

/-- After any history in which the blocks that arrive have the lengths asked for, the bytes said to be there are, piece by piece, the whole of the
pieces that are there and the blocks that arrived of the others, whether these are being downloaded or kept from before; no byte is counted twice; and
what is told as left is the rest, without wrapping.
Missing for the full property: sizes that are multiples of the piece size, see `C100_multiple_violated`; blocks of other lengths, see
`C100_length_violated`; and the API call that changes the selection without refreshing at once. -/
theorem C100_left_partial (sha : List UInt8 → List UInt8) (hashes : List (List UInt8)) (s0 : St) (hf : Download.Fresh s0) (hk : KeptOk s0)
    (hg : KeptGood s0) (l : Pieces) (hl : Rel s0.files.progress l) (hlen : l.length < 4294967296) (hs : Shape s0.files.info l.length)
    (es : List Downloader.Ev) (hns : ∀ e ∈ es, isSelect e = false) (hb : ∀ e ∈ es, rightLength s0.files.info e) (s : St) (h : History)
    (hr : Downloader.run sha hashes s0 es = .ok (s, h)) :
    finishedBytes s = .ok (allThere s l.length) ∧
    (∀ j, j < l.length → there s j ≤ pieceBytes s.files.info.pieceSize s.files.info.fullSize j) ∧
    allThere s l.length ≤ s.files.info.fullSize ∧
    dataLeft s = .ok (s.files.info.fullSize - allThere s l.length) := by
  obtain ⟨hI, hv⟩ := run_ver hf hk hl hlen es hns hr
  obtain ⟨hj, hi, hn⟩ := run_J hf hk hg hl hlen hs es hns hb hr
  exact left_state hI hv hj (by rw [hi]; exact hs) hn

/-- A block and a short last piece: 16384 and 7232 bytes are there, 16384 are left; and the same after stopping. -/
example : Downloader.run id [[1], [2]] DataLeftEx.s0 DataLeftEx.partly = .ok (DataLeftEx.state DataLeftEx.partly, DataLeftEx.hist DataLeftEx.partly) ∧
    dataLeft (DataLeftEx.state DataLeftEx.partly) = .ok 16384 ∧ allThere (DataLeftEx.state DataLeftEx.partly) 2 = 23616 :=
  ⟨DataLeftEx.ok (by decide +kernel), by decide +kernel, by decide +kernel⟩

example : Download.Fresh DataLeftEx.s0 ∧ KeptOk DataLeftEx.s0 ∧ KeptGood DataLeftEx.s0 ∧ Shape DataLeftEx.s0.files.info 2 ∧
    rightLength DataLeftEx.s0.files.info (DataLeftEx.sent 0 1 16384) ∧ rightLength DataLeftEx.s0.files.info (DataLeftEx.sent 1 0 7232) :=
  ⟨DataLeftEx.fresh, DataLeftEx.kept, DataLeftEx.good, DataLeftEx.shape, by unfold DataLeftEx.sent rightLength; decide, by unfold DataLeftEx.sent rightLength; decide⟩

/-- Under the same conditions nothing is left exactly when every byte of every piece is there. -/
theorem C100_zero_partial (sha : List UInt8 → List UInt8) (hashes : List (List UInt8)) (s0 : St) (hf : Download.Fresh s0) (hk : KeptOk s0)
    (hg : KeptGood s0) (l : Pieces) (hl : Rel s0.files.progress l) (hlen : l.length < 4294967296) (hs : Shape s0.files.info l.length)
    (es : List Downloader.Ev) (hns : ∀ e ∈ es, isSelect e = false) (hb : ∀ e ∈ es, rightLength s0.files.info e) (s : St) (h : History)
    (hr : Downloader.run sha hashes s0 es = .ok (s, h)) :
    dataLeft s = .ok 0 ↔ ∀ j, j < l.length → there s j = pieceBytes s.files.info.pieceSize s.files.info.fullSize j := by
  obtain ⟨-, h2, h3, h4⟩ := C100_left_partial sha hashes s0 hf hk hg l hl hlen hs es hns hb s h hr
  obtain ⟨-, hi, -⟩ := run_J hf hk hg hl hlen hs es hns hb hr
  have hp : ((List.range l.length).map (pieceBytes s.files.info.pieceSize s.files.info.fullSize)).sum = s.files.info.fullSize :=
    sum_pieces (by rw [hi]; exact hs)
  rw [h4]
  simp only [Res.ok.injEq]
  constructor
  · intro h0
    have he : allThere s l.length = s.files.info.fullSize := by omega
    rw [← hp] at he
    exact sum_eq_all h2 he
  · intro hall
    have : allThere s l.length = s.files.info.fullSize := by
      rw [← hp]; exact sum_congr hall
    omega

example : dataLeft (DataLeftEx.state (DataLeftEx.asked ++ [DataLeftEx.sent 0 0 16384, DataLeftEx.sent 1 0 7232, DataLeftEx.sent 0 1 16384])) = .ok 0 := by
  decide +kernel

/-- **Violated**: the length of a block that arrives is not compared with what was asked.  One of 60000 bytes makes more bytes there than the torrent
has, and what is left wraps to almost 2^64. -/
theorem C100_length_violated :
    let s := DataLeftEx.state (DataLeftEx.asked ++ [DataLeftEx.sent 0 0 60000])
    finishedBytes s = .ok 60000 ∧ s.files.info.fullSize = 40000 ∧ dataLeft s = .ok (18446744073709551616 - 20000) := by
  decide +kernel

/-- **Violated**: with a size that is a multiple of the piece size a complete torrent tells that one piece is left. -/
theorem C100_multiple_violated :
    let s := DownloaderEx.state DownloaderEx.whole
    finished s.files.progress = true ∧ dataLeft s = .ok 32768 := by
  decide +kernel

/-- **Violated**: the bytes of the selected files leave out what is kept of pieces: they fall when the torrent is stopped, though nothing is lost. -/
theorem C100_selected_violated :
    let s := DataLeftEx.state (DataLeftEx.asked ++ [DataLeftEx.sent 0 0 16384])
    let t := DataLeftEx.state (DataLeftEx.asked ++ [DataLeftEx.sent 0 0 16384, .stop])
    finishedSelectedBytes s = .ok 16384 ∧ finishedSelectedBytes t = .ok 0 ∧ finishedBytes s = .ok 16384 ∧ finishedBytes t = .ok 16384 := by
  decide +kernel

end Verif
