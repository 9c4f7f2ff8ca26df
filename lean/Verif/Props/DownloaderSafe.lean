import Verif.Proof.DownloaderSafe
import Verif.Props.Downloader
/-! C69: messages of peers and the tables of the downloader.

`run sha hashes s0 es = .ok _`: every event of `es` was handled. Otherwise some handler read outside of a table or divided
by zero (`.ub`), or did not end (`.diverge`). -/

namespace Verif
open Downloader Layout Progress Spec Spec.Download

/-- C69 (partial: for messages that come after the handshake, with the bitfield first, and name only pieces and blocks the
torrent has; see the `C69_…_violated` theorems for the others): whatever peers send and in whatever order connections,
messages, checks, selections and stops come, every event is handled within the tables, and its loops end. -/
theorem C69_safe_partial (sha : List UInt8 → List UInt8) (hashes : List (List UInt8)) (s0 : St) (es : List Downloader.Ev)
    (l : Pieces) (hf : Download.Fresh s0) (hk : KeptOk s0) (hl : Rel s0.files.progress l)
    (hn : l.length = s0.files.info.piecesCount) (hi : SaneInfo s0.files.info)
    (ho : ∀ x ∈ s0.sorted, x.1 < s0.files.info.piecesCount)
    (hsel : s0.files.selection.length = s0.files.info.files.length)
    (hh : s0.files.info.piecesCount ≤ hashes.length) (hp : Polite es) (hs : ∀ e ∈ es, saneEv s0.files.info e) :
    ∃ s h, Downloader.run sha hashes s0 es = .ok (s, h) := by
  have h32 : l.length < 4294967296 := by have := hi.pieces; omega
  obtain ⟨hI, hv⟩ := run_ver (sha := sha) (hashes := hashes) hf hk hl h32 [] (s := s0) (h := []) (by simp) rfl
  have hw := w_fresh hf (by rw [← hn, hl.pieces]; simp) hi.pieces
  obtain ⟨r, hr⟩ := run_safe (sha := sha) es _ _ hI hw hv hi ho hsel hh hp hs
  exact ⟨r.1, r.2, hr⟩

namespace DownloaderEx

theorem sane : SaneInfo s0.files.info where
  pieces := by decide
  blocks := by
    intro idx h
    have h' : idx < 2 := h
    rcases (show idx = 0 ∨ idx = 1 by omega) with rfl | rfl <;> decide
  files := by decide

/-- A peer disconnects and comes back, a file is left out and taken again, a block comes twice. -/
def busy : List Downloader.Ev :=
  [.start both] ++ peer 1 [128] ++ peer 2 [192] ++ [recv 1 0 0, recv 1 0 0, .selectFile 1 false [(0, 50)], recv 2 1 1,
    .message 1 (.have 1), .closed 2, .selectFile 1 true both, .message 1 .choke, .message 1 .unchoke] ++ peer 2 [64] ++
  [recv 2 1 0, recv 2 1 1, .check 0 none, .stop, .start both]

end DownloaderEx

open DownloaderEx

example : ∃ s h, Downloader.run id DownloaderEx.hashes DownloaderEx.s0 busy = .ok (s, h) :=
  C69_safe_partial id DownloaderEx.hashes DownloaderEx.s0 busy _ fresh kept rel rfl sane (by simp [DownloaderEx.s0]) rfl (by decide) (by
    simp [Polite, politeFrom, busy, peer, recv, politeEv, phaseEv]) (by
    simp [busy, peer, recv, saneEv, DownloaderEx.s0, two, block, getPieceBlocksCount, u32, BlockMaxSize])

/-- What happens there: everything asked for and stored. -/
example : (acts busy).map (·.flatten.length) = some 22 := by decide +kernel

/-- C69 is violated: a peer says that it has a piece past the last one, and the table of our pieces is read there. -/
theorem C69_have_violated : ∃ es, Polite es ∧ Downloader.run id DownloaderEx.hashes DownloaderEx.s0 es = .ub :=
  ⟨[.start both] ++ peer 1 [192] ++ [.message 1 (.have 2)],
    by simp [Polite, politeFrom, peer, politeEv, phaseEv], by decide +kernel⟩

/-- C69 is violated: the index 2^32 - 1 makes the table of the pieces of the peer empty, and then it is read, even before
anything is downloaded. -/
theorem C69_have_max_violated : ∃ es, Polite es ∧ Downloader.run id DownloaderEx.hashes DownloaderEx.s0 es = .ub :=
  ⟨[.start both, .connect 1, .handshake 1, .message 1 (.have 4294967295)],
    by simp [Polite, politeFrom, politeEv, phaseEv], by decide +kernel⟩

/-- C69 is violated: a block that begins past the end of a piece being asked for. -/
theorem C69_block_violated : ∃ es, Polite es ∧ Downloader.run id DownloaderEx.hashes DownloaderEx.s0 es = .ub :=
  ⟨[.start both] ++ peer 1 [192] ++ [.message 1 (.piece ⟨0, 32768, 16384⟩ 5)],
    by simp [Polite, politeFrom, peer, politeEv, phaseEv], by decide +kernel⟩

/-- C69 is violated: a bitfield that is too short. -/
theorem C69_bitfield_violated : ∃ es, Polite es ∧ Downloader.run id DownloaderEx.hashes DownloaderEx.s0 es = .ub :=
  ⟨[.start both, .connect 1, .handshake 1, .message 1 (.bitfield [])],
    by simp [Polite, politeFrom, politeEv, phaseEv], by decide +kernel⟩

namespace DownloaderEx

/-- The second file has two pieces. -/
def three : Info :=
  { files := [⟨32768, 0, 0, 0, 32768⟩, ⟨65536, 1, 0, 2, 32768⟩], piecesCount := 3, pieceSize := 32768, fullSize := 98304,
    lastPieceIndex := 2, lastPieceSize := 32768, lastPieceLastBlockIndex := 1, lastPieceLastBlockSize := 16384 }

def s3 : St := { files := ⟨three, [true, true], ⟨[0, 0, 0], 3, 0, 0⟩⟩, prio := [50, 50], running := false }

end DownloaderEx

/-- C69 is violated: `have` before the handshake decides how long the table of the pieces of the peer is; when the peer lets
us ask, pieces are looked up past its end. All messages name pieces the torrent has. -/
theorem C69_early_violated : ∃ es, (∀ e ∈ es, saneEv DownloaderEx.s3.files.info e) ∧
    Downloader.run id [[1], [2], [3]] DownloaderEx.s3 es = .ub :=
  ⟨[.start [(0, 50), (1, 50), (2, 50)], .connect 1, .message 1 (.have 1), .message 1 .unchoke],
    by simp [saneEv, DownloaderEx.s3, three], by decide +kernel⟩

/-- C69 is violated: `have` before the bitfield decides how long the table of the pieces of the peer is; when the bitfield comes the
pieces of the peer are counted past its end, though everything is downloaded. All messages name pieces the torrent has. -/
theorem C69_counted_violated : ∃ es, (∀ e ∈ es, saneEv DownloaderEx.s3.files.info e) ∧
    Downloader.run id [[1], [2], [3]] { DownloaderEx.s3 with files := ⟨three, [true, true], ⟨[8, 8, 8], 3, 3, 3⟩⟩ } es = .ub :=
  ⟨[.start [(0, 50), (1, 50), (2, 50)], .connect 1, .message 1 (.have 0), .message 1 (.bitfield [224])],
    by simp [saneEv, DownloaderEx.s3, three], by decide +kernel⟩

/-- C69 is violated: pieces of 65536 blocks, 1 GiB, are divided by zero when a peer that has them lets us ask. -/
theorem C69_blocks_violated : ∃ es, Polite es ∧ Downloader.run id DownloaderEx.hashes { DownloaderEx.s0 with
      files := ⟨{ two with pieceSize := 1073741824 }, [true, true], ⟨[0, 0], 2, 0, 0⟩⟩ } es = .ub :=
  ⟨[.start both] ++ peer 1 [192], by simp [Polite, politeFrom, peer, politeEv, phaseEv], by decide +kernel⟩

end Verif
