import Verif.Proof.TorrentProgress
import Verif.Props.FileProgress

/-! C103: the progress of a torrent and of what is selected, as shown. -/

namespace Verif
open Downloader Layout Progress PieceState Spec Spec.Download Spec.DataLeft Spec.FileProgress Spec.TorrentProgress TorrentProgress

/-- After any history in which the blocks that arrive have the lengths asked for, the progress shown is the fraction of its pieces that are there, with
the bytes that arrived of others; it is never above 1 without being cut, is 1 only when every byte is there, and is 1 when all pieces are there.
Missing for the full property: the short last piece counts as a full one (`C103_last_violated`), and rounding. -/
theorem C103_progress_partial (sha : List UInt8 → List UInt8) (hashes : List (List UInt8)) (s0 : St) (hf : Download.Fresh s0) (hk : KeptOk s0)
    (hg : KeptGood s0) (l : Pieces) (hl : Rel s0.files.progress l) (hlen : l.length < 4294967296) (hs : Shape s0.files.info l.length)
    (es : List Downloader.Ev) (hns : ∀ e ∈ es, isSelect e = false) (hb : ∀ e ∈ es, rightLength s0.files.info e) (s : St) (h : History)
    (hr : Downloader.run sha hashes s0 es = .ok (s, h)) :
    TorrentProgress.progress s = (((List.range l.length).map (share s)).sum, l.length * s.files.info.pieceSize) ∧
      (TorrentProgress.progress s).1 ≤ (TorrentProgress.progress s).2 ∧ 0 < (TorrentProgress.progress s).2 ∧
      ((TorrentProgress.progress s).1 = (TorrentProgress.progress s).2 → allThere s l.length = s.files.info.fullSize) ∧
      ((∀ p, p < l.length → has s p = true) → (TorrentProgress.progress s).1 = (TorrentProgress.progress s).2) := by
  obtain ⟨hI, hv⟩ := run_ver hf hk hl hlen es hns hr
  obtain ⟨hj, hi, hn⟩ := run_J hf hk hg hl hlen hs es hns hb hr
  have hs' : Shape s.files.info l.length := by rw [hi]; exact hs
  have hbound := (left_state hI hv hj hs' hn).2.1
  have hp := progress_state hI hv hj hs' hn
  have hle : ∀ p ∈ List.range l.length, share s p ≤ s.files.info.pieceSize := by
    intro p hp
    rw [List.mem_range] at hp
    unfold share
    split
    · exact Nat.le_refl _
    · exact Nat.le_trans (hbound p hp) (pieceBytes_range hs' hp).2
  have hsum := sum_map_le _ _ _ hle
  rw [List.length_range] at hsum
  rw [hp]
  refine ⟨rfl, hsum, ?_, ?_, ?_⟩
  · have h1 := hs'.count
    exact Nat.mul_pos (h1 ▸ Nat.succ_pos _) hs'.ps_pos
  · intro he
    simp only at he
    have h4 := sum_map_eq _ _ s.files.info.pieceSize hle (by rw [List.length_range]; exact he)
    rw [← sum_pieces hs']
    unfold allThere
    apply sum_congr
    intro p hp
    have h5 := h4 p (List.mem_range.2 hp)
    by_cases hh : has s p = true
    · unfold there
      rw [if_pos (by simpa [has] using hh)]
    · unfold share at h5
      rw [if_neg hh] at h5
      have h6 := hbound p hp
      have h7 := (pieceBytes_range hs' hp).2
      omega
  · intro hall
    simp only
    have : (List.range l.length).map (share s) = (List.range l.length).map fun _ => s.files.info.pieceSize := by
      apply List.map_congr_left
      intro p hp
      unfold share
      rw [if_pos (hall p (List.mem_range.1 hp))]
    rw [this, List.map_const', List.sum_replicate_nat, List.length_range]

/-- A quarter after the first block of two pieces, all when both are there. -/
example : TorrentProgress.progress (DataLeftEx.state (DataLeftEx.asked ++ [DataLeftEx.sent 0 0 16384])) = (16384, 65536) ∧
    TorrentProgress.progress (DataLeftEx.state DataLeftEx.partly) ≠ (65536, 65536) := by decide +kernel

/-- The same of the selected pieces, as long as less than 2^32 bytes arrived of those that are not there.
Missing for the full property: see above; bytes of files that are not selected count when they are in a piece of one that is; kept pieces of which
nothing is there must be of the torrent (`C103_kept_violated`). -/
theorem C103_selection_partial (sha : List UInt8 → List UInt8) (hashes : List (List UInt8)) (s0 : St) (hf : Download.Fresh s0) (hk : KeptOk s0)
    (hg : KeptGood s0) (l : Pieces) (hl : Rel s0.files.progress l) (hlen : l.length < 4294967296) (hs : Shape s0.files.info l.length)
    (es : List Downloader.Ev) (hns : ∀ e ∈ es, isSelect e = false) (hb : ∀ e ∈ es, rightLength s0.files.info e) (s : St) (h : History)
    (hr : Downloader.run sha hashes s0 es = .ok (s, h)) (he : EmptyKept s l.length) (hw : arrived s (wanted s l.length) < 4294967296)
    (h0 : wanted s l.length ≠ []) :
    selectionProgress s = .ok (((wanted s l.length).map (share s)).sum, (wanted s l.length).length * s.files.info.pieceSize) ∧
      ((wanted s l.length).map (share s)).sum ≤ (wanted s l.length).length * s.files.info.pieceSize ∧
      (((wanted s l.length).map (share s)).sum = (wanted s l.length).length * s.files.info.pieceSize →
        ∀ p ∈ wanted s l.length, there s p = pieceBytes s.files.info.pieceSize s.files.info.fullSize p) ∧
      ((∀ p ∈ wanted s l.length, has s p = true) →
        ((wanted s l.length).map (share s)).sum = (wanted s l.length).length * s.files.info.pieceSize) := by
  obtain ⟨hI, hv⟩ := run_ver hf hk hl hlen es hns hr
  obtain ⟨hj, hi, hn⟩ := run_J hf hk hg hl hlen hs es hns hb hr
  have hs' : Shape s.files.info l.length := by rw [hi]; exact hs
  have hbound := (left_state hI hv hj hs' hn).2.1
  have hin : ∀ p ∈ wanted s l.length, p < l.length := fun p hp => List.mem_range.1 (List.mem_filter.1 hp).1
  have hle : ∀ p ∈ wanted s l.length, share s p ≤ s.files.info.pieceSize := by
    intro p hp
    unfold share
    split
    · exact Nat.le_refl _
    · exact Nat.le_trans (hbound p (hin p hp)) (pieceBytes_range hs' (hin p hp)).2
  refine ⟨selection_state hI hv hj hs' hn he hw h0, sum_map_le _ _ _ hle, ?_, ?_⟩
  · intro heq p hp
    have h5 := sum_map_eq _ _ _ hle heq p hp
    by_cases hh : has s p = true
    · unfold there
      rw [if_pos (by simpa [has] using hh)]
    · unfold share at h5
      rw [if_neg hh] at h5
      have h6 := hbound p (hin p hp)
      have h7 := (pieceBytes_range hs' (hin p hp)).2
      omega
  · intro hall
    have : (wanted s l.length).map (share s) = (wanted s l.length).map fun _ => s.files.info.pieceSize := by
      apply List.map_congr_left
      intro p hp
      unfold share
      rw [if_pos (hall p hp)]
    rw [this, List.map_const', List.sum_replicate_nat]

/-- When nothing is selected, nothing is shown. -/
theorem C103_nothing_partial (s : St) (hn : s.files.progress.pieces ≠ []) (hp : s.files.info.pieceSize ≠ 0) (h0 : s.files.progress.selectedPieces = 0)
    (h1 : ∀ u ∈ s.unfinished, u.index < s.files.progress.pieces.length) (h2 : ∀ e ∈ s.requests, e.1 < s.files.progress.pieces.length) :
    selectionProgress s = .ok (0, 1) := by
  have hl := List.length_pos_iff.2 hn
  unfold selectionProgress selectedUnfinished
  rw [if_neg (by omega), if_neg hp, if_pos (by simpa using ⟨h1, fun a b hb => h2 (a, b) hb⟩)]
  simp only [Res.bind_ok, h0, if_true]
  rfl

namespace TorrentProgressEx

/-- Two files of a piece each, the second, short one selected. -/
def s0 : St := { files := ⟨DataLeftEx.info, [true], ⟨[8, 0], 1, 0, 0⟩⟩, prio := [50], running := false }

def state (es : List Downloader.Ev) : St :=
  match Downloader.run id [[1], [2]] s0 es with
  | .ok (s, _) => s
  | _ => s0

end TorrentProgressEx

/-- Only the second piece is selected; a piece of the first that was kept does not count. -/
example : selectionProgress TorrentProgressEx.s0 = .ok (0, 32768) ∧ wanted TorrentProgressEx.s0 2 = [1] ∧
    selectionProgress { TorrentProgressEx.s0 with unfinished := [⟨[1, 0], 1, 16384, 0⟩] } = .ok (0, 32768) ∧
    selectionProgress { TorrentProgressEx.s0 with unfinished := [⟨[1], 0, 7, 1⟩] } = .ok (7, 32768) := by decide +kernel

/-- **Violated**: the short last piece counts as a full one.  7232 of 40000 bytes are shown as half. -/
theorem C103_last_violated :
    let s := DataLeftEx.state (DataLeftEx.asked ++ [DataLeftEx.sent 1 0 7232])
    TorrentProgress.progress s = (32768, 65536) ∧ selectionProgress s = .ok (32768, 65536) ∧ allThere s 2 = 7232 ∧ s.files.info.fullSize = 40000 := by
  decide +kernel

/-- **Violated**: an arrived short last piece is shown with less before it is checked: it jumps from 7232 to 32768 of 65536 with the same bytes. -/
theorem C103_jump_violated :
    ∃ s, s.files.info = DataLeftEx.info ∧ allThere s 2 = 7232 ∧ TorrentProgress.progress s = (7232, 65536) :=
  ⟨{ DataLeftEx.s0 with unfinished := [⟨[1], 0, 7232, 1⟩] }, rfl, by decide +kernel, by decide +kernel⟩

/-- **Violated**: a kept piece from a saved state that is not of the torrent, of which nothing is there, is read outside. -/
theorem C103_kept_violated : selectionProgress { TorrentProgressEx.s0 with unfinished := [⟨[], 0, 0, 9⟩] } = .ub := by decide +kernel

end Verif
