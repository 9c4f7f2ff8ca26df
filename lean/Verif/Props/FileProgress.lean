import Verif.Proof.FileProgress
import Verif.Props.DataLeft

/-! C101: the progress of files, as shown. -/

namespace Verif
open Downloader Layout Progress PieceState Spec Spec.Download Spec.DataLeft Spec.FileProgress FileProgress

/-- After any history in which the blocks that arrive have the lengths asked for, the progress of a file of less than 2^32 bytes is computed without
reading outside: the number of its pieces that are there is right, the fraction is that of its pieces, where those that are not there count with the
bytes that arrived; it is never above 1, it is 1 only when every byte of its pieces is there, and it is 1 when its pieces are all there.
Missing for the full property: bytes of other files in shared pieces and the short last piece (`C101_neighbour_violated`, `C101_last_violated`), an empty
file behind the last piece (`C101_empty_violated`), files of 4 GB and more, of which the unfinished bytes are added in 32 bits, and rounding. -/
theorem C101_shown_partial (sha : List UInt8 → List UInt8) (hashes : List (List UInt8)) (s0 : St) (hf : Download.Fresh s0) (hk : KeptOk s0)
    (hg : KeptGood s0) (l : Pieces) (hl : Rel s0.files.progress l) (hlen : l.length < 4294967296) (hs : Shape s0.files.info l.length)
    (es : List Downloader.Ev) (hns : ∀ e ∈ es, isSelect e = false) (hb : ∀ e ∈ es, rightLength s0.files.info e) (s : St) (h : History)
    (hr : Downloader.run sha hashes s0 es = .ok (s, h)) (f : File) (h1 : f.startPieceIndex ≤ f.endPieceIndex) (h2 : f.endPieceIndex < l.length)
    (h3 : (f.endPieceIndex + 1 - f.startPieceIndex) * s0.files.info.pieceSize < 4294967296) :
    ∃ a, shown s f = .ok a ∧ a.received = (span f).countP (has s) ∧
      num s a = ((span f).map (share s)).sum ∧ den s f = (span f).length * s.files.info.pieceSize ∧
      num s a ≤ den s f ∧
      (num s a = den s f → ∀ p ∈ span f, there s p = pieceBytes s.files.info.pieceSize s.files.info.fullSize p) ∧
      ((∀ p ∈ span f, has s p = true) → num s a = den s f ∧ a.received = pieces f) := by
  obtain ⟨hI, hv⟩ := run_ver hf hk hl hlen es hns hr
  obtain ⟨hj, hi, hn⟩ := run_J hf hk hg hl hlen hs es hns hb hr
  have hs' : Shape s.files.info l.length := by rw [hi]; exact hs
  obtain ⟨a, a1, a2, a3, a4, a5⟩ := shown_state hI hv hj hs' hn hlen h1 h2 (by rw [hi]; exact h3)
  have hbound := (left_state hI hv hj hs' hn).2.1
  have hspl : (span f).length = f.endPieceIndex + 1 - f.startPieceIndex := by unfold span; rw [List.length_range']
  refine ⟨a, a1, a2, a3, a4, ?_, ?_, ?_⟩
  · rw [a3, a4]; exact sum_map_le _ _ _ a5
  · intro he p hp
    rw [a3, a4] at he
    have h4 := sum_map_eq _ _ _ a5 he p hp
    have hpn : p < l.length := by
      unfold span at hp
      rw [List.mem_range'_1] at hp
      omega
    by_cases hh : has s p = true
    · unfold there
      rw [if_pos (by simpa [has] using hh)]
    · unfold share at h4
      rw [if_neg hh] at h4
      have h5 := hbound p hpn
      have h6 := (pieceBytes_range hs' hpn).2
      omega
  · intro hall
    constructor
    · rw [a3, a4]
      have : (span f).map (share s) = (span f).map fun _ => s.files.info.pieceSize := by
        apply List.map_congr_left
        intro p hp
        unfold share
        rw [if_pos (hall p hp)]
      rw [this, List.map_const', List.sum_replicate_nat]
    · rw [a2, List.countP_eq_length.2 hall, hspl]
      unfold pieces
      rw [u32_id (by omega), sub32_eq (by omega) (by omega), Nat.add_comm 1]

/-- Of 40000 bytes in two pieces the first block: a quarter is shown. -/
example : shown (DataLeftEx.state (DataLeftEx.asked ++ [DataLeftEx.sent 0 0 16384])) ⟨40000, 0, 0, 1, 7232⟩ = .ok ⟨0, 16384⟩ ∧
    den (DataLeftEx.state (DataLeftEx.asked ++ [DataLeftEx.sent 0 0 16384])) ⟨40000, 0, 0, 1, 7232⟩ = 65536 := by decide +kernel

/-- Each file is shown at its place. -/
theorem C101_files_partial (s : St) (fs : List File) (h : ∀ f ∈ fs, ∃ a, shown s f = .ok a) :
    ∃ as, filesProgress s fs = .ok as ∧ as.length = fs.length ∧ ∀ (i : Nat) f, fs[i]? = some f → ∃ a, as[i]? = some a ∧ shown s f = .ok a := by
  induction fs with
  | nil => exact ⟨[], rfl, rfl, by simp⟩
  | cons f fs ih =>
    obtain ⟨a, ha⟩ := h f List.mem_cons_self
    obtain ⟨as, h1, h2, h3⟩ := ih fun g hg => h g (List.mem_cons_of_mem _ hg)
    refine ⟨a :: as, ?_, by simp [h2], ?_⟩
    · unfold filesProgress
      rw [ha, h1]
      rfl
    · intro i g hi
      cases i with
      | zero => simp only [List.getElem?_cons_zero, Option.some.injEq] at hi; exact ⟨a, rfl, hi ▸ ha⟩
      | succ i => exact h3 i g hi

/-- Two files, of which the second is shown at the second place. -/
example : filesProgress (DataLeftEx.state (DataLeftEx.asked ++ [DataLeftEx.sent 1 0 7232])) [⟨1, 0, 0, 0, 1⟩, ⟨1, 1, 0, 1, 1⟩] =
    .ok [⟨0, 0⟩, ⟨1, 0⟩] := by decide +kernel

/-- Progress does not change when the torrent is stopped: the pieces kept are counted like those being downloaded. -/
theorem C101_stop_partial (sha : List UInt8 → List UInt8) (hashes : List (List UInt8)) (s0 : St) (hf : Download.Fresh s0) (hk : KeptOk s0)
    (hg : KeptGood s0) (l : Pieces) (hl : Rel s0.files.progress l) (hlen : l.length < 4294967296) (hs : Shape s0.files.info l.length)
    (es : List Downloader.Ev) (hns : ∀ e ∈ es, isSelect e = false) (hb : ∀ e ∈ es, rightLength s0.files.info e) (s : St) (h : History)
    (hr : Downloader.run sha hashes s0 es = .ok (s, h)) (p : Nat) (hp : p < l.length) (hh : has s p = false) :
    unfinishedOf (stop s) p = unfinishedOf s p := by
  obtain ⟨hI, hv⟩ := run_ver hf hk hl hlen es hns hr
  obtain ⟨hj, hi, hn⟩ := run_J hf hk hg hl hlen hs es hns hb hr
  have hs' : Shape s.files.info l.length := by rw [hi]; exact hs
  exact stop_unfinished hI hv hj hs' hn hp hh

/-- One block kept when stopped. -/
example : unfinishedOf (stop (DataLeftEx.state (DataLeftEx.asked ++ [DataLeftEx.sent 0 0 16384]))) 0 = 16384 := by decide +kernel

namespace FileProgressEx

/-- Two files in one piece of two blocks and a short one: 16384 and 23616 bytes. -/
def info : Info :=
  { files := [⟨16384, 0, 0, 0, 16384⟩, ⟨23616, 0, 16384, 1, 7232⟩], piecesCount := 2, pieceSize := 32768, fullSize := 40000,
    lastPieceIndex := 1, lastPieceSize := 7232, lastPieceLastBlockIndex := 0, lastPieceLastBlockSize := 7232 }

def s0 : St := { files := ⟨info, [true, true], ⟨[0, 0], 2, 0, 0⟩⟩, prio := [50, 50], running := false }

def state (es : List Downloader.Ev) : St :=
  match Downloader.run id [[1], [2]] s0 es with
  | .ok (s, _) => s
  | _ => s0

end FileProgressEx

/-- **Violated**: bytes of another file in a shared piece count.  The first file is there and nothing of the second; both are shown with progress, the
first, which is complete, with half, the second, of which there is nothing, with a quarter. -/
theorem C101_neighbour_violated :
    let s := FileProgressEx.state (DataLeftEx.asked ++ [DataLeftEx.sent 0 0 16384])
    filesProgress s s.files.info.files = .ok [⟨0, 16384⟩, ⟨0, 16384⟩] ∧
    s.files.info.files.map (den s) = [32768, 65536] := by
  decide +kernel

/-- **Violated**: the short last piece counts as a full one.  7232 of 40000 bytes are shown as half. -/
theorem C101_last_violated :
    let s := DataLeftEx.state (DataLeftEx.asked ++ [DataLeftEx.sent 1 0 7232])
    filesProgress s s.files.info.files = .ok [⟨1, 0⟩] ∧ s.files.info.files.map (den s) = [65536] ∧ allThere s 2 = 7232 := by
  decide +kernel

/-- **Violated**: an empty file behind a full last piece has a piece that does not exist; to show its progress is to read outside. -/
theorem C101_empty_violated :
    (makeFile 32768 65536 0).startPieceIndex = 2 ∧ shown DownloaderEx.s0 (makeFile 32768 65536 0) = .ub := by
  decide +kernel

end Verif
