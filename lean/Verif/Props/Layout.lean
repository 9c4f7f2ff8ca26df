import Verif.Proof.Selection

/-! C04 layout of files on pieces, C09 blocks, C13 file selection. -/

namespace Verif
open Layout Spec

/-! ### C04 -/

/-- Multi-file torrents: for every piece size and every list of file sizes each file is reported with
its size and the position of its first byte in the concatenation of all files; the last piece of a
non-empty file is the one holding its last byte; the in-piece end offset is right whenever the file
does not end on a piece boundary; the last piece is the last one and has the size left over when that
is not a full piece.
Missing for the full property: files ending exactly on a piece boundary (and empty files there), see
`C04_boundary_violated` and `C04_empty_tail_violated`. -/
theorem C04_layout_multi_partial (ps n : Nat) (sizes : List Nat) (hps : 0 < ps) (hps32 : ps < 4294967296)
    (h64 : sizes.sum < 18446744073709551616) (h32 : sizes.sum / ps < 4294967296) :
    ∃ i, parseInfo ps n (.multi sizes) = .ok i ∧ i.fullSize = sizes.sum ∧ i.pieceSize = ps ∧
      i.files.length = sizes.length ∧
      (∀ k (hk : k < sizes.length), ∃ f, i.files[k]? = some f ∧ f.size = sizes[k] ∧
        f.startPieceIndex * ps + f.startPiecePos = fileStart sizes k ∧ f.startPiecePos < ps ∧
        (0 < sizes[k] → f.endPieceIndex = (fileEnd sizes k - 1) / ps) ∧
        (fileEnd sizes k % ps ≠ 0 → f.endPieceIndex * ps + f.endPiecePos = fileEnd sizes k)) ∧
      (sizes ≠ [] → sizes.sum % ps ≠ 0 →
        i.lastPieceIndex = pieceCount ps sizes.sum - 1 ∧
        i.lastPieceIndex * ps + i.lastPieceSize = sizes.sum) := by
  obtain ⟨i, h1, h2, h3, h4, h5, h6, h7⟩ := parse_multi ps n sizes hps hps32 h64 h32
  have key : ∀ k (hk : k < sizes.length), fileEnd sizes k % ps ≠ 0 →
      (if sizes[k] = 0 then fileStart sizes k / ps else (fileEnd sizes k - 1) / ps) = fileEnd sizes k / ps := by
    intro k hk hm
    have he := fileEnd_eq sizes k hk
    split
    · rw [he]; simp [*]
    · have hdm := Nat.div_add_mod (fileEnd sizes k) ps
      have hml := Nat.mod_lt (fileEnd sizes k) hps
      rw [Nat.div_eq_iff hps, Nat.mul_comm]
      omega
  refine ⟨i, h1, h4, h3, h5, ?_, ?_⟩
  · intro k hk
    refine ⟨_, h6 k hk, rfl, ?_, Nat.mod_lt _ hps, ?_, ?_⟩
    · simp only; rw [Nat.mul_comm]; exact Nat.div_add_mod _ _
    · intro hp; simp only; rw [if_neg (by omega)]
    · intro hm
      simp only
      rw [key k hk hm, Nat.mul_comm]
      exact Nat.div_add_mod _ _
  · intro hne hm
    have hl : 0 < sizes.length := List.length_pos_iff.mpr hne
    have hlast := h6 (sizes.length - 1) (by omega)
    have hfe : fileEnd sizes (sizes.length - 1) = sizes.sum := by
      unfold fileEnd
      rw [show sizes.length - 1 + 1 = sizes.length by omega, List.take_length]
    have hgl := (show i.files.getLast? = i.files[sizes.length - 1]? by rw [List.getLast?_eq_getElem?, h5]).trans hlast
    rw [h7]
    unfold finishInfo
    simp only [hgl]
    rw [key _ (by omega) (by rw [hfe]; exact hm), hfe, pieceCount_short _ _ hps hm]
    refine ⟨(Nat.add_sub_cancel ..).symm, ?_⟩
    rw [Nat.mul_comm]
    exact Nat.div_add_mod _ _

/-- Single-file torrents: the layout is right for every size, also for multiples of the piece size. -/
theorem C04_layout_single (ps size : Nat) (hps : 0 < ps) (hps32 : ps < 4294967296) (hs : 0 < size)
    (h32 : pieceCount ps size < 4294967296) :
    ∃ i f, parseInfo ps (pieceCount ps size) (.single size) = .ok i ∧ i.fullSize = size ∧ i.pieceSize = ps ∧
      i.files = [f] ∧ f.size = size ∧ f.startPieceIndex = 0 ∧ f.startPiecePos = 0 ∧
      f.endPieceIndex = (size - 1) / ps ∧ f.endPieceIndex * ps + f.endPiecePos = size ∧ f.endPiecePos ≤ ps ∧
      i.lastPieceIndex = pieceCount ps size - 1 ∧ i.lastPieceIndex * ps + i.lastPieceSize = size := by
  have hpc : pieceCount ps size = (size - 1) / ps + 1 := by
    unfold pieceCount
    rw [show size + ps - 1 = (size - 1) + ps by omega, Nat.add_div_right _ hps]
  have hidx : sub32 (u32 (pieceCount ps size)) 1 = (size - 1) / ps := by
    rw [u32_id h32, sub32_eq h32 (show 1 ≤ pieceCount ps size by rw [hpc]; exact Nat.le_add_left _ _), hpc]; rfl
  have hml := Nat.mod_lt size hps
  have hdm := Nat.div_add_mod size ps
  have hpos : (size - 1) / ps * ps + (if size % ps ≠ 0 then size % ps else ps) = size := by
    split
    · have : (size - 1) / ps = size / ps := by
        rw [Nat.div_eq_iff hps, Nat.mul_comm]; omega
      rw [this, Nat.mul_comm]; exact hdm
    · have : (size - 1) / ps = size / ps - 1 := by
        generalize size / ps = q at *
        cases q with
        | zero => simp at *; omega
        | succ q =>
          rw [Nat.mul_add] at hdm
          rw [Nat.div_eq_iff hps, Nat.mul_comm]; simp only [Nat.add_sub_cancel]; omega
      rw [this, Nat.sub_mul, Nat.mul_comm]
      have : 0 < size / ps := by
        apply Nat.pos_of_ne_zero
        intro h0; rw [h0] at hdm; simp at hdm; omega
      have := Nat.mul_le_mul_left ps this
      omega
  simp only [parseInfo, Nat.pos_iff_ne_zero.mp hps, if_false]
  rw [u32_id (n := if size % ps ≠ 0 then size % ps else ps) (by split <;> omega), hidx]
  refine ⟨_, _, rfl, rfl, rfl, rfl, rfl, rfl, rfl, rfl, hpos, ?_, ?_, ?_⟩
  · simp only; split <;> omega
  · simp only [finishInfo, List.getLast?_singleton]; omega
  · simp only [finishInfo, List.getLast?_singleton]; exact hpos

example : parseInfo 4 3 (.multi [3, 0, 6]) = .ok
    { files := [⟨3, 0, 0, 0, 3⟩, ⟨0, 0, 3, 0, 3⟩, ⟨6, 0, 3, 2, 1⟩], piecesCount := 3, pieceSize := 4, fullSize := 9
      lastPieceIndex := 2, lastPieceSize := 1, lastPieceLastBlockIndex := 0, lastPieceLastBlockSize := 1 } := by
  decide +kernel

/-- Every multi-file torrent whose total size is a multiple of the piece size reports an empty last
piece, although its last piece is a full one. -/
theorem C04_boundary_violated (ps q : Nat) (sizes : List Nat) (hps : 0 < ps) (hps32 : ps < 4294967296)
    (h64 : sizes.sum < 18446744073709551616) (hq : sizes.sum = (q + 1) * ps) (hq32 : q + 1 < 4294967296) :
    ∃ i, parseInfo ps (pieceCount ps sizes.sum) (.multi sizes) = .ok i ∧ i.lastPieceSize = 0 := by
  obtain ⟨i, h1, h2, h3, h4, h5, h6, h7⟩ := parse_multi ps (pieceCount ps sizes.sum) sizes hps hps32 h64
    (by rw [hq, Nat.mul_div_cancel _ hps]; exact hq32)
  refine ⟨i, h1, ?_⟩
  have hl : 0 < sizes.length := by
    apply List.length_pos_iff.mpr
    rintro rfl
    have : 0 < (q + 1) * ps := Nat.mul_pos (by omega) hps
    simp at hq; omega
  have hlast := h6 (sizes.length - 1) (by omega)
  have hfe : fileEnd sizes (sizes.length - 1) = sizes.sum := by
    unfold fileEnd
    rw [show sizes.length - 1 + 1 = sizes.length by omega, List.take_length]
  have hgl := (show i.files.getLast? = i.files[sizes.length - 1]? by rw [List.getLast?_eq_getElem?, h5]).trans hlast
  rw [h7]
  unfold finishInfo
  simp only [hgl, hfe, hq]
  exact Nat.mul_mod_left _ _

/-- An empty file after a file ending on a piece boundary is placed in a piece that does not exist,
and the torrent's last piece index is that piece. -/
theorem C04_empty_tail_violated (ps q : Nat) (hps : 0 < ps) (hps32 : ps < 4294967296)
    (hq : q < 4294967296) (h64 : q * ps < 18446744073709551616) :
    ∃ i f, parseInfo ps (pieceCount ps (q * ps)) (.multi [q * ps, 0]) = .ok i ∧ i.piecesCount = q ∧
      i.files[1]? = some f ∧ f.startPieceIndex = q ∧ f.endPieceIndex = q ∧ i.lastPieceIndex = q := by
  obtain ⟨i, h1, h2, h3, h4, h5, h6, h7⟩ := parse_multi ps (pieceCount ps (q * ps)) [q * ps, 0] hps hps32
    (by simpa using h64) (by simp [Nat.mul_div_cancel _ hps, hq])
  have hf := h6 1 (by simp)
  refine ⟨i, _, h1, by rw [h2, pieceCount_exact _ _ hps], hf, ?_, ?_, ?_⟩
  · simp [fileStart, Nat.mul_div_cancel _ hps]
  · simp [fileStart, Nat.mul_div_cancel _ hps]
  · have hgl := (show i.files.getLast? = i.files[1]? by rw [List.getLast?_eq_getElem?, h5]; rfl).trans hf
    rw [h7]
    unfold finishInfo
    simp [hgl, fileStart, Nat.mul_div_cancel _ hps]

/-- A zero piece length is divided by. -/
theorem C04_zero_piece_size_violated (n size : Nat) :
    parseInfo 0 n (.single size) = .ub ∧ parseInfo 0 n (.multi [size]) = .ub := by
  simp [parseInfo]

/-! ### C09 -/

/-- For every torrent whose total size is not a multiple of the piece size, or that has a single
file: the blocks of each piece are consecutive ranges of at most 16 KiB from the start to the end of
the piece, and the blocks of all pieces in order are consecutive ranges from 0 to the total size.
Missing for the full property: multi-file torrents whose size is a multiple of the piece size, see
`C09_last_piece_violated`. -/
theorem C09_blocks_tile_partial (ps : Nat) (fl : FileList) (total : Nat) (hps : 0 < ps) (hps32 : ps + 16384 ≤ 4294967296)
    (htot : 0 < total) (h64 : total < 18446744073709551616) (h32 : pieceCount ps total < 4294967296)
    (hfl : fl = .single total ∨ ∃ sizes, fl = .multi sizes ∧ sizes.sum = total ∧ total % ps ≠ 0) :
    ∃ i, parseInfo ps (pieceCount ps total) fl = .ok i ∧
      (∀ p, p < pieceCount ps total →
        Tiles 16384 0 (Pieces.pieceSize ps total p) ((makePieceBlocksInfo i p).map fun b => (b.begin, b.length)) ∧
        getPieceSize i p = Pieces.pieceSize ps total p ∧
        ∀ b ∈ makePieceBlocksInfo i p, b.index = p) ∧
      Tiles 16384 0 total (((List.range (pieceCount ps total)).flatMap (makePieceBlocksInfo i)).map
        fun b => (b.index * ps + b.begin, b.length)) ∧
      ∀ x, x < total → (((List.range (pieceCount ps total)).flatMap (makePieceBlocksInfo i)).countP
        fun b => decide (b.index * ps + b.begin ≤ x ∧ x < b.index * ps + b.begin + b.length)) = 1 := by
  have hpc : pieceCount ps total = (total - 1) / ps + 1 := by
    unfold pieceCount
    rw [show total + ps - 1 = (total - 1) + ps by omega, Nat.add_div_right _ hps]
  suffices h : ∃ i, parseInfo ps (pieceCount ps total) fl = .ok i ∧ i.pieceSize = ps ∧
      GoodGeom i (pieceCount ps total) ∧ i.lastPieceIndex * ps + i.lastPieceSize = total by
    obtain ⟨i, hi, hps', g, hlt⟩ := h
    have hn1 : i.lastPieceIndex = pieceCount ps total - 1 := by have := g.last; omega
    have hsz : ∀ p, p < pieceCount ps total → getPieceSize i p = Pieces.pieceSize ps total p := by
      intro p hp
      have h1 := g.lps_le
      rw [hps'] at h1
      unfold getPieceSize Pieces.pieceSize
      split
      · rename_i h; rw [← h] at hlt; omega
      · rename_i h
        have : (p + 1) * ps ≤ i.lastPieceIndex * ps := Nat.mul_le_mul_right _ (by omega)
        rw [Nat.add_mul] at this
        omega
    have hall := pieces_tile i ps total (pieceCount ps total) g hps' (by rw [← hn1]; exact hlt.symm) _ (Nat.le_refl _)
    have hmin : min total (pieceCount ps total * ps) = total := by
      have h1 := g.lps_le
      rw [hps'] at h1
      have : pieceCount ps total * ps = i.lastPieceIndex * ps + ps := by
        rw [← g.last, Nat.add_mul, Nat.one_mul]
      omega
    rw [hmin] at hall
    refine ⟨i, hi, ?_, hall, ?_⟩
    · intro p hp
      have := blocks_tile i _ g p
      rw [hsz p hp] at this
      exact ⟨this.1, hsz p hp, this.2⟩
    · intro x hx
      have := (tiles_count hall).2 x
      rw [List.countP_map, if_pos (by omega)] at this
      exact this
  rcases hfl with rfl | ⟨sizes, rfl, hsum, hm⟩
  · obtain ⟨i, f, h1, h2, h3, h4, h5, h6, h7, h8, h9, h10, h11, h12⟩ :=
      C04_layout_single ps total hps (by omega) htot h32
    refine ⟨i, h1, h3, ?_, h12⟩
    have hfin : i = finishInfo { i with files := i.files } := by
      simp only [parseInfo, Nat.pos_iff_ne_zero.mp hps, if_false] at h1
      injection h1 with h1
      rw [← h1]
      simp [finishInfo]
    have hpos : 0 < f.endPiecePos := by
      apply Nat.pos_of_ne_zero
      intro h0
      rw [h0, h8] at h9
      have := Nat.div_mul_le_self (total - 1) ps
      omega
    have := finish_geom i f (by rw [h4]; rfl) hpos (by rw [h3]; exact h10) (by rw [h3]; exact hps32)
    rw [← hfin] at this
    rw [hpc, ← h8]
    exact this
  · have h32' : sizes.sum / ps < 4294967296 := by
      rw [hsum]; rw [pieceCount_short _ _ hps hm] at h32; omega
    obtain ⟨i, h1, h2, h3, h4, h5, h6, h7⟩ := parse_multi ps (pieceCount ps total) sizes hps (by omega)
      (by omega) h32'
    have hne : sizes ≠ [] := by rintro rfl; simp at hsum; omega
    obtain ⟨i', h1', _, _, _, _, hl⟩ := C04_layout_multi_partial ps (pieceCount ps total) sizes hps (by omega)
      (by omega) h32'
    rw [h1] at h1'
    injection h1' with e
    subst e
    obtain ⟨hl1, hl2⟩ := hl hne (by rw [hsum]; exact hm)
    rw [hsum] at hl1 hl2
    refine ⟨i, h1, h3, ?_, hl2⟩
    have hl : 0 < sizes.length := List.length_pos_iff.mpr hne
    have hlast := h6 (sizes.length - 1) (by omega)
    have hfe : fileEnd sizes (sizes.length - 1) = sizes.sum := by
      unfold fileEnd
      rw [show sizes.length - 1 + 1 = sizes.length by omega, List.take_length]
    have hgl := (show i.files.getLast? = i.files[sizes.length - 1]? by rw [List.getLast?_eq_getElem?, h5]).trans hlast
    have hml := Nat.mod_lt total hps
    have g := finish_geom { files := i.files, piecesCount := pieceCount ps total, pieceSize := ps, fullSize := sizes.sum } _
      hgl (by simp only [hfe, hsum]; omega) (by simp only [hfe, hsum]; omega) hps32
    rw [← h7] at g
    have : i.lastPieceIndex = (if sizes[sizes.length - 1] = 0 then fileStart sizes (sizes.length - 1) / ps
        else (fileEnd sizes (sizes.length - 1) - 1) / ps) := by
      conv => lhs; rw [h7]
      unfold finishInfo
      simp only [hgl]
    simp only at g
    rw [← this, hl1] at g
    rw [Nat.sub_add_cancel (show 1 ≤ pieceCount ps total by rw [hpc]; exact Nat.le_add_left _ _)] at g
    exact g

example : (FileList.multi [20000, 50000]) = .single 70000 ∨
    ∃ sizes, FileList.multi [20000, 50000] = .multi sizes ∧ sizes.sum = 70000 ∧ 70000 % 32768 ≠ 0 :=
  .inr ⟨_, rfl, by decide, by decide⟩
example : (match parseInfo 32768 3 (.multi [20000, 50000]) with
    | .ok i => makePieceBlocksInfo i 2
    | _ => []) = [⟨2, 0, 4464⟩] := by decide +kernel

/-- For a multi-file torrent whose size is a multiple of the piece size the last piece is asked for
in 2^18 blocks, none of which is the whole piece: with 32 KiB pieces and files of 20000 and 45536 bytes
block 2 of the last piece starts outside the piece. -/
theorem C09_last_piece_violated : ∃ i, parseInfo 32768 2 (.multi [20000, 45536]) = .ok i ∧
    getPieceSize i 1 = 0 ∧ getPieceBlocksCount i 1 = 262144 ∧ getPieceBlockInfo i 1 2 = ⟨1, 32768, 0⟩ := by
  refine ⟨_, rfl, ?_, ?_, ?_⟩ <;> decide +kernel

/-! ### C13 -/

/-- For every torrent of non-empty files in which no three consecutive files share a piece, and every
history of selecting and unselecting files and of receiving and losing pieces: nothing undefined
happens, the selected files are the ones last asked for, and a piece is selected iff a selected file
has data in it.
Missing for the full property: small files (three sharing a piece) and empty files, see
`C13_small_files_violated` and `C13_empty_file_violated`. -/
theorem C13_selection_partial (ps : Nat) (sizes : List Nat) (hps : 0 < ps) (hps32 : ps < 4294967296)
    (h64 : sizes.sum < 18446744073709551616) (h32 : pieceCount ps sizes.sum < 4294967296)
    (hpos : ∀ s ∈ sizes, 0 < s)
    (hthree : ∀ k p, k + 2 < sizes.length →
      ¬ (hasData ps sizes k p ∧ hasData ps sizes (k + 1) p ∧ hasData ps sizes (k + 2) p))
    (ops : List SelOp) (hops : ∀ o ∈ ops, o.valid (pieceCount ps sizes.sum)) :
    ∃ i s, parseInfo ps (pieceCount ps sizes.sum) (.multi sizes) = .ok i ∧ selRun (filesInit i) ops = .ok s ∧
      s.selection = ops.foldl selAfter (sizes.map fun _ => true) ∧
      ∀ p, p < pieceCount ps sizes.sum → ∃ b, Progress.selectedPiece s.progress p = .ok b ∧
        (b = true ↔ ∃ k, s.selection[k]? = some true ∧ hasData ps sizes k p) := by
  have hdl : sizes.sum / ps < 4294967296 := by
    have : sizes.sum / ps ≤ pieceCount ps sizes.sum := Nat.div_le_div_right (by omega)
    omega
  obtain ⟨i, h1, h2, h3, h4, h5, h6, h7⟩ := parse_multi ps (pieceCount ps sizes.sum) sizes hps hps32 h64 hdl
  obtain ⟨o, hall⟩ := ordered_of ps hps sizes hpos i h5 h2 (by omega) h6
  have hdata : ∀ k (hk : k < i.files.length) p, hasData ps sizes k p ↔
      i.files[k].startPieceIndex ≤ p ∧ p ≤ i.files[k].endPieceIndex := by
    intro k hk p
    have hk' : k < sizes.length := by omega
    rw [hasData_iff ps hps sizes k hk' (hpos _ (List.getElem_mem hk')), (hall k hk).1, (hall k hk).2]
  have h3 : NoThree i.files := by
    rintro k hk ⟨e1, e2, e3⟩
    refine hthree k i.files[k].endPieceIndex (by omega) ⟨?_, ?_, ?_⟩
    · rw [hdata k (by omega)]; exact ⟨o.se k (by omega), Nat.le_refl _⟩
    · rw [hdata (k + 1) (by omega)]; omega
    · rw [hdata (k + 2) (by omega)]
      have := o.se (k + 2) (by omega)
      omega
  have hinit : SelRel i (filesInit i) (sizes.map fun _ => true) (List.replicate i.piecesCount Piece.new) := by
    refine ⟨rfl, ?_, by simp [h5], Progress.init_rel _, by simp, ?_⟩
    · unfold filesInit
      simp only
      apply List.ext_getElem (by simp [h5])
      intro j h1 h2
      simp
    · intro p hp
      simp only [List.length_replicate] at hp
      simp only [List.getElem_replicate, Piece.new, true_iff]
      have hp' : p * ps < sizes.sum := by
        rw [h2] at hp
        unfold pieceCount at hp
        have := (Nat.lt_div_iff_mul_lt hps).mp hp
        omega
      obtain ⟨k, hk, hb1, hb2⟩ := byte_in_file sizes (p * ps) hp'
      have hk' : k < i.files.length := by omega
      have hd : hasData ps sizes k p := ⟨p * ps, hb1, hb2, Nat.mul_div_cancel _ hps⟩
      exact ⟨k, hk', by simp [hk], (hdata k hk' p).mp hd⟩
  obtain ⟨s, l, hs, r⟩ := selRun_rel o h3 hinit ops (by rw [h2]; exact hops)
  refine ⟨i, s, h1, hs, r.sel_eq, ?_⟩
  intro p hp
  have hpl : p < l.length := by rw [r.plen, h2]; exact hp
  refine ⟨_, Progress.selectedPiece_eq r.rel p hpl, ?_⟩
  rw [r.needed p hpl, r.sel_eq]
  constructor
  · rintro ⟨k, hk, ha, hb⟩
    exact ⟨k, ha, (hdata k hk p).mpr hb⟩
  · rintro ⟨k, ha, hb⟩
    have hk : k < i.files.length := by
      have := (List.getElem?_eq_some_iff.mp ha).1
      rw [r.len] at this
      exact this
    exact ⟨k, hk, ha, (hdata k hk p).mp hb⟩

example : (∀ s ∈ [10, 3, 9], 0 < s) ∧ pieceCount 4 [10, 3, 9].sum = 6 ∧
    (∀ o ∈ [SelOp.file 1 false, .received 2, .files [false, true]], o.valid 6) := by decide
example (k p : Nat) (hk : k + 2 < [10, 3, 9].length) :
    ¬ (hasData 4 [10, 3, 9] k p ∧ hasData 4 [10, 3, 9] (k + 1) p ∧ hasData 4 [10, 3, 9] (k + 2) p) := by
  have : k = 0 := by simp at hk; omega
  subst this
  rintro ⟨⟨b, h1, h2, h3⟩, _, ⟨c, h4, h5, h6⟩⟩
  simp [fileStart, fileEnd] at *
  omega

/-- Three files of 14, 1 and 7 bytes in pieces of 4: piece 3 holds data of all of them. Unselecting the
second and then the first file also unselects piece 3, which the still selected third file needs. -/
theorem C13_small_files_violated :
    (∃ b, 15 ≤ b ∧ b < 22 ∧ b / 4 = 3) ∧
    ∃ i s, parseInfo 4 6 (.multi [14, 1, 7]) = .ok i ∧
      selRun (filesInit i) [.file 1 false, .file 0 false] = .ok s ∧
      s.selection = [false, false, true] ∧ Progress.selectedPiece s.progress 3 = .ok false :=
  ⟨⟨15, by decide⟩, _, _, rfl, rfl, by decide +kernel, by decide +kernel⟩

/-- An empty file behind a full last piece lies in a piece that does not exist: unselecting it writes
outside the piece table. -/
theorem C13_empty_file_violated :
    ∃ i, parseInfo 4 2 (.multi [8, 0]) = .ok i ∧ selRun (filesInit i) [.file 1 false] = .ub :=
  ⟨_, rfl, by decide +kernel⟩

end Verif
