import Verif.Props.Layout
import Verif.Proof.Storage
import Verif.Spec.StorageLayout

namespace Verif
open Layout Spec Storage

/-- The parsed layout. -/
theorem geo_multi (ps : Nat) (hps : 0 < ps) (sizes : List Nat) (h32 : sizes.sum / ps < 4294967296)
    (hm : ∀ k, k < sizes.length → fileEnd sizes k % ps ≠ 0) (files : List File) (hlen : files.length = sizes.length)
    (hget : ∀ k (hk : k < sizes.length), files[k]? = some
        { size := sizes[k], startPieceIndex := fileStart sizes k / ps, startPiecePos := fileStart sizes k % ps
          endPieceIndex := if sizes[k] = 0 then fileStart sizes k / ps else (fileEnd sizes k - 1) / ps
          endPiecePos := fileEnd sizes k % ps }) (n : Nat) (hn : n ≤ sizes.length) :
    Geo ps (fileStart sizes (sizes.length - n)) (files.drop (sizes.length - n)) (sizes.drop (sizes.length - n)) := by
  induction n with
  | zero =>
    rw [List.drop_of_length_le (l := files) (by omega), List.drop_of_length_le (l := sizes) (by omega)]
    exact .nil _
  | succ n ih =>
    have ih := ih (by omega)
    obtain ⟨k, hk⟩ : ∃ k, k = sizes.length - (n + 1) := ⟨_, rfl⟩
    have hks : k < sizes.length := by omega
    have hn1 : sizes.length - n = k + 1 := by omega
    rw [hn1] at ih
    rw [← hk]
    have hg := hget k hks
    have hkf : k < files.length := by omega
    rw [List.getElem?_eq_getElem hkf] at hg
    have hg := Option.some.inj hg
    rw [List.drop_eq_getElem_cons hkf, List.drop_eq_getElem_cons hks]
    have he := fileEnd_eq sizes k hks
    have hmk := hm k hks
    apply Geo.cons
    · rw [hg]
      have hdm := Nat.div_add_mod (fileEnd sizes k) ps
      have hml := Nat.mod_lt (fileEnd sizes k) hps
      have hds := Nat.div_add_mod (fileStart sizes k) ps
      have hle := fileEnd_le sizes k
      have hidx : (if sizes[k] = 0 then fileStart sizes k / ps else (fileEnd sizes k - 1) / ps) = fileEnd sizes k / ps := by
        split
        · rename_i h0; rw [he, h0, Nat.add_zero]
        · rw [Nat.div_eq_iff hps, Nat.mul_comm]; omega
      constructor
      · rfl
      · simp only; rw [Nat.mul_comm]; exact hds
      · exact Nat.mod_lt _ hps
      · simp only; rw [hidx, Nat.mul_comm, hdm, he]
      · simp only; omega
      · simp only; omega
      · simp only; rw [hidx]; exact Nat.div_le_div_right (by omega)
      · simp only; rw [hidx]; exact div_lt_of_lt hps h32 hle
    · rw [← he]
      exact ih

theorem geo_layout (ps : Nat) (fl : FileList) (hps : 0 < ps) (hps31 : ps < 2147483648)
    (h63 : (fileSizes fl).sum < 9223372036854775808) (h32 : pieceCount ps (fileSizes fl).sum < 4294967296)
    (hfl : NoBoundaryEnd ps fl) :
    ∃ i, parseInfo ps (pieceCount ps (fileSizes fl).sum) fl = .ok i ∧ i.pieceSize = ps ∧ Geo ps 0 i.files (fileSizes fl) := by
  cases fl with
  | single s =>
    simp only [fileSizes, NoBoundaryEnd, List.sum_cons, List.sum_nil, Nat.add_zero] at *
    obtain ⟨i, f, h1, h2, h3, h4, h5, h6, h7, h8, h9, h10, h11, h12⟩ := C04_layout_single ps s hps (by omega) hfl h32
    refine ⟨i, h1, h3, ?_⟩
    rw [h4]
    refine .cons _ _ _ _ _ ⟨h5, by rw [h6, h7]; simp, by rw [h7]; exact hps, by simpa using h9, ?_, h10, by rw [h6]; exact Nat.zero_le _, ?_⟩ (.nil _)
    · rcases Nat.eq_zero_or_pos f.endPiecePos with h0 | h0
      · rw [h0, h8] at h9
        have := Nat.div_mul_le_self (s - 1) ps
        omega
      · exact h0
    · have hpc : pieceCount ps s = (s - 1) / ps + 1 := by
        unfold pieceCount
        rw [show s + ps - 1 = (s - 1) + ps by omega, Nat.add_div_right _ hps]
      rw [h8]; omega
  | multi sizes =>
    simp only [fileSizes, NoBoundaryEnd] at *
    have h32' : sizes.sum / ps < 4294967296 := by
      apply Nat.lt_of_le_of_lt _ h32
      unfold pieceCount
      exact Nat.div_le_div_right (by omega)
    obtain ⟨i, h1, h2, h3, h4, h5, h6, h7⟩ := parse_multi ps (pieceCount ps sizes.sum) sizes hps (by omega) (by omega) h32'
    refine ⟨i, h1, h3, ?_⟩
    have := geo_multi ps hps sizes h32' hfl i.files h5 h6 sizes.length (Nat.le_refl _)
    simpa [fileStart] using this

end Verif

namespace Verif
open Layout Spec Storage

/-- The size of every existing piece is right. -/
theorem pieceSize_layout (ps : Nat) (fl : FileList) (hps : 0 < ps) (hps31 : ps < 2147483648)
    (h63 : (fileSizes fl).sum < 9223372036854775808) (h32 : pieceCount ps (fileSizes fl).sum < 4294967296)
    (hfl : NoBoundaryEnd ps fl) (i : Info) (hi : parseInfo ps (pieceCount ps (fileSizes fl).sum) fl = .ok i)
    (idx : Nat) (hidx : idx < pieceCount ps (fileSizes fl).sum) :
    getPieceSize i idx ≤ ps ∧ idx * ps + getPieceSize i idx ≤ (fileSizes fl).sum ∧
      (getPieceSize i idx = ps ∨ idx * ps + getPieceSize i idx = (fileSizes fl).sum) := by
  have hpos : 0 < (fileSizes fl).sum := by
    rcases Nat.eq_zero_or_pos (fileSizes fl).sum with h0 | h0
    · rw [h0] at hidx; unfold pieceCount at hidx
      rw [Nat.div_eq_of_lt (by omega)] at hidx; omega
    · exact h0
  have hlast : i.pieceSize = ps ∧ i.lastPieceIndex = pieceCount ps (fileSizes fl).sum - 1 ∧
      i.lastPieceIndex * ps + i.lastPieceSize = (fileSizes fl).sum := by
    cases fl with
    | single s =>
      simp only [fileSizes, NoBoundaryEnd, List.sum_cons, List.sum_nil, Nat.add_zero] at *
      obtain ⟨i', f, h1, h2, h3, h4, h5, h6, h7, h8, h9, h10, h11, h12⟩ := C04_layout_single ps s hps (by omega) hfl h32
      rw [hi] at h1; cases h1
      exact ⟨h3, h11, h12⟩
    | multi sizes =>
      simp only [fileSizes, NoBoundaryEnd] at *
      have h32' : sizes.sum / ps < 4294967296 := by
        apply Nat.lt_of_le_of_lt _ h32
        unfold pieceCount
        exact Nat.div_le_div_right (by omega)
      obtain ⟨i', h1, h2, h3, h4, h5, h6⟩ := C04_layout_multi_partial ps (pieceCount ps sizes.sum) sizes hps (by omega) (by omega) h32'
      rw [hi] at h1; cases h1
      have hne : sizes ≠ [] := by rintro rfl; simp at hpos
      have hl : 0 < sizes.length := List.length_pos_iff.mpr hne
      have := hfl (sizes.length - 1) (by omega)
      unfold fileEnd at this
      rw [show sizes.length - 1 + 1 = sizes.length by omega, List.take_length] at this
      exact ⟨h3, (h6 hne this).1, (h6 hne this).2⟩
  obtain ⟨p1, p2, p3⟩ := hlast
  have hpc : pieceCount ps (fileSizes fl).sum = ((fileSizes fl).sum - 1) / ps + 1 := by
    unfold pieceCount
    rw [show (fileSizes fl).sum + ps - 1 = ((fileSizes fl).sum - 1) + ps by omega, Nat.add_div_right _ hps]
  generalize (fileSizes fl).sum = total at *
  rw [hpc] at hidx p2
  simp only [Nat.add_sub_cancel] at p2
  have hd := Nat.div_add_mod (total - 1) ps
  have hm := Nat.mod_lt (total - 1) hps
  rw [Nat.mul_comm] at hd
  unfold getPieceSize
  by_cases hl : idx = i.lastPieceIndex
  · rw [if_pos hl, hl]
    rw [p2] at p3 ⊢
    generalize (total - 1) / ps * ps = A at *
    omega
  · rw [if_neg hl, p1]
    rw [p2] at hl
    have := Nat.mul_le_mul_right ps (show idx + 1 ≤ (total - 1) / ps by omega)
    rw [Nat.add_mul] at this
    generalize (total - 1) / ps * ps = A at *
    omega

end Verif
