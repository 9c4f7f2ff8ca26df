import Verif.Proof.FileCheckKept
import Verif.Proof.ProgressRun
/-! The layout, the pieces that are asked for, and the progress after a check. -/

namespace Verif.FileCheck
open Verif Verif.Spec Verif.Spec.FileCheck Layout Storage

theorem row_multi (ps : Nat) (sizes : List Nat) (files : List File) (hlen : files.length = sizes.length)
    (hget : ∀ k (hk : k < sizes.length), files[k]? = some
        { size := sizes[k], startPieceIndex := fileStart sizes k / ps, startPiecePos := fileStart sizes k % ps
          endPieceIndex := if sizes[k] = 0 then fileStart sizes k / ps else (fileEnd sizes k - 1) / ps
          endPiecePos := fileEnd sizes k % ps }) (n : Nat) (hn : n ≤ sizes.length) :
    Row ps (fileStart sizes (sizes.length - n)) (files.drop (sizes.length - n)) (sizes.drop (sizes.length - n)) := by
  induction n with
  | zero =>
    rw [List.drop_of_length_le (l := files) (by omega), List.drop_of_length_le (l := sizes) (by omega)]
    exact .nil _
  | succ n ih =>
    have ih := ih (by omega)
    obtain ⟨k, hk⟩ : ∃ k, k = sizes.length - (n + 1) := ⟨_, rfl⟩
    have hks : k < sizes.length := by omega
    have hn1 : sizes.length - n = k + 1 := by omega
    rw [hn1] at ih
    rw [← hk]
    have hg := hget k hks
    have hkf : k < files.length := by omega
    rw [List.getElem?_eq_getElem hkf] at hg
    have hg := Option.some.inj hg
    rw [List.drop_eq_getElem_cons hkf, List.drop_eq_getElem_cons hks]
    have he := fileEnd_eq sizes k hks
    apply Row.cons
    · rw [hg]
      refine ⟨rfl, rfl, rfl, ?_, ?_⟩
      · simp only [he]
      · simp only [he]
    · rw [← he]
      exact ih

theorem row_layout (ps : Nat) (fl : FileList) (hps : 0 < ps) (hps32 : ps < 4294967296)
    (h64 : (fileSizes fl).sum < 18446744073709551616) (h32 : pieceCount ps (fileSizes fl).sum < 4294967296)
    (ht : (fileSizes fl).sum % ps ≠ 0) :
    ∃ i, parseInfo ps (pieceCount ps (fileSizes fl).sum) fl = .ok i ∧ i.pieceSize = ps ∧ Row ps 0 i.files (fileSizes fl) := by
  cases fl with
  | single s =>
    simp only [fileSizes, List.sum_cons, List.sum_nil, Nat.add_zero] at *
    have hs : 0 < s := by
      apply Nat.pos_of_ne_zero
      rintro rfl
      simp at ht
    obtain ⟨i, f, h1, h2, h3, h4, h5, h6, h7, h8, h9, h10, h11, h12⟩ := C04_layout_single ps s hps hps32 hs h32
    refine ⟨i, h1, h3, ?_⟩
    rw [h4]
    refine .cons _ _ _ _ _ ⟨h5, by rw [h6]; simp, by rw [h7]; simp, by rw [h8, if_neg (by omega), Nat.zero_add], ?_⟩ (.nil _)
    rw [Nat.zero_add]
    have hm := Nat.mod_lt s hps
    have hd := Nat.div_add_mod s ps
    have : (s - 1) / ps = s / ps := by rw [Nat.div_eq_iff hps, Nat.mul_comm]; omega
    rw [h8, this, Nat.mul_comm] at h9
    omega
  | multi sizes =>
    simp only [fileSizes] at *
    have h32' : sizes.sum / ps < 4294967296 := by
      apply Nat.lt_of_le_of_lt _ h32
      unfold pieceCount
      exact Nat.div_le_div_right (by omega)
    obtain ⟨i, h1, h2, h3, h4, h5, h6, h7⟩ := parse_multi ps (pieceCount ps sizes.sum) sizes hps hps32 h64 h32'
    refine ⟨i, h1, h3, ?_⟩
    have := row_multi ps sizes i.files h5 h6 sizes.length (Nat.le_refl _)
    simpa [fileStart] using this

theorem count_eq (ps total : Nat) (hps : 0 < ps) (ht : total % ps ≠ 0) : pieceCount ps total = total / ps + 1 := by
  have hm := Nat.mod_lt total hps
  have hd := Nat.div_add_mod total ps
  have e : (total / ps + 1) * ps = total / ps * ps + ps := Nat.succ_mul _ _
  rw [Nat.mul_comm] at hd
  unfold pieceCount
  rw [Nat.div_eq_iff hps]
  omega

/-! ### Which pieces are asked for -/

theorem placed_end_le {ps off size : Nat} {f : File} (g : Placed ps f off size) : f.endPieceIndex ≤ (off + size) / ps := by
  rw [g.fin]; split <;> exact Nat.div_le_div_right (by omega)

theorem placed_start_le {ps off size : Nat} {f : File} (g : Placed ps f off size) : f.startPieceIndex ≤ f.endPieceIndex := by
  rw [g.fin, g.start]; split
  · exact Nat.le_refl _
  · exact Nat.div_le_div_right (by omega)

theorem row_start {ps : Nat} : ∀ {off : Nat} {files : List File} {sizes : List Nat}, Row ps off files sizes →
    ∀ f ∈ files, off / ps ≤ f.startPieceIndex ∧ f.startPieceIndex ≤ f.endPieceIndex ∧ f.endPieceIndex ≤ (off + sizes.sum) / ps
  | _, _, _, .nil _, _, hf => by cases hf
  | off, _, _, .cons _ f fs s ss g hr, h, hh => by
    rcases List.mem_cons.mp hh with rfl | hh
    · exact ⟨by rw [g.start]; exact Nat.le_refl _, placed_start_le g, Nat.le_trans (placed_end_le g)
        (Nat.div_le_div_right (by simp only [List.sum_cons]; omega))⟩
    · have := row_start hr h hh
      refine ⟨Nat.le_trans (Nat.div_le_div_right (by omega)) this.1, this.2.1, ?_⟩
      rw [List.sum_cons, ← Nat.add_assoc]
      exact this.2.2

/-- Of two files one ends where the other begins, or before. -/
theorem row_order {ps : Nat} : ∀ {off : Nat} {files : List File} {sizes : List Nat}, Row ps off files sizes →
    ∀ f ∈ files, ∀ h ∈ files, f = h ∨ f.endPieceIndex ≤ h.startPieceIndex ∨ h.endPieceIndex ≤ f.startPieceIndex
  | _, _, _, .nil _, _, hf, _, _ => by cases hf
  | off, _, _, .cons _ f fs s ss g hr, a, ha, b, hb => by
    rcases List.mem_cons.mp ha with rfl | ha' <;> rcases List.mem_cons.mp hb with rfl | hb'
    · exact Or.inl rfl
    · exact Or.inr (Or.inl (Nat.le_trans (placed_end_le g) (row_start hr b hb').1))
    · exact Or.inr (Or.inr (Nat.le_trans (placed_end_le g) (row_start hr a ha').1))
    · exact row_order hr a ha' b hb'

theorem mark_spec (f : File) (w : List Bool) (h : f.endPieceIndex < w.length) :
    ∃ w', markFile f w = .ok w' ∧ w'.length = w.length ∧
      ∀ k, w'[k]? = some true ↔ w[k]? = some true ∨ (k < w.length ∧ f.startPieceIndex ≤ k ∧ k ≤ f.endPieceIndex) := by
  unfold markFile
  rw [if_neg (by omega)]
  refine ⟨_, rfl, by simp, fun k => ?_⟩
  rw [List.getElem?_mapIdx]
  by_cases hk : k < w.length
  · rw [List.getElem?_eq_getElem hk]
    simp [hk]
  · rw [List.getElem?_eq_none (by omega)]
    simp [hk]

theorem changed_spec : ∀ (files : List File) (changed : List Bool) (w : List Bool), (∀ f ∈ files, f.endPieceIndex < w.length) →
    ∃ w', changedPieces files changed w = .ok w' ∧ w'.length = w.length ∧
      ∀ k, w'[k]? = some true ↔ w[k]? = some true ∨
        (k < w.length ∧ ∃ f, (f, true) ∈ files.zip changed ∧ f.startPieceIndex ≤ k ∧ k ≤ f.endPieceIndex)
  | [], changed, w, _ => ⟨w, by simp [changedPieces], rfl, fun k => by simp⟩
  | _ :: _, [], w, _ => ⟨w, by simp [changedPieces], rfl, fun k => by simp⟩
  | f :: fs, false :: cs, w, h => by
    obtain ⟨w', e, hl, hk⟩ := changed_spec fs cs w (fun f hf => h f (List.mem_cons_of_mem _ hf))
    refine ⟨w', by simpa [changedPieces] using e, hl, fun k => ?_⟩
    rw [hk k]
    simp
  | f :: fs, true :: cs, w, h => by
    obtain ⟨w1, e1, hl1, hk1⟩ := mark_spec f w (h f (List.mem_cons_self ..))
    obtain ⟨w', e, hl, hk⟩ := changed_spec fs cs w1 (fun f hf => by rw [hl1]; exact h f (List.mem_cons_of_mem _ hf))
    refine ⟨w', by simp [changedPieces, e1, e], hl.trans hl1, fun k => ?_⟩
    rw [hk k, hk1 k, hl1]
    constructor
    · rintro ((h | ⟨h1, h2⟩) | ⟨h1, g, h2, h3⟩)
      · exact Or.inl h
      · exact Or.inr ⟨h1, f, by simp, h2⟩
      · exact Or.inr ⟨h1, g, by simp [h2], h3⟩
    · rintro (h | ⟨h1, g, h2, h3⟩)
      · exact Or.inl (Or.inl h)
      · simp only [List.zip_cons_cons, List.mem_cons, Prod.mk.injEq, and_true] at h2
        rcases h2 with rfl | h2
        · exact Or.inl (Or.inr ⟨h1, h3⟩)
        · exact Or.inr ⟨h1, g, h2, h3⟩

theorem ofFiles_changed {ps off : Nat} {files : List File} {sizes : List Nat} (hr : Row ps off files sizes) (changed wanted : List Bool) (n : Nat)
    (hn : ∀ f ∈ files, f.endPieceIndex < n) (hw : changedPieces files changed (List.replicate n false) = .ok wanted) :
    wanted.length = n ∧ OfFiles files wanted := by
  obtain ⟨w, e, hl, hk⟩ := changed_spec files changed (List.replicate n false) (by simpa using hn)
  rw [hw] at e
  cases e
  refine ⟨by simpa using hl, fun f hf k h1 h2 hm => ?_⟩
  have hk' : ∀ k, Wanted wanted k ↔ k < n ∧ ∃ f, (f, true) ∈ files.zip changed ∧ f.startPieceIndex ≤ k ∧ k ≤ f.endPieceIndex := by
    intro k
    unfold Wanted
    rw [hk k]
    simp only [List.length_replicate, List.getElem?_replicate]
    constructor
    · rintro (h | h)
      · split at h <;> simp at h
      · exact h
    · exact Or.inr
  obtain ⟨h3, g, h4, h5, h6⟩ := (hk' k).mp hm
  have hg : g ∈ files := (List.of_mem_zip h4).1
  have hs := row_start hr f hf
  rcases row_order hr f hf g hg with rfl | h | h
  · exact Or.inl ((hk' _).mpr ⟨by have := hn f hf; omega, f, h4, Nat.le_refl _, hs.2.1⟩)
  · have : k = f.endPieceIndex := by omega
    exact Or.inr (this ▸ hm)
  · have : k = f.startPieceIndex := by omega
    exact Or.inl (this ▸ hm)

/-! ### The progress -/

open Progress

theorem add_has (l : Pieces) (i : Nat) (hi : i < l.length) :
    (l.add i).length = l.length ∧ ∀ k, (l.add i)[k]?.map (·.has) = l[k]?.map (fun p => p.has || decide (k = i)) := by
  have e : Pieces.resize l (max l.length (i + 1)) = l := by
    unfold Pieces.resize
    rw [Nat.max_eq_left (by omega), Nat.sub_self, List.take_of_length_le (Nat.le_refl _)]
    simp
  unfold Pieces.add
  rw [e]
  refine ⟨by simp, fun k => ?_⟩
  rw [List.getElem?_modify]
  by_cases h : i = k
  · subst h; cases l[i]? <;> simp
  · have : ¬ k = i := fun e => h e.symm
    cases l[k]? <;> simp [this, h]

theorem addAll_spec : ∀ (ks : List Nat) (p : PP) (l : Pieces), Rel p l → (∀ k ∈ ks, k < l.length) →
    ∃ p' l', addAll p ks = .ok p' ∧ Rel p' l' ∧ l'.length = l.length ∧
      ∀ k, l'[k]?.map (·.has) = l[k]?.map (fun q => q.has || decide (k ∈ ks))
  | [], p, l, h, _ => ⟨p, l, rfl, h, rfl, fun k => by cases l[k]? <;> simp⟩
  | i :: ks, p, l, h, hk => by
    have hi := hk i (List.mem_cons_self ..)
    obtain ⟨p1, e1, r1⟩ := addPiece_rel h i (Or.inl hi)
    obtain ⟨hl, hh⟩ := add_has l i hi
    obtain ⟨p2, l2, e2, r2, hl2, hh2⟩ := addAll_spec ks p1 (l.add i) r1 (fun k hm => by rw [hl]; exact hk k (List.mem_cons_of_mem _ hm))
    refine ⟨p2, l2, by simp [addAll, e1, e2], r2, hl2.trans hl, fun k => ?_⟩
    rw [hh2 k]
    have := hh k
    by_cases hkl : k < l.length
    · rw [List.getElem?_eq_getElem hkl] at this ⊢
      rw [List.getElem?_eq_getElem (by omega)] at this ⊢
      simp only [Option.map_some, Option.some.injEq] at this ⊢
      rw [this]
      by_cases h1 : k = i <;> simp [h1]
    · rw [List.getElem?_eq_none (by omega), List.getElem?_eq_none (by omega)]; rfl

theorem findAll_spec {j : Job} {m : Mem} {ps total : Nat} (u : Setup j ps total) (hps : ps ≤ 2147483648) (sizes : List Nat)
    (kept : List Bool) (hr : Row ps 0 j.info.files sizes) (hs : KeptOk ps 0 sizes kept)
    (ht : sizes.sum = total) (hw : OfFiles j.info.files j.wanted) : ∀ n, ∃ l, findAll j (stored m ps 0 sizes kept) n = .ok l ∧
      ∀ k, k ∈ l ↔ k < total / ps + 1 ∧ k % j.workers < n ∧ Wanted j.wanted k ∧
        gap ps 0 sizes kept k = false ∧ There j.sha j.hashes m ps total k
  | 0 => ⟨[], rfl, fun k => by simp⟩
  | n + 1 => by
    obtain ⟨l, e, h⟩ := findAll_spec u hps sizes kept hr hs ht hw n (m := m)
    have e2 := stored_spec (j := { j with worker := n }) (m := m) ⟨u.pos, u.small, u.psize, u.tail, u.hashes, u.wanted⟩ hps sizes kept hr
      (stock_of ps u.pos sizes kept 0 (fun _ => false) hs (by simp)) ht hw
    refine ⟨_, by simp only [findAll, e, e2, Res.bind_ok, Res.pure_eq]; rfl, fun k => ?_⟩
    rw [List.mem_append, h k, expected, List.mem_filter, List.mem_range, good]
    simp only [Bool.and_eq_true, Bool.not_eq_true', Bool.false_or, decide_eq_true_eq]
    show _ ∨ (k < total / ps + 1 ∧ gap ps 0 sizes kept k = false ∧ (k % j.workers = n ∧ Wanted j.wanted k) ∧ There j.sha j.hashes m ps total k) ↔ _
    constructor
    · rintro (⟨h1, h2, h3⟩ | ⟨h1, h0, ⟨h2, h3⟩, h4⟩)
      · exact ⟨h1, by omega, h3⟩
      · exact ⟨h1, by omega, h3, h0, h4⟩
    · rintro ⟨h1, h2, h3, h0, h4⟩
      by_cases h5 : k % j.workers < n
      · exact Or.inl ⟨h1, h5, h3, h0, h4⟩
      · exact Or.inr ⟨h1, h0, ⟨by omega, h3⟩, h4⟩

theorem checkFiles_spec {j : Job} {m : Mem} {ps total : Nat} (u : Setup j ps total) (hps : ps ≤ 2147483648) (sizes : List Nat)
    (kept : List Bool) (hr : Row ps 0 j.info.files sizes) (hs : KeptOk ps 0 sizes kept)
    (ht : sizes.sum = total) (hw : OfFiles j.info.files j.wanted) (p : PP) (l : Pieces) (hp : Rel p l) (hl : l.length = total / ps + 1) :
    ∃ found, findAll { j with workers := 4 } (stored m ps 0 sizes kept) 4 = .ok found ∧ ∀ order, order.isPerm found = true →
      ∃ p', checkFiles j (stored m ps 0 sizes kept) p order = .ok p' ∧
        ∀ k (hk : k < l.length), hasPiece p' k = .ok (if Wanted j.wanted k then
          decide (gap ps 0 sizes kept k = false ∧ There j.sha j.hashes m ps total k) else l[k].has) := by
  obtain ⟨found, e, h⟩ := findAll_spec (j := { j with workers := 4 }) (m := m) ⟨u.pos, u.small, u.psize, u.tail, u.hashes, u.wanted⟩ hps sizes kept hr hs ht hw 4
  refine ⟨found, e, fun order ho => ?_⟩
  have hperm : order.Perm found := List.isPerm_iff.mp ho
  obtain ⟨q, eq, rq⟩ := removeReceived_rel hp j.wanted (by rw [hl, u.wanted]; exact Nat.le_refl _)
  have hlq : (Pieces.removeWhere l j.wanted).length = l.length := by simp [Pieces.removeWhere]
  obtain ⟨p', l', e', r', hl', hh⟩ := addAll_spec order q _ rq (fun k hk => by
    rw [hlq, hl]; exact ((h k).mp (hperm.mem_iff.mp hk)).1)
  refine ⟨p', ?_, fun k hk => ?_⟩
  · simp only [checkFiles, eq, e, Res.bind_ok, if_pos ho, e']
  · have hk' : k < l'.length := by omega
    rw [hasPiece_eq r' k hk']
    congr 1
    have := hh k
    rw [List.getElem?_eq_getElem hk', List.getElem?_eq_getElem (by omega)] at this
    simp only [Option.map_some, Option.some.injEq] at this
    rw [this]
    have hmem : k ∈ order ↔ Wanted j.wanted k ∧ gap ps 0 sizes kept k = false ∧ There j.sha j.hashes m ps total k := by
      rw [hperm.mem_iff, h k]
      simp only
      constructor
      · exact fun h => h.2.2
      · exact fun h => ⟨by omega, Nat.mod_lt _ (by decide), h⟩
    have hrem : (Pieces.removeWhere l j.wanted)[k]'(by omega) = if Wanted j.wanted k then { l[k] with has := false } else l[k] := by
      simp only [Pieces.removeWhere, List.getElem_mapIdx]; rfl
    rw [hrem]
    by_cases hwk : Wanted j.wanted k
    · simp [hwk, hmem]
    · simp [hwk, hmem]

end Verif.FileCheck
