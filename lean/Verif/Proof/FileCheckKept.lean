import Verif.Proof.FileCheck
import Verif.Spec.FileCheck
/-! Files of which only the ends are kept, and a row of files. -/

namespace Verif.FileCheck
open Verif Verif.Spec Verif.Spec.FileCheck Layout Storage

theorem advance_exact (b : Bool) (pos n : Nat) (w : Worker) (s : Stream) (hf : s.failed = false) (hn : s.pos + n ≤ s.content.length)
    (hb : pos + n ≤ w.buf.length) :
    ∃ w' s', advance b pos n w s = .ok (w', s') ∧ s'.failed = false ∧ s'.pos = s.pos + n ∧ s'.content = s.content ∧ w'.found = w.found ∧
      w'.buf = if b then w.buf.take pos ++ (s.content.drop s.pos).take n ++ w.buf.drop (pos + n) else w.buf := by
  unfold advance
  cases b with
  | false => simp only [Bool.false_eq_true, if_false, Stream.skip, hf]; exact ⟨_, _, rfl, rfl, rfl, rfl, rfl, rfl⟩
  | true =>
    have hl : ((s.content.drop s.pos).take n).length = n := by rw [List.length_take, List.length_drop]; omega
    simp only [if_true, Stream.read, hf, Bool.false_eq_true, if_false, hl, Nat.lt_irrefl, decide_false]
    unfold putBuf
    rw [if_pos (by rw [hl]; exact hb)]
    exact ⟨_, _, rfl, rfl, rfl, rfl, rfl, by rw [hl]⟩

/-- A file of which the rest of the piece it begins in and the beginning of the piece it ends in are kept. -/
theorem kept_spec {j : Job} {m : Mem} {ps total off size : Nat} {A : Nat → Bool} {f : File} (u : Setup j ps total) (hps : ps ≤ 2147483648)
    (g : Placed ps f off size) (ht : off + size ≤ total) (hlong : off / ps < (off + size) / ps) (hA : A (off / ps) = true)
    (hB : ∀ k, off / ps < k → k < (off + size) / ps → A k = false) (hC : (off + size) / ps * ps < off + size → A ((off + size) / ps) = true)
    (w : Worker) (hi : w.idx = off / ps) (b : Between j m ps total A off w) :
    ∃ w', readFile j false f w (some (m.read off (ps - off % ps) ++ m.read ((off + size) / ps * ps) ((off + size) % ps))) = .ok w' ∧
      Between j m ps total A (off + size) w' := by
  obtain ⟨k0, hk0⟩ : ∃ k, k = off / ps := ⟨_, rfl⟩
  obtain ⟨E, hE⟩ : ∃ k, k = (off + size) / ps := ⟨_, rfl⟩
  have hmo := Nat.mod_lt off u.pos
  have hdo := Nat.div_add_mod off ps
  have hmE := Nat.mod_lt (off + size) u.pos
  have hdE := Nat.div_add_mod (off + size) ps
  rw [Nat.mul_comm] at hdo hdE
  have hET : (off + size) / ps ≤ total / ps := Nat.div_le_div_right ht
  have hk1 : (k0 + 1) * ps = k0 * ps + ps := Nat.succ_mul k0 ps
  by_cases hone : k0 + 1 = E
  · -- nothing is missing
    have e : m.read off (ps - off % ps) ++ m.read ((off + size) / ps * ps) ((off + size) % ps) = m.read off size := by
      have : (off + size) / ps * ps = off + (ps - off % ps) := by rw [← hE, ← hone]; rw [← hk0] at hdo; omega
      rw [this, read_append]
      congr 1
      omega
    obtain ⟨w', e', b'⟩ := (whole_spec u g ht (fun k h1 h2 => by
      have : k < E + 1 := by
        rw [hE]
        have : k ≤ (off + size) / ps := by rw [Nat.le_div_iff_mul_le u.pos]; omega
        omega
      by_cases hk : k = off / ps
      · rw [hk]; exact hA
      · have : k = (off + size) / ps := by omega
        rw [this] at h2 ⊢
        exact hC h2) w hi b).1
    refine ⟨w', ?_, b'⟩
    rw [e]
    simp only [readFile]
    rw [if_pos (by rw [read_length, g.fsize]), e']
  · have hlt : (k0 + 2) * ps ≤ E * ps := Nat.mul_le_mul_right _ (by omega)
    have hk2 : (k0 + 2) * ps = k0 * ps + ps + ps := by rw [Nat.succ_mul, Nat.succ_mul]
    have hpos := u.pos
    rw [← hk0] at hdo hA hB hlong
    rw [← hE] at hdE hB hC hET hlong ⊢
    obtain ⟨c, hc⟩ : ∃ c, c = m.read off (ps - off % ps) ++ m.read (E * ps) ((off + size) % ps) := ⟨_, rfl⟩
    have hcl : c.length = (ps - off % ps) + (off + size) % ps := by rw [hc, List.length_append, read_length, read_length]
    rw [← hc]
    simp only [readFile]
    rw [if_neg (by rw [hcl, g.fsize]; omega)]
    unfold partFile
    have hsub : sub32 j.info.pieceSize f.startPiecePos = ps - off % ps := by rw [g.spos, u.psize, sub32_eq u.small (by omega)]
    have hu : u32 (ps - off % ps + (off + size) % ps) = ps - off % ps + (off + size) % ps := by unfold u32; omega
    simp only [hsub, g.epos, hu]
    rw [if_pos ⟨by omega, by omega⟩]
    have hendle : f.endPieceIndex ≤ E := by
      rw [g.fin, hE]; split <;> exact Nat.div_le_div_right (by omega)
    have hendE : (off + size) % ps ≠ 0 → f.endPieceIndex = E := by
      intro hne
      rw [g.fin, if_neg (by omega), Nat.div_eq_iff u.pos]
      omega
    have hmin : min ps (total - k0 * ps) = ps := by
      have : E * ps ≤ total := by omega
      omega
    have hexp : expected j m ps total A E = expected j m ps total A k0 ++
        if Mine j k0 ∧ j.hashes[k0]? = some (j.sha (m.read (k0 * ps) ps)) then [k0] else [] := by
      rw [expected_skip j m ps total A (a := k0 + 1) (by omega) (fun k h1 h2 => Or.inr (hB k (by omega) h2)), expected_succ, good, hmin, hA]
      simp
    -- the first piece
    have first : ∃ w1 s1, partStart j f (ps - off % ps) w { content := c } = .ok (w1, s1) ∧ s1.failed = false ∧
        s1.pos = ps - off % ps ∧ s1.content = c ∧ w1.buf.length = ps ∧ w1.found = expected j m ps total A E := by
      unfold partStart
      rw [g.start, ← hk0, mine_eq j k0 (by rw [u.wanted]; omega), g.spos]
      simp only [Res.bind_ok]
      obtain ⟨w1, s1, e1, f1, p1, c1, fo1, b1⟩ := advance_exact (decide (Mine j k0)) (off % ps) (ps - off % ps) w { content := c } rfl
        (by simp only [hcl]; omega) (by rw [b.len]; omega)
      rw [e1]
      simp only [Res.bind_ok]
      have bf := b.found
      rw [← hk0] at bf
      by_cases hm : Mine j k0
      · have hbuf : w1.buf = m.read (k0 * ps) ps := by
          have hbeg := b.begun (hk0 ▸ hm)
          rw [← hk0] at hbeg
          rw [b1]
          simp only [hm, decide_true, if_true, List.drop_zero]
          rw [hbeg, hc, List.take_append_of_le_length (by rw [read_length]; exact Nat.le_refl _),
            List.take_of_length_le (by rw [read_length]; exact Nat.le_refl _), List.drop_of_length_le (by rw [b.len]; omega), List.append_nil]
          have : off = k0 * ps + off % ps := by omega
          have e := read_append m (k0 * ps) (off % ps) (ps - off % ps)
          rw [← this] at e
          rw [e]
          congr 1
          omega
        simp only [hm, decide_true, if_true]
        rw [u.psize, verify_eq j k0 ps w1 (m.read (k0 * ps) ps) (by rw [hbuf, read_length]; exact Nat.le_refl _) (by rw [u.hashes]; omega)
          (by rw [hbuf, List.take_of_length_le (by rw [read_length]; exact Nat.le_refl _)])]
        refine ⟨_, _, rfl, f1, by simpa using p1, c1, by simp only [hbuf, read_length], ?_⟩
        rw [hexp, fo1, bf]
        simp [hm]
      · simp only [hm, decide_false, Bool.false_eq_true, if_false]
        refine ⟨_, _, rfl, f1, by simpa using p1, c1, by rw [b1]; simp [hm, b.len], ?_⟩
        rw [hexp, fo1, bf]
        simp [hm]
    obtain ⟨w1, s1, e1, f1, p1, c1, l1, fo1⟩ := first
    rw [e1]
    simp only [Res.bind_ok]
    rw [if_pos hcl, mine_eq j _ (by rw [u.wanted]; omega)]
    simp only [Res.bind_ok]
    by_cases hm : Mine j f.endPieceIndex
    · simp only [hm, decide_true, if_true]
      obtain ⟨w2, s2, e2, f2, p2, c2, fo2, b2⟩ := advance_exact true 0 ((off + size) % ps) w1 s1 f1 (by rw [p1, c1, hcl]; omega) (by rw [l1]; omega)
      rw [e2]
      have hd : (s1.content.drop s1.pos).take ((off + size) % ps) = m.read (E * ps) ((off + size) % ps) := by
        rw [c1, p1, hc, List.drop_append_of_le_length (by rw [read_length]; exact Nat.le_refl _),
          List.drop_of_length_le (by rw [read_length]; exact Nat.le_refl _), List.nil_append,
          List.take_of_length_le (by rw [read_length]; exact Nat.le_refl _)]
      simp only [if_true, List.take_zero, List.nil_append, hd, Nat.zero_add] at b2
      refine ⟨_, rfl, ?_, fun _ => ?_, ?_⟩
      · rw [b2, List.length_append, List.length_drop, read_length, l1]; omega
      · rw [b2, ← hE, List.take_append_of_le_length (by rw [read_length]; exact Nat.le_refl _),
          List.take_of_length_le (by rw [read_length]; exact Nat.le_refl _)]
      · rw [fo2, fo1, hE]
    · simp only [hm, decide_false, Bool.false_eq_true, if_false]
      refine ⟨_, rfl, l1, fun hme => ?_, by rw [fo1, hE]⟩
      by_cases hz : (off + size) % ps = 0
      · rw [hz]; simp [Mem.read]
      · exact absurd (by rw [hendE hz, hE]; exact hme) hm

theorem check_spec {j : Job} {m : Mem} {ps total off size : Nat} {A : Nat → Bool} {f : File} (u : Setup j ps total) (g : Placed ps f off size)
    (hw : Ends j.wanted f) (ht : off + size ≤ total) (c : Option Content) (w : Worker) (b : Between j m ps total A off w) :
    ((∃ w', readFile j false f w c = .ok w' ∧ Between j m ps total A (off + size) w') →
      ∃ w', checkFile j false f c w = .ok w' ∧ Between j m ps total A (off + size) w') ∧
    (off + size = total → (∃ w', readFile j true f w c = .ok w' ∧ w'.found = expected j m ps total A (total / ps + 1)) →
      ∃ w', checkFile j true f c w = .ok w' ∧ w'.found = expected j m ps total A (total / ps + 1)) := by
  have hT : (off + size) / ps ≤ total / ps := Nat.div_le_div_right ht
  have hO : off / ps ≤ (off + size) / ps := Nat.div_le_div_right (by omega)
  have hend : f.endPieceIndex ≤ (off + size) / ps := by
    rw [g.fin]; split
    · exact hO
    · exact Nat.div_le_div_right (by omega)
  have hend2 : (off + size) % ps ≠ 0 → f.endPieceIndex = (off + size) / ps := by
    intro hne
    have hmE := Nat.mod_lt (off + size) u.pos
    have hdE := Nat.div_add_mod (off + size) ps
    rw [Nat.mul_comm] at hdE
    rw [g.fin]; split
    · rename_i h; rw [h, Nat.add_zero]
    · rw [Nat.div_eq_iff u.pos]; omega
  have hend3 : ∀ k, k < (off + size) / ps → off / ps ≤ k → k ≤ f.endPieceIndex := by
    intro k hk _
    rw [g.fin]; split
    · rename_i h; rw [h, Nat.add_zero] at hk; omega
    · rw [Nat.lt_div_iff_mul_lt u.pos] at hk
      rw [Nat.le_div_iff_mul_le u.pos]
      have := Nat.div_mul_le_self (off + size) ps
      omega
  have hls : f.startPieceIndex < j.wanted.length := by rw [u.wanted, g.start]; omega
  have hle : f.endPieceIndex < j.wanted.length := by rw [u.wanted]; omega
  have unfold1 : ∀ last, checkFile j last f c w =
      (if j.wanted[f.startPieceIndex] = true ∨ j.wanted[f.endPieceIndex] = true then readFile j last f w c else .ok w) >>= fun w =>
        .ok { w with idx := if last then f.endPieceIndex + 1 else max w.idx f.endPieceIndex } := by
    intro last
    unfold checkFile
    rw [rd_eq_ok hls, rd_eq_ok hle]
    simp only [Res.bind_ok]
    cases j.wanted[f.startPieceIndex] <;> cases j.wanted[f.endPieceIndex] <;> simp <;> rfl
  rw [unfold1, unfold1]
  by_cases hc : j.wanted[f.startPieceIndex] = true ∨ j.wanted[f.endPieceIndex] = true
  · rw [if_pos hc, if_pos hc]
    refine ⟨?_, fun he => ?_⟩
    · rintro ⟨w', e, b'⟩
      rw [e]
      exact ⟨_, rfl, b'.len, b'.begun, b'.found⟩
    · rintro ⟨w', e, b'⟩
      rw [e]
      exact ⟨_, rfl, b'⟩
  · rw [if_neg hc, if_neg hc]
    have hno : ∀ k, off / ps ≤ k → k ≤ f.endPieceIndex → ¬ Mine j k := by
      intro k h1 h2 hm
      have := hw k (by rw [g.start]; exact h1) h2 hm.2
      rw [List.getElem?_eq_getElem hls, List.getElem?_eq_getElem hle] at this
      simp only [Option.some.injEq] at this
      exact hc this
    have hskip : expected j m ps total A ((off + size) / ps) = expected j m ps total A (off / ps) :=
      expected_skip j m ps total A hO fun k h1 h2 => Or.inl (hno k h1 (hend3 k h2 h1))
    refine ⟨fun _ => ⟨_, rfl, b.len, fun hm => ?_, by rw [hskip]; exact b.found⟩, fun he _ => ⟨_, rfl, ?_⟩⟩
    · by_cases hne : (off + size) % ps = 0
      · rw [hne]; simp [Mem.read]
      · exact absurd hm (hno _ hO (by rw [hend2 hne]; exact Nat.le_refl _))
    · simp only
      have hne : (off + size) % ps ≠ 0 := by rw [he]; exact u.tail
      rw [b.found, ← hskip, ← he]
      exact (expected_skip j m ps (off + size) A (Nat.le_succ _) fun k h1 h2 => Or.inl (hno k (by omega) (by rw [hend2 hne]; omega))).symm

/-- The files lie one behind the other. -/
inductive Row (ps : Nat) : Nat → List File → List Nat → Prop where
  | nil (off) : Row ps off [] []
  | cons (off f fs s ss) : Placed ps f off s → Row ps (off + s) fs ss → Row ps off (f :: fs) (s :: ss)

/-- Which pieces are there if of some files only the ends are kept. -/
inductive Stock (ps : Nat) (A : Nat → Bool) : Nat → List Nat → List Bool → Prop where
  | nil (off) : Stock ps A off [] []
  | whole (off s ss ks) : (∀ k, off / ps ≤ k → k * ps < off + s → A k = true) → Stock ps A (off + s) ss ks → Stock ps A off (s :: ss) (false :: ks)
  | kept (off s ss ks) : off / ps < (off + s) / ps → A (off / ps) = true → (∀ k, off / ps < k → k < (off + s) / ps → A k = false) →
      ((off + s) / ps * ps < off + s → A ((off + s) / ps) = true) → ss ≠ [] →
      Stock ps A (off + s) ss ks → Stock ps A off (s :: ss) (true :: ks)

theorem loop_spec {j : Job} {m : Mem} {ps total : Nat} {A : Nat → Bool} (u : Setup j ps total) (hps : ps ≤ 2147483648) :
    ∀ (files : List File) (sizes : List Nat) (kept : List Bool) (off : Nat),
    Row ps off files sizes → Stock ps A off sizes kept → files ≠ [] → off + sizes.sum = total → (∀ f ∈ files, Ends j.wanted f) →
    ∀ w : Worker, w.idx = off / ps → Between j m ps total A off w →
      ∃ w', fileLoop j files (stored m ps off sizes kept) w = .ok w' ∧ w'.found = expected j m ps total A (total / ps + 1)
  | [], _, _, _, _, _, h, _, _, _, _, _ => absurd rfl h
  | f :: fs, [], _, _, hr, _, _, _, _, _, _, _ => nomatch hr
  | f :: fs, s :: ss, kept, off, .cons _ _ _ _ _ g hr, hs, _, ht, hw, w, hi, b => by
    simp only [List.sum_cons] at ht
    have hO : off / ps ≤ total / ps := Nat.div_le_div_right (by omega)
    have hcase : ∃ c ks, stored m ps off (s :: ss) kept = c :: stored m ps (off + s) ss ks ∧ Stock ps A (off + s) ss ks ∧
        (∃ w', readFile j false f w c = .ok w' ∧ Between j m ps total A (off + s) w') ∧
        (fs = [] → off + s = total → ∃ w', readFile j true f w c = .ok w' ∧ w'.found = expected j m ps total A (total / ps + 1)) := by
      cases hs with
      | whole _ _ _ ks hA hs =>
        have hread : ∀ last, readFile j last f w (some (m.read off s)) = wholeFile j last f (m.read off s) w := by
          intro last; simp only [readFile]; rw [if_pos (by rw [read_length, g.fsize])]
        have := whole_spec u g (by omega) hA w hi b
        refine ⟨some (m.read off s), ks, by simp [stored], hs, ?_, fun _ he => ?_⟩
        · rw [hread]; exact this.1
        · rw [hread]; exact this.2 he
      | kept _ _ _ ks h1 h2 h3 h4 h5 hs =>
        refine ⟨_, ks, by simp only [stored, if_true], hs, kept_spec u hps g (by omega) h1 h2 h3 h4 w hi b, fun hf => ?_⟩
        subst hf
        cases hr
        exact absurd rfl h5
    obtain ⟨c, ks, e0, hs', r1, r2⟩ := hcase
    rw [e0]
    simp only [fileLoop]
    rw [if_pos (by rw [hi, u.hashes]; omega)]
    obtain ⟨c1, c2⟩ := check_spec u g (hw f (List.mem_cons_self ..)) (by omega) c w b
    cases fs with
    | nil =>
      cases hr
      have he : off + s = total := by simpa using ht
      obtain ⟨w', e, h⟩ := c2 he (r2 rfl he)
      simp only [List.isEmpty_nil, e, Res.bind_ok]
      exact ⟨_, rfl, h⟩
    | cons g1 fs =>
      obtain ⟨w', e, b'⟩ := c1 r1
      simp only [List.isEmpty_cons, e, Res.bind_ok, List.head?_cons]
      have hg1 : g1.startPieceIndex = (off + s) / ps := by cases hr with | cons _ _ _ _ _ g' _ => exact g'.start
      exact loop_spec u hps (g1 :: fs) ss ks (off + s) hr hs' (by simp) (by omega) (fun f hf => hw f (List.mem_cons_of_mem _ hf)) _
        (by simp only [hg1]) ⟨b'.len, b'.begun, b'.found⟩

theorem stored_spec {j : Job} {m : Mem} {ps total : Nat} {A : Nat → Bool} (u : Setup j ps total) (hps : ps ≤ 2147483648)
    (sizes : List Nat) (kept : List Bool) (hr : Row ps 0 j.info.files sizes) (hs : Stock ps A 0 sizes kept)
    (ht : sizes.sum = total) (hw : ∀ f ∈ j.info.files, Ends j.wanted f) :
    checkStoredPieces j (stored m ps 0 sizes kept) = .ok (expected j m ps total A (total / ps + 1)) := by
  have hne : j.info.files ≠ [] := by
    intro h
    rw [h] at hr
    cases hr
    have := u.tail
    simp at ht
    rw [← ht] at this
    simp at this
  obtain ⟨w, e, h⟩ := loop_spec (m := m) u hps j.info.files sizes kept 0 hr hs hne (by omega) hw { buf := List.replicate j.info.pieceSize 0 } (by simp)
    ⟨by simp [u.psize], fun _ => by simp [Mem.read], by simp [expected]⟩
  simp only [checkStoredPieces, e, Res.bind_ok, h, Res.pure_eq]

theorem gap_lt (ps : Nat) (k : Nat) : ∀ (sizes : List Nat) (kept : List Bool) (off : Nat), gap ps off sizes kept k = true → off / ps < k
  | [], _, _, h => by simp [gap] at h
  | _ :: _, [], _, h => by simp [gap] at h
  | s :: ss, b :: bs, off, h => by
    simp only [gap, Bool.or_eq_true, Bool.and_eq_true, decide_eq_true_eq] at h
    rcases h with h | h
    · exact h.2.1
    · exact Nat.lt_of_le_of_lt (Nat.div_le_div_right (by omega)) (gap_lt ps k ss bs (off + s) h)

/-- A row of files of which some are kept in part has the pieces that are not inside of those. -/
theorem stock_of (ps : Nat) (hps : 0 < ps) : ∀ (sizes : List Nat) (kept : List Bool) (off : Nat) (P : Nat → Bool), KeptOk ps off sizes kept →
    (∀ k, P k = true → k < off / ps) → Stock ps (fun k => !(P k || gap ps off sizes kept k)) off sizes kept
  | [], [], off, _, _, _ => .nil off
  | [], _ :: _, _, _, h, _ => by simp [KeptOk] at h
  | _ :: _, [], _, _, h, _ => by simp [KeptOk] at h
  | s :: ss, b :: ks, off, P, h, hP => by
    simp only [KeptOk] at h
    have hO : off / ps ≤ (off + s) / ps := Nat.div_le_div_right (by omega)
    have later : ∀ k, k ≤ (off + s) / ps → gap ps (off + s) ss ks k = false := by
      intro k hk
      cases hg : gap ps (off + s) ss ks k with
      | false => rfl
      | true => have := gap_lt ps k _ _ _ hg; omega
    have before : ∀ k, off / ps ≤ k → P k = false := by
      intro k hk
      cases hg : P k with
      | false => rfl
      | true => have := hP k hg; omega
    have ih := stock_of ps hps ss ks (off + s) (fun k => P k || (b && decide (off / ps < k ∧ k < (off + s) / ps))) h.2 (by
      intro k hk
      simp only [Bool.or_eq_true, Bool.and_eq_true, decide_eq_true_eq] at hk
      rcases hk with hk | hk
      · have := hP k hk; omega
      · exact hk.2.2)
    have e : (fun k => !((fun k => P k || (b && decide (off / ps < k ∧ k < (off + s) / ps))) k || gap ps (off + s) ss ks k)) =
        (fun k => !(P k || gap ps off (s :: ss) (b :: ks) k)) := by
      funext k; simp only [gap, Bool.or_assoc]
    rw [e] at ih
    cases b with
    | false =>
      refine .whole _ _ _ _ (fun k h1 h2 => ?_) ih
      have : k ≤ (off + s) / ps := by rw [Nat.le_div_iff_mul_le hps]; omega
      simp [gap, before k h1, later k this]
    | true =>
      have hk := h.1 rfl
      refine .kept _ _ _ _ hk.1 ?_ (fun k h1 h2 => ?_) (fun _ => ?_) hk.2 ih
      · simp [gap, before _ (Nat.le_refl _), later _ hO]
      · simp [gap, h1, h2]
      · simp [gap, before _ hO, later _ (Nat.le_refl _)]

end Verif.FileCheck
