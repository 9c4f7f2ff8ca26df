import Verif.Model.SelectedFiles
import Verif.Spec.SelectedFiles
import Verif.Proof.Selection
/-! Proofs about the room of a selection. -/

namespace Verif.SelectedFiles
open Verif Layout Spec Spec.SelectedFiles

/-! ### Counting -/

theorem countP_split (m n : Nat) (P : Nat → Bool) :
    (List.range (m + n)).countP P = (List.range m).countP P + (List.range n).countP (fun x => P (m + x)) := by
  rw [List.range_add, List.countP_append, List.countP_map]
  rfl

theorem countP_const {n : Nat} {P : Nat → Bool} (v : Bool) (h : ∀ x, x < n → P x = v) :
    (List.range n).countP P = if v then n else 0 := by
  cases v with
  | true =>
    rw [if_pos rfl]
    have : (List.range n).countP P = (List.range n).length := List.countP_eq_length.2 (fun a ha => h a (List.mem_range.1 ha))
    rw [this, List.length_range]
  | false =>
    rw [if_neg (by simp)]
    exact List.countP_eq_zero.2 (fun a ha => by simp [h a (List.mem_range.1 ha)])

/-- `partSize` without the limits of the numbers. -/
def part (ps a z : Nat) (first last : Bool) : Nat :=
  let sz := if first then min (ps - a % ps) z else 0
  if last then min (sz + (a + z) % ps) z else sz

theorem div_between {ps p x : Nat} (h1 : p * ps ≤ x) (h2 : x < (p + 1) * ps) : x / ps = p := by
  have hps : 0 < ps := by
    cases ps with
    | zero => omega
    | succ n => omega
  rw [Nat.div_eq_iff hps]
  rw [Nat.add_mul] at h2
  omega

theorem div_bounds {ps : Nat} (hps : 0 < ps) (x : Nat) : (x / ps) * ps ≤ x ∧ x < (x / ps + 1) * ps ∧ x % ps = x - (x / ps) * ps := by
  have h1 := Nat.div_add_mod x ps
  have h2 := Nat.mod_lt x hps
  rw [Nat.mul_comm] at h1
  rw [Nat.add_mul]
  omega

/-- The bytes of a file that lie in pieces of others: only its ends can. -/
theorem count_part {ps a z : Nat} (hps : 0 < ps) (hz : 0 < z) (S : Nat → Bool)
    (hS : ∀ p, S p = true → p ≤ a / ps ∨ (a + z) / ps ≤ p) :
    (List.range z).countP (fun x => S ((a + x) / ps)) = part ps a z (S (a / ps)) (S ((a + z - 1) / ps)) := by
  obtain ⟨a1, a2, a3⟩ := div_bounds hps a
  obtain ⟨e1, e2, _⟩ := div_bounds hps (a + z - 1)
  obtain ⟨f1, f2, f3⟩ := div_bounds hps (a + z)
  generalize hs : a / ps = s at *
  generalize he : (a + z - 1) / ps = e at *
  generalize hf : (a + z) / ps = f at *
  rw [Nat.add_mul] at a2 e2 f2
  unfold part
  rw [a3, f3]
  by_cases hse : s = e
  · subst hse
    rw [countP_const (S s)]
    · cases S s with
      | true => simp only [if_true]; omega
      | false => simp
    · intro x hx
      rw [div_between (p := s) (by omega) (by rw [Nat.add_mul]; omega)]
  · have hlt : s < e := by
      have : s ≤ e := by rw [← hs, ← he]; exact Nat.div_le_div_right (by omega)
      omega
    have hmul : (s + 1) * ps ≤ e * ps := Nat.mul_le_mul_right _ hlt
    rw [Nat.add_mul] at hmul
    have hz' : z = (ps - (a - s * ps)) + ((e * ps - (s * ps + ps)) + (a + z - e * ps)) := by omega
    have hcount : (List.range z).countP (fun x => S ((a + x) / ps)) =
        (if S s then ps - (a - s * ps) else 0) + (0 + (if S e then a + z - e * ps else 0)) := by
      conv => lhs; rw [hz']
      rw [countP_split, countP_split]
      congr 1
      · refine countP_const _ ?_
        intro x hx
        rw [div_between (p := s) (by omega) (by rw [Nat.add_mul]; omega)]
      · congr 1
        · refine countP_const false ?_
          intro x hx
          cases hc : S ((a + (ps - (a - s * ps) + x)) / ps) with
          | false => rfl
          | true =>
            exfalso
            have hb := div_bounds hps (a + (ps - (a - s * ps) + x))
            rcases hS _ hc with h | h
            · have h := Nat.mul_le_mul_right ps h
              rw [Nat.add_mul] at hb
              omega
            · have hfe : e ≤ f := by rw [← he, ← hf]; exact Nat.div_le_div_right (by omega)
              have h := Nat.mul_le_mul_right ps (Nat.le_trans hfe h)
              omega
        · refine countP_const _ ?_
          intro x hx
          rw [div_between (p := e) (by omega) (by rw [Nat.add_mul]; omega)]
    rw [hcount]
    by_cases hfe : f = e
    · subst hfe
      cases S s <;> cases S f <;> simp only [if_true, Bool.false_eq_true, if_false] <;> omega
    · have hfe2 : f = e + 1 := by
        have h1 : e ≤ f := by rw [← he, ← hf]; exact Nat.div_le_div_right (by omega)
        have h2 : f * ps < (e + 2) * ps := by rw [Nat.add_mul]; omega
        have h3 := Nat.lt_of_mul_lt_mul_right h2
        omega
      have hSe : S e = false := by
        cases hc : S e with
        | false => rfl
        | true => rcases hS e hc with h | h <;> omega
      rw [hSe]
      cases S s <;> simp only [if_true, Bool.false_eq_true, if_false] <;> omega

/-! ### Pieces of files -/

theorem dataIn_iff {ps : Nat} (hps : 0 < ps) {sizes : List Nat} {j : Nat} (hj : j < sizes.length) (hpos : 0 < sizes[j]) (p : Nat) :
    dataIn ps sizes j p = true ↔ fileStart sizes j / ps ≤ p ∧ p ≤ (fileEnd sizes j - 1) / ps := by
  unfold dataIn
  rw [fileEnd_eq sizes j hj, List.getElem?_eq_getElem hj, Option.getD_some, List.any_eq_true]
  generalize fileStart sizes j = a
  generalize sizes[j] = z at *
  constructor
  · rintro ⟨x, hx, h⟩
    have hx := List.mem_range.1 hx
    have h : (a + x) / ps = p := by simpa using h
    rw [← h]
    exact ⟨Nat.div_le_div_right (by omega), Nat.div_le_div_right (by omega)⟩
  · rintro ⟨h1, h2⟩
    obtain ⟨a1, a2, _⟩ := div_bounds hps a
    obtain ⟨e1, e2, _⟩ := div_bounds hps (a + z - 1)
    by_cases hc : a / ps = p
    · exact ⟨0, List.mem_range.2 hpos, by simpa using hc⟩
    · have hlt : a / ps + 1 ≤ p := by omega
      have h3 := Nat.mul_le_mul_right ps hlt
      have h4 := Nat.mul_le_mul_right ps h2
      refine ⟨p * ps - a, List.mem_range.2 (by omega), ?_⟩
      have : a + (p * ps - a) = p * ps := by omega
      simp [this, hps]

theorem wanted_iff {ps : Nat} {sizes : List Nat} {sel : List Bool} {p : Nat} :
    wanted ps sizes sel p = true ↔ ∃ j, j < sizes.length ∧ sel[j]?.getD false = true ∧ dataIn ps sizes j p = true := by
  unfold wanted
  rw [List.any_eq_true]
  constructor
  · rintro ⟨j, h1, h2⟩
    simp only [Bool.and_eq_true] at h2
    exact ⟨j, List.mem_range.1 h1, h2.1, h2.2⟩
  · rintro ⟨j, h1, h2, h3⟩
    exact ⟨j, List.mem_range.2 h1, by simp [h2, h3]⟩

theorem start_end {sizes : List Nat} {j k : Nat} (h : j < k) : fileEnd sizes j ≤ fileStart sizes k :=
  fileStart_mono sizes (j := j + 1) (k := k) h

/-- Pieces of other files are at the ends of a file. -/
theorem wanted_ends {ps : Nat} {sizes : List Nat} {sel : List Bool} {k : Nat} (hk : sel[k]?.getD false = false) (p : Nat)
    (h : wanted ps sizes sel p = true) : p ≤ fileStart sizes k / ps ∨ fileEnd sizes k / ps ≤ p := by
  obtain ⟨j, hj, hs, hd⟩ := wanted_iff.1 h
  have hne : j ≠ k := by rintro rfl; rw [hk] at hs; simp at hs
  unfold dataIn at hd
  rw [List.getElem?_eq_getElem hj, Option.getD_some, List.any_eq_true] at hd
  obtain ⟨x, hx, hd⟩ := hd
  have hx := List.mem_range.1 hx
  have hd : (fileStart sizes j + x) / ps = p := by simpa using hd
  have he := fileEnd_eq sizes j hj
  rw [← hd]
  rcases Nat.lt_or_gt_of_ne hne with h | h
  · have := start_end (sizes := sizes) h
    exact .inl (Nat.div_le_div_right (by omega))
  · have := start_end (sizes := sizes) h
    exact .inr (Nat.div_le_div_right (by omega))

theorem needed_part {ps : Nat} (hps : 0 < ps) {sizes : List Nat} (hpos : ∀ s ∈ sizes, 0 < s) {sel : List Bool} {k : Nat}
    (hk : k < sizes.length) (hs : sel[k]?.getD false = false) :
    needed ps sizes sel k = part ps (fileStart sizes k) sizes[k] (wanted ps sizes sel (fileStart sizes k / ps))
      (wanted ps sizes sel ((fileEnd sizes k - 1) / ps)) := by
  unfold needed
  rw [hs, if_neg (by simp), List.getElem?_eq_getElem hk, Option.getD_some, fileEnd_eq sizes k hk]
  refine count_part hps (hpos _ (List.getElem_mem hk)) (wanted ps sizes sel) ?_
  intro p hp
  have := wanted_ends hs p hp
  rwa [fileEnd_eq sizes k hk] at this

/-! ### Marking -/

theorem mark_ok (n : Nat) : ∀ (m : List Bool) (a : Nat), a + n ≤ m.length →
    ∃ m', mark m a n = .ok m' ∧ m'.length = m.length ∧ ∀ p, m'[p]?.getD false = (m[p]?.getD false || decide (a ≤ p ∧ p < a + n)) := by
  induction n with
  | zero => intro m a _; exact ⟨m, rfl, rfl, fun p => by simp; omega⟩
  | succ n ih =>
    intro m a h
    obtain ⟨m', h1, h2, h3⟩ := ih (m.set a true) (a + 1) (by simp; omega)
    refine ⟨m', ?_, by simpa using h2, ?_⟩
    · rw [mark, if_pos (by omega)]; exact h1
    · intro p
      rw [h3 p, List.getElem?_set]
      by_cases hp : a = p
      · subst hp
        rw [if_pos rfl, if_pos (by omega)]
        simp
      · rw [if_neg hp]
        congr 1
        exact decide_eq_decide.2 (by omega)

theorem markAll_ok (fs : List File) : ∀ (sel m : List Bool), sel.length = fs.length →
    (∀ f ∈ fs, f.startPieceIndex ≤ f.endPieceIndex ∧ f.endPieceIndex < m.length) →
    ∃ m', markAll fs sel m = .ok m' ∧ m'.length = m.length ∧ ∀ p : Nat, (m'[p]?.getD false = true ↔ m[p]?.getD false = true ∨
      ∃ (j : Nat) (f : File), fs[j]? = some f ∧ sel[j]?.getD false = true ∧ f.startPieceIndex ≤ p ∧ p ≤ f.endPieceIndex) := by
  induction fs with
  | nil =>
    intro sel m _ _
    exact ⟨m, by cases sel <;> rfl, rfl, fun p => by simp⟩
  | cons f fs ih =>
    intro sel m hl hf
    cases sel with
    | nil => simp at hl
    | cons s ss =>
      have hl2 : ss.length = fs.length := by simpa using hl
      obtain ⟨g1, g2⟩ := hf f (by simp)
      rw [markAll]
      cases s with
      | true =>
        obtain ⟨m1, h1, h2, h3⟩ := mark_ok (f.endPieceIndex + 1 - f.startPieceIndex) m f.startPieceIndex (by omega)
        obtain ⟨m2, k1, k2, k3⟩ := ih ss m1 hl2 (fun g hg => by rw [h2]; exact hf g (by simp [hg]))
        refine ⟨m2, ?_, by rw [k2, h2], ?_⟩
        · rw [if_pos rfl, h1, Res.bind_ok]; exact k1
        · intro p
          rw [k3 p, h3 p]
          simp only [Bool.or_eq_true, decide_eq_true_eq]
          constructor
          · rintro ((h | h) | ⟨j, g, h⟩)
            · exact .inl h
            · exact .inr ⟨0, f, by simp, by simp, by omega, by omega⟩
            · exact .inr ⟨j + 1, g, by simpa using h⟩
          · rintro (h | ⟨j, g, hj, h⟩)
            · exact .inl (.inl h)
            · cases j with
              | zero =>
                obtain rfl : f = g := by simpa using hj
                exact .inl (.inr (by omega))
              | succ j => exact .inr ⟨j, g, by simpa using hj, by simpa using h⟩
      | false =>
        obtain ⟨m2, k1, k2, k3⟩ := ih ss m hl2 (fun g hg => hf g (by simp [hg]))
        refine ⟨m2, by rw [if_neg (by simp)]; exact k1, k2, ?_⟩
        intro p
        rw [k3 p]
        constructor
        · rintro (h | ⟨j, g, h⟩)
          · exact .inl h
          · exact .inr ⟨j + 1, g, by simpa using h⟩
        · rintro (h | ⟨j, g, hj, h⟩)
          · exact .inl h
          · cases j with
            | zero => simp at h
            | succ j => exact .inr ⟨j, g, by simpa using hj, by simpa using h⟩

/-! ### The files of a torrent -/

/-- What reading gives of file `k`. -/
def theFile (ps : Nat) (sizes : List Nat) (k : Nat) : File :=
  { size := sizes[k]?.getD 0, startPieceIndex := fileStart sizes k / ps, startPiecePos := fileStart sizes k % ps
    endPieceIndex := (fileEnd sizes k - 1) / ps, endPiecePos := fileEnd sizes k % ps }

/-- The torrent of these sizes, none of them zero. -/
structure Good (ps : Nat) (sizes : List Nat) (i : Info) : Prop where
  ps0 : 0 < ps
  ps32 : ps < 4294967296
  sum : sizes.sum < 18446744073709551616
  pos : ∀ s ∈ sizes, 0 < s
  files : i.files = (List.range sizes.length).map (theFile ps sizes)
  size : i.pieceSize = ps
  count : i.piecesCount = pieceCount ps sizes.sum

theorem Good.parsed {ps : Nat} {sizes : List Nat} (hps : 0 < ps) (hps32 : ps < 4294967296)
    (h64 : sizes.sum < 18446744073709551616) (h32 : sizes.sum / ps < 4294967296) (hpos : ∀ s ∈ sizes, 0 < s) :
    ∃ i, parseInfo ps (pieceCount ps sizes.sum) (.multi sizes) = .ok i ∧ Good ps sizes i := by
  obtain ⟨i, h1, h2, h3, h4, h5, h6, _⟩ := parse_multi ps (pieceCount ps sizes.sum) sizes hps hps32 h64 h32
  refine ⟨i, h1, hps, hps32, h64, hpos, ?_, h3, h2⟩
  apply List.ext_getElem?
  intro k
  by_cases hk : k < sizes.length
  · rw [h6 k hk, List.getElem?_map, List.getElem?_range hk]
    have := hpos _ (List.getElem_mem hk)
    simp [theFile, hk, Nat.ne_of_gt this]
  · rw [List.getElem?_eq_none (by omega), List.getElem?_eq_none (by simp; omega)]

theorem Good.file {ps : Nat} {sizes : List Nat} {i : Info} (g : Good ps sizes i) {k : Nat} (hk : k < sizes.length) :
    i.files[k]? = some (theFile ps sizes k) := by
  rw [g.files, List.getElem?_map, List.getElem?_range hk]; rfl

theorem Good.length {ps : Nat} {sizes : List Nat} {i : Info} (g : Good ps sizes i) : i.files.length = sizes.length := by
  rw [g.files]; simp

theorem Good.pos' {ps : Nat} {sizes : List Nat} {i : Info} (g : Good ps sizes i) {k : Nat} (hk : k < sizes.length) :
    0 < sizes[k] := g.pos _ (List.getElem_mem hk)

theorem Good.last {ps : Nat} {sizes : List Nat} {i : Info} (g : Good ps sizes i) {k : Nat} (hk : k < sizes.length) :
    (fileEnd sizes k - 1) / ps < i.piecesCount := by
  rw [g.count]
  have h1 := fileEnd_le sizes k
  have h2 := fileEnd_eq sizes k hk
  have h3 := g.pos' hk
  have hps := g.ps0
  unfold pieceCount
  have h4 : (fileEnd sizes k - 1 + ps) / ps = (fileEnd sizes k - 1) / ps + 1 := Nat.add_div_right _ hps
  have h5 : (fileEnd sizes k - 1 + ps) / ps ≤ (sizes.sum + ps - 1) / ps := Nat.div_le_div_right (by omega)
  omega

theorem Good.order {ps : Nat} {sizes : List Nat} {i : Info} (g : Good ps sizes i) {k : Nat} (hk : k < sizes.length) :
    fileStart sizes k / ps ≤ (fileEnd sizes k - 1) / ps := by
  have h2 := fileEnd_eq sizes k hk
  have h3 := g.pos' hk
  exact Nat.div_le_div_right (by omega)

theorem Good.partSize {ps : Nat} {sizes : List Nat} {i : Info} (g : Good ps sizes i) {k : Nat} (hk : k < sizes.length) (a b : Bool) :
    partSize ps (theFile ps sizes k) a b = part ps (fileStart sizes k) sizes[k] a b := by
  have hz : (theFile ps sizes k).size = sizes[k] := by simp [theFile, hk]
  have h1 := fileEnd_le sizes k
  have h2 := fileEnd_eq sizes k hk
  have h3 := g.ps32
  have h4 := g.sum
  have hm := Nat.mod_lt (fileStart sizes k) g.ps0
  have hm2 := Nat.mod_lt (fileEnd sizes k) g.ps0
  have hm3 := Nat.mod_le (fileEnd sizes k) ps
  unfold Verif.SelectedFiles.partSize part
  rw [hz]
  have hsub : sub32 ps (theFile ps sizes k).startPiecePos = ps - fileStart sizes k % ps := by
    simp only [theFile, sub32, u32]; omega
  rw [hsub]
  have hend : (theFile ps sizes k).endPiecePos = (fileStart sizes k + sizes[k]) % ps := by
    simp only [theFile]; rw [h2]
  rw [hend]
  rw [h2] at hm2 hm3 h1
  cases a <;> cases b <;> simp only [if_true, Bool.false_eq_true, if_false, u64]
  · omega
  · have : (min (ps - fileStart sizes k % ps) sizes[k] + (fileStart sizes k + sizes[k]) % ps) % 18446744073709551616 =
        min (ps - fileStart sizes k % ps) sizes[k] + (fileStart sizes k + sizes[k]) % ps ∨
        sizes[k] ≤ (min (ps - fileStart sizes k % ps) sizes[k] + (fileStart sizes k + sizes[k]) % ps) := by omega
    omega

theorem Good.marked {ps : Nat} {sizes : List Nat} {i : Info} (g : Good ps sizes i) {sel : List Bool} (hl : sel.length = sizes.length) :
    ∃ m, markAll i.files sel (List.replicate i.piecesCount false) = .ok m ∧ m.length = i.piecesCount ∧
      ∀ p, m[p]?.getD false = wanted ps sizes sel p := by
  obtain ⟨m, h1, h2, h3⟩ := markAll_ok i.files sel (List.replicate i.piecesCount false) (by rw [hl, g.length]) (by
    intro f hf
    rw [g.files] at hf
    obtain ⟨k, hk, rfl⟩ := List.mem_map.1 hf
    have hk := List.mem_range.1 hk
    rw [List.length_replicate]
    exact ⟨g.order hk, g.last hk⟩)
  refine ⟨m, h1, by simpa using h2, ?_⟩
  intro p
  rw [Bool.eq_iff_iff, h3 p, wanted_iff]
  have h0 : (List.replicate i.piecesCount false)[p]?.getD false = false := by
    rw [List.getElem?_replicate]; split <;> rfl
  rw [h0]
  constructor
  · rintro (h | ⟨j, f, hj, hs, ha, hb⟩)
    · simp at h
    · have hjl : j < sizes.length := by
        rw [← g.length]
        exact (List.getElem?_eq_some_iff.1 hj).1
      rw [g.file hjl] at hj
      obtain rfl := Option.some.inj hj
      exact ⟨j, hjl, hs, (dataIn_iff g.ps0 hjl (g.pos' hjl) p).2 ⟨ha, hb⟩⟩
  · rintro ⟨j, hj, hs, hd⟩
    have := (dataIn_iff g.ps0 hj (g.pos' hj) p).1 hd
    exact .inr ⟨j, _, g.file hj, hs, this.1, this.2⟩

/-- The entry of a file. -/
def entry (ps : Nat) (sizes : List Nat) (sel : List Bool) (k : Nat) : Option (Nat × Nat) :=
  if sel[k]?.getD false || needed ps sizes sel k ≠ 0 then some (k, needed ps sizes sel k) else none

theorem Good.collect {ps : Nat} {sizes : List Nat} {i : Info} (g : Good ps sizes i) {sel : List Bool} (hl : sel.length = sizes.length)
    {m : List Bool} (hm : m.length = i.piecesCount) (hw : ∀ p, m[p]?.getD false = wanted ps sizes sel p) (n : Nat) :
    ∀ k, k + n = sizes.length →
    collect ps m k (i.files.drop k) (sel.drop k) = .ok ((List.range' k n).filterMap (entry ps sizes sel)) := by
  induction n with
  | zero =>
    intro k h
    rw [List.drop_eq_nil_of_le (by rw [g.length]; omega)]
    rfl
  | succ n ih =>
    intro k h
    have hk : k < sizes.length := by omega
    have hfd : i.files.drop k = theFile ps sizes k :: i.files.drop (k + 1) := by
      rw [List.drop_eq_getElem_cons (by rw [g.length]; exact hk)]
      congr 1
      have := g.file hk
      rw [List.getElem?_eq_getElem (by rw [g.length]; exact hk)] at this
      exact Option.some.inj this
    have hsd : sel.drop k = sel[k] :: sel.drop (k + 1) := List.drop_eq_getElem_cons (by omega)
    have hsg : sel[k]?.getD false = sel[k] := by
      rw [List.getElem?_eq_getElem (by omega)]; rfl
    rw [hfd, hsd, Verif.SelectedFiles.collect, List.range'_succ, List.filterMap_cons]
    have ih := ih (k + 1) (by omega)
    have hrd : ∀ p, p < i.piecesCount → rd m p = .ok (wanted ps sizes sel p) := by
      intro p hp
      rw [← hw p]
      simp [rd, hm, hp]
    rw [show entry ps sizes sel k = if sel[k]?.getD false || needed ps sizes sel k ≠ 0 then some (k, needed ps sizes sel k) else none from rfl, hsg]
    cases hs : sel[k] with
    | true =>
      rw [if_pos rfl, ih, Res.bind_ok]
      simp only [Bool.true_or, if_true]
      have : needed ps sizes sel k = (theFile ps sizes k).size := by
        unfold needed
        rw [hsg, hs, if_pos rfl]; rfl
      rw [this]; rfl
    | false =>
      rw [if_neg (by simp), hrd (theFile ps sizes k).startPieceIndex (Nat.lt_of_le_of_lt (g.order hk) (g.last hk)), Res.bind_ok,
        hrd (theFile ps sizes k).endPieceIndex (g.last hk), Res.bind_ok, ih, Res.bind_ok]
      have hp := g.partSize hk (wanted ps sizes sel (theFile ps sizes k).startPieceIndex) (wanted ps sizes sel (theFile ps sizes k).endPieceIndex)
      have hn := needed_part g.ps0 g.pos hk (sel := sel) (by rw [hsg, hs])
      have heq : Verif.SelectedFiles.partSize ps (theFile ps sizes k) (wanted ps sizes sel (theFile ps sizes k).startPieceIndex)
          (wanted ps sizes sel (theFile ps sizes k).endPieceIndex) = needed ps sizes sel k := hp.trans hn.symm
      rw [heq]
      by_cases h0 : needed ps sizes sel k = 0
      · simp [h0, Res.pure_eq]
      · simp [h0, Res.pure_eq]

theorem Good.ofSelection {ps : Nat} {sizes : List Nat} {i : Info} (g : Good ps sizes i) {sel : List Bool} (hl : sel.length = sizes.length) :
    ofSelection i sel = .ok (room ps sizes sel) := by
  obtain ⟨m, h1, h2, h3⟩ := g.marked hl
  unfold Verif.SelectedFiles.ofSelection
  rw [h1, Res.bind_ok, g.size]
  have := g.collect hl h2 h3 sizes.length 0 (by omega)
  rw [List.drop_zero, List.drop_zero] at this
  rw [this]
  unfold room
  rw [List.range_eq_range']
  rfl

/-! ### One file -/

theorem only_get {n idx k : Nat} (hk : k < n) : (only n idx)[k]?.getD false = (k == idx) := by
  unfold only
  rw [List.getElem?_map, List.getElem?_range hk]; rfl

theorem Good.wantedOne {ps : Nat} {sizes : List Nat} {i : Info} (g : Good ps sizes i) {idx : Nat} (hi : idx < sizes.length) (p : Nat) :
    wanted ps sizes (only sizes.length idx) p = decide (fileStart sizes idx / ps ≤ p ∧ p ≤ (fileEnd sizes idx - 1) / ps) := by
  rw [Bool.eq_iff_iff, wanted_iff, decide_eq_true_eq, ← dataIn_iff g.ps0 hi (g.pos' hi)]
  constructor
  · rintro ⟨j, hj, hs, hd⟩
    rw [only_get hj] at hs
    obtain rfl : j = idx := by simpa using hs
    exact hd
  · intro hd
    exact ⟨idx, hi, by rw [only_get hi]; simp, hd⟩

/-- What the loop computes for another file is what it needs. -/
theorem Good.oneSize {ps : Nat} {sizes : List Nat} {i : Info} (g : Good ps sizes i) {idx k : Nat} (hi : idx < sizes.length)
    (hk : k < sizes.length) (hne : k ≠ idx) :
    Verif.SelectedFiles.partSize ps (theFile ps sizes k) ((theFile ps sizes k).startPieceIndex == (theFile ps sizes idx).endPieceIndex)
      ((theFile ps sizes k).endPieceIndex == (theFile ps sizes idx).startPieceIndex) = needed ps sizes (only sizes.length idx) k := by
  rw [g.partSize hk, needed_part g.ps0 g.pos hk (by rw [only_get hk]; simpa using hne), g.wantedOne hi, g.wantedOne hi]
  show part ps _ _ (fileStart sizes k / ps == (fileEnd sizes idx - 1) / ps) ((fileEnd sizes k - 1) / ps == fileStart sizes idx / ps) = _
  have hps := g.ps0
  have k1 := fileEnd_eq sizes k hk
  have i1 := fileEnd_eq sizes idx hi
  have k2 := g.pos' hk
  have i2 := g.pos' hi
  have ki := g.order hk
  have ii := g.order hi
  obtain ⟨a1, a2, a3⟩ := div_bounds hps (fileStart sizes k)
  obtain ⟨b1, b2, _⟩ := div_bounds hps (fileEnd sizes k - 1)
  obtain ⟨c1, c2, _⟩ := div_bounds hps (fileStart sizes idx)
  obtain ⟨d1, d2, _⟩ := div_bounds hps (fileEnd sizes idx - 1)
  have hend : ∀ p, p * ps ≤ fileEnd sizes k → fileEnd sizes k < p * ps + ps → fileEnd sizes k % ps = fileEnd sizes k - p * ps := by
    intro p h1 h2
    obtain ⟨_, _, f3⟩ := div_bounds hps (fileEnd sizes k)
    rw [f3, div_between (p := p) h1 (by rw [Nat.add_mul]; omega)]
  rw [Nat.add_mul] at a2 b2 c2 d2
  rcases Nat.lt_or_gt_of_ne hne with h | h
  · -- before
    have hse := start_end (sizes := sizes) h
    have hle : (fileEnd sizes k - 1) / ps ≤ fileStart sizes idx / ps := Nat.div_le_div_right (by omega)
    by_cases he : (fileEnd sizes k - 1) / ps = fileStart sizes idx / ps
    · have hmod := hend (fileStart sizes idx / ps) (by rw [← he]; omega) (by omega)
      rw [k1] at hmod
      by_cases hs : fileStart sizes k / ps = fileStart sizes idx / ps
      · have e3 : decide (fileStart sizes idx / ps ≤ fileStart sizes k / ps ∧ fileStart sizes k / ps ≤ (fileEnd sizes idx - 1) / ps) = true :=
          decide_eq_true (by omega)
        have e4 : decide (fileStart sizes idx / ps ≤ (fileEnd sizes k - 1) / ps ∧ (fileEnd sizes k - 1) / ps ≤ (fileEnd sizes idx - 1) / ps) = true :=
          decide_eq_true (by omega)
        rw [e3, e4]
        have e2 : ((fileEnd sizes k - 1) / ps == fileStart sizes idx / ps) = true := by simpa using he
        rw [e2]
        rw [hs] at a1 a2 a3
        unfold part
        rw [hmod]
        cases (fileStart sizes k / ps == (fileEnd sizes idx - 1) / ps) <;>
          simp only [if_true, Bool.false_eq_true, if_false] <;> omega
      · have e1 : (fileStart sizes k / ps == (fileEnd sizes idx - 1) / ps) = false := by simp; omega
        have e2 : ((fileEnd sizes k - 1) / ps == fileStart sizes idx / ps) = true := by simpa using he
        have e3 : decide (fileStart sizes idx / ps ≤ fileStart sizes k / ps ∧ fileStart sizes k / ps ≤ (fileEnd sizes idx - 1) / ps) = false :=
          decide_eq_false (by omega)
        have e4 : decide (fileStart sizes idx / ps ≤ (fileEnd sizes k - 1) / ps ∧ (fileEnd sizes k - 1) / ps ≤ (fileEnd sizes idx - 1) / ps) = true :=
          decide_eq_true (by omega)
        rw [e1, e2, e3, e4]
    · have e1 : (fileStart sizes k / ps == (fileEnd sizes idx - 1) / ps) = false := by simp; omega
      have e2 : ((fileEnd sizes k - 1) / ps == fileStart sizes idx / ps) = false := by simpa using he
      have e3 : decide (fileStart sizes idx / ps ≤ fileStart sizes k / ps ∧ fileStart sizes k / ps ≤ (fileEnd sizes idx - 1) / ps) = false :=
        decide_eq_false (by omega)
      have e4 : decide (fileStart sizes idx / ps ≤ (fileEnd sizes k - 1) / ps ∧ (fileEnd sizes k - 1) / ps ≤ (fileEnd sizes idx - 1) / ps) = false :=
        decide_eq_false (by omega)
      rw [e1, e2, e3, e4]
  · -- behind
    have hse := start_end (sizes := sizes) h
    have hle : (fileEnd sizes idx - 1) / ps ≤ fileStart sizes k / ps := Nat.div_le_div_right (by omega)
    by_cases he : fileStart sizes k / ps = (fileEnd sizes idx - 1) / ps
    · have e1 : (fileStart sizes k / ps == (fileEnd sizes idx - 1) / ps) = true := by simpa using he
      have e3 : decide (fileStart sizes idx / ps ≤ fileStart sizes k / ps ∧ fileStart sizes k / ps ≤ (fileEnd sizes idx - 1) / ps) = true :=
        decide_eq_true (by omega)
      rw [e1, e3]
      by_cases hs : (fileEnd sizes k - 1) / ps = (fileEnd sizes idx - 1) / ps
      · have e4 : decide (fileStart sizes idx / ps ≤ (fileEnd sizes k - 1) / ps ∧ (fileEnd sizes k - 1) / ps ≤ (fileEnd sizes idx - 1) / ps) = true :=
          decide_eq_true (by omega)
        rw [e4]
        unfold part
        rw [a3]
        have hb : (fileEnd sizes k - 1) / ps = fileStart sizes k / ps := by omega
        rw [hb] at b1 b2
        cases ((fileEnd sizes k - 1) / ps == fileStart sizes idx / ps) <;>
          simp only [if_true, Bool.false_eq_true, if_false] <;> omega
      · have e2 : ((fileEnd sizes k - 1) / ps == fileStart sizes idx / ps) = false := by simp; omega
        have e4 : decide (fileStart sizes idx / ps ≤ (fileEnd sizes k - 1) / ps ∧ (fileEnd sizes k - 1) / ps ≤ (fileEnd sizes idx - 1) / ps) = false :=
          decide_eq_false (by omega)
        rw [e2, e4]
    · have e1 : (fileStart sizes k / ps == (fileEnd sizes idx - 1) / ps) = false := by simpa using he
      have e2 : ((fileEnd sizes k - 1) / ps == fileStart sizes idx / ps) = false := by simp; omega
      have e3 : decide (fileStart sizes idx / ps ≤ fileStart sizes k / ps ∧ fileStart sizes k / ps ≤ (fileEnd sizes idx - 1) / ps) = false :=
        decide_eq_false (by omega)
      have e4 : decide (fileStart sizes idx / ps ≤ (fileEnd sizes k - 1) / ps ∧ (fileEnd sizes k - 1) / ps ≤ (fileEnd sizes idx - 1) / ps) = false :=
        decide_eq_false (by omega)
      rw [e1, e2, e3, e4]

/-- Files that end before the piece in which the target begins, or begin behind the one in which it ends, need nothing. -/
theorem Good.oneNone {ps : Nat} {sizes : List Nat} {i : Info} (g : Good ps sizes i) {idx k : Nat} (hi : idx < sizes.length)
    (hk : k < sizes.length) (hne : k ≠ idx)
    (h : (fileEnd sizes k - 1) / ps < fileStart sizes idx / ps ∨ (fileEnd sizes idx - 1) / ps < fileStart sizes k / ps) :
    entry ps sizes (only sizes.length idx) k = none := by
  have hn := needed_part g.ps0 g.pos hk (sel := only sizes.length idx) (by rw [only_get hk]; simpa using hne)
  have ki := g.order hk
  have e3 : decide (fileStart sizes idx / ps ≤ fileStart sizes k / ps ∧ fileStart sizes k / ps ≤ (fileEnd sizes idx - 1) / ps) = false :=
    decide_eq_false (by omega)
  have e4 : decide (fileStart sizes idx / ps ≤ (fileEnd sizes k - 1) / ps ∧ (fileEnd sizes k - 1) / ps ≤ (fileEnd sizes idx - 1) / ps) = false :=
    decide_eq_false (by omega)
  rw [g.wantedOne hi, g.wantedOne hi, e3, e4] at hn
  have hn : needed ps sizes (only sizes.length idx) k = 0 := by rw [hn]; simp [part]
  unfold entry
  rw [only_get hk, hn]
  simp [hne]

theorem Good.oneLoop {ps : Nat} {sizes : List Nat} {i : Info} (g : Good ps sizes i) {idx : Nat} (hi : idx < sizes.length) (n : Nat) :
    ∀ k, k + n = sizes.length →
    oneLoop ps idx (theFile ps sizes idx) k (i.files.drop k) = (List.range' k n).filterMap (entry ps sizes (only sizes.length idx)) := by
  induction n with
  | zero =>
    intro k h
    rw [List.drop_eq_nil_of_le (by rw [g.length]; omega)]
    rfl
  | succ n ih =>
    intro k h
    have hk : k < sizes.length := by omega
    have hfd : i.files.drop k = theFile ps sizes k :: i.files.drop (k + 1) := by
      rw [List.drop_eq_getElem_cons (by rw [g.length]; exact hk)]
      congr 1
      have := g.file hk
      rw [List.getElem?_eq_getElem (by rw [g.length]; exact hk)] at this
      exact Option.some.inj this
    have ih := ih (k + 1) (by omega)
    rw [hfd, Verif.SelectedFiles.oneLoop]
    by_cases hb : (theFile ps sizes k).startPieceIndex > (theFile ps sizes idx).endPieceIndex
    · rw [if_pos hb]
      symm
      rw [List.filterMap_eq_nil_iff]
      intro j hj
      rw [List.mem_range'_1] at hj
      have hjl : j < sizes.length := by omega
      have hb : (fileEnd sizes idx - 1) / ps < fileStart sizes k / ps := hb
      have hm : fileStart sizes k / ps ≤ fileStart sizes j / ps := Nat.div_le_div_right (fileStart_mono sizes hj.1)
      refine g.oneNone hi hjl ?_ (.inr (by omega))
      rintro rfl
      have := g.order hi
      omega
    · rw [if_neg hb, List.range'_succ, List.filterMap_cons]
      by_cases hidx : k = idx
      · subst hidx
        have he : entry ps sizes (only sizes.length k) k = some (k, (theFile ps sizes k).size) := by
          unfold entry needed
          rw [only_get hk]
          simp [theFile]
        rw [if_pos rfl, he, ih]
      · rw [if_neg hidx]
        dsimp only
        rw [g.oneSize hi hk hidx, ih]
        rw [show entry ps sizes (only sizes.length idx) k = if (only sizes.length idx)[k]?.getD false || needed ps sizes (only sizes.length idx) k ≠ 0
          then some (k, needed ps sizes (only sizes.length idx) k) else none from rfl, only_get hk]
        by_cases h0 : needed ps sizes (only sizes.length idx) k = 0
        · simp [h0, hidx]
        · simp [h0]

theorem Good.back {ps : Nat} {sizes : List Nat} {i : Info} (g : Good ps sizes i) {idx : Nat} (hi : idx < sizes.length) :
    ∀ n, n ≤ idx →
      back i.files (theFile ps sizes idx) n ≤ n ∧
      ∀ j, j < back i.files (theFile ps sizes idx) n → entry ps sizes (only sizes.length idx) j = none := by
  intro n
  induction n with
  | zero => intro _; exact ⟨Nat.le_refl _, fun j hj => by simp [Verif.SelectedFiles.back] at hj⟩
  | succ n ih =>
    intro hn
    rw [Verif.SelectedFiles.back, g.file (by omega : n < sizes.length)]
    dsimp only
    split
    · rename_i hb
      refine ⟨Nat.le_refl _, ?_⟩
      intro j hj
      have hb : (fileEnd sizes n - 1) / ps ≠ fileStart sizes idx / ps := hb
      have h1 : (fileEnd sizes n - 1) / ps ≤ fileStart sizes idx / ps := by
        have := start_end (sizes := sizes) (show n < idx by omega)
        exact Nat.div_le_div_right (by omega)
      have h2 : (fileEnd sizes j - 1) / ps ≤ (fileEnd sizes n - 1) / ps := by
        have : fileEnd sizes j ≤ fileEnd sizes n := fileStart_mono sizes (j := j + 1) (k := n + 1) (by omega)
        exact Nat.div_le_div_right (by omega)
      exact g.oneNone hi (by omega) (by omega) (.inl (by omega))
    · obtain ⟨h1, h2⟩ := ih (by omega)
      exact ⟨by omega, h2⟩

theorem Good.ofFile {ps : Nat} {sizes : List Nat} {i : Info} (g : Good ps sizes i) {idx : Nat} (hi : idx < sizes.length) :
    ofFile i idx = .ok (room ps sizes (only sizes.length idx)) := by
  have hrd : rd i.files idx = .ok (theFile ps sizes idx) := by
    have h1 : i.files[idx]? = some (theFile ps sizes idx) := g.file hi
    unfold rd
    rw [h1]
  obtain ⟨b1, b2⟩ := g.back hi idx (Nat.le_refl _)
  unfold Verif.SelectedFiles.ofFile
  rw [hrd, Res.bind_ok, g.size]
  generalize Verif.SelectedFiles.back i.files (theFile ps sizes idx) idx = s at *
  rw [g.oneLoop hi (sizes.length - s) s (by omega)]
  unfold room
  rw [Res.pure_eq]
  congr 1
  have hr : List.range sizes.length = List.range' 0 s ++ List.range' s (sizes.length - s) := by
    have h := List.range'_append_1 (s := 0) (m := s) (n := sizes.length - s)
    rw [Nat.zero_add] at h
    rw [h, List.range_eq_range']
    congr 1; omega
  rw [hr, List.filterMap_append]
  have hnil : (List.range' 0 s).filterMap (entry ps sizes (only sizes.length idx)) = [] := by
    rw [List.filterMap_eq_nil_iff]
    intro j hj
    rw [List.mem_range'_1] at hj
    exact b2 j (by omega)
  have : ((List.range' 0 s).filterMap fun k =>
      if (only sizes.length idx)[k]?.getD false || needed ps sizes (only sizes.length idx) k ≠ 0 then
        some (k, needed ps sizes (only sizes.length idx) k) else none) = [] := hnil
  rw [this]
  rfl

end Verif.SelectedFiles
