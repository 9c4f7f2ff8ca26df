import Verif.Model.Storage
import Verif.Spec.StorageLayout
import Verif.Proof.Layout

namespace Verif.Storage
open Verif Verif.Spec Layout

/-- A file placed at `off` in pieces of `ps` bytes, not ending on the start of a piece. -/
structure FileGeom (ps : Nat) (f : File) (off size : Nat) : Prop where
  fsize : f.size = size
  start : f.startPieceIndex * ps + f.startPiecePos = off
  spos : f.startPiecePos < ps
  fin : f.endPieceIndex * ps + f.endPiecePos = off + size
  epos : 0 < f.endPiecePos
  epos' : f.endPiecePos ≤ ps
  se : f.startPieceIndex ≤ f.endPieceIndex
  e32 : f.endPieceIndex < 4294967296

inductive Geo (ps : Nat) : Nat → List File → List Nat → Prop where
  | nil (off) : Geo ps off [] []
  | cons (off f fs s ss) : FileGeom ps f off s → Geo ps (off + s) fs ss → Geo ps off (f :: fs) (s :: ss)

theorem read_length (m : Mem) (p n : Nat) : (m.read p n).length = n := by simp [Mem.read]

theorem read_get? (m : Mem) (p n j : Nat) : (m.read p n)[j]? = if j < n then some (m (p + j)) else none := by
  unfold Mem.read
  rw [List.getElem?_map]
  split
  · rename_i h; rw [List.getElem?_range h]; rfl
  · rw [List.getElem?_eq_none (by simp; omega)]; rfl

theorem read_slice (m : Mem) (p n a k : Nat) (h : a + k ≤ n) : ((m.read p n).drop a).take k = m.read (p + a) k := by
  apply List.ext_getElem?
  intro j
  rw [List.getElem?_take, List.getElem?_drop, read_get?, read_get?]
  split
  · rw [if_pos (by omega), Nat.add_assoc]
  · rfl

/-- `fileWrite` inside the file. -/
theorem fileWrite_get? (c : Content) (pos : Nat) (d : List UInt8) (h : pos + d.length ≤ c.length) (j : Nat) :
    (fileWrite c pos d)[j]? = if pos ≤ j ∧ j < pos + d.length then d[j - pos]? else c[j]? := by
  unfold fileWrite
  split
  · rename_i h0; subst h0; rw [if_neg (by simp)]
  · rw [show pos - c.length = 0 by omega, List.replicate_zero, List.append_nil, List.append_assoc]
    by_cases h1 : j < pos
    · rw [if_neg (by omega), List.getElem?_append_left (by simp; omega), List.getElem?_take, if_pos h1]
    · have ht : (c.take pos).length = pos := by simp; omega
      rw [List.getElem?_append_right (by rw [ht]; omega), ht]
      by_cases h2 : j < pos + d.length
      · rw [if_pos (by omega), List.getElem?_append_left (by omega)]
      · rw [if_neg (by omega), List.getElem?_append_right (by omega), List.getElem?_drop]
        congr 1
        omega

/-- What `getFileBlockPosition` computes: the part of the block inside the file. -/
structure PosSpec (P off size b len : Nat) (r : BlockPos) : Prop where
  inter : ∀ g, (P + b ≤ g ∧ g < P + b + len ∧ off ≤ g ∧ g < off + size) ↔
    (P + b + r.dataPos ≤ g ∧ g < P + b + r.dataPos + r.dataSize)
  pos : 0 < r.dataSize → r.fileDataPos + off = P + b + r.dataPos ∧ r.dataPos + r.dataSize ≤ len ∧
    r.fileDataPos + r.dataSize ≤ size

theorem getFileBlockPosition_spec (i : Info) (f : File) (ps off size : Nat) (g : FileGeom ps f off size)
    (hi : i.pieceSize = ps) (hps : ps < 2147483648) (h64 : off + size < 9223372036854775808) (idx b len : Nat) (hb : b + len ≤ ps)
    (hc : fileContainsPiece f idx = true) :
    PosSpec (idx * ps) off size b len (getFileBlockPosition i f idx b len) := by
  obtain ⟨gsize, gstart, gspos, gfin, gepos, gepos', gse, ge32⟩ := g
  unfold fileContainsPiece at hc
  simp only [Bool.and_eq_true, decide_eq_true_eq] at hc
  obtain ⟨hc1, hc2⟩ := hc
  unfold getFileBlockPosition
  rw [hi]
  simp only [u32_id (show b + len < 4294967296 by omega)]
  -- the position of the piece relative to the end of the file
  have hend : (f.endPieceIndex = idx → idx * ps + f.endPiecePos = off + size) ∧
      (f.endPieceIndex ≠ idx → idx * ps + ps < off + size) := by
    refine ⟨fun h => by rw [← h]; exact gfin, fun h => ?_⟩
    have : (idx + 1) * ps ≤ f.endPieceIndex * ps := Nat.mul_le_mul_right _ (by omega)
    rw [Nat.add_mul] at this
    omega
  by_cases hs : f.startPieceIndex = idx
  · have hP : idx * ps + f.startPiecePos = off := by rw [← hs]; exact gstart
    generalize idx * ps = P at *
    simp only [hs, if_true]
    by_cases h1 : f.startPiecePos > b + len
    · simp only [h1, if_true]
      constructor
      · intro g; simp only; omega
      · simp
    · simp only [h1, if_false]
      by_cases h2 : f.startPiecePos > b
      · simp only [h2, if_true]
        rw [sub32_eq (by omega) (by omega), sub32_eq (a := len) (by omega) (by omega)]
        by_cases h3 : f.endPieceIndex = idx
        · have := hend.1 h3
          simp only [h3, if_true]
          by_cases h4 : f.endPiecePos < b
          · omega
          · simp only [h4, if_false]
            by_cases h5 : f.endPiecePos < b + len
            · simp only [h5, if_true]
              rw [sub32_eq (a := b + len) (by omega) (by omega), sub32_eq (by omega) (by omega)]
              constructor
              · intro g; simp only; omega
              · simp only; omega
            · simp only [h5, if_false]
              constructor
              · intro g; simp only; omega
              · simp only; omega
        · have := hend.2 h3
          simp only [h3, if_false]
          constructor
          · intro g; simp only; omega
          · simp only; omega
      · simp only [h2, if_false]
        rw [sub32_eq (a := b) (b := f.startPiecePos) (by omega) (by omega)]
        by_cases h3 : f.endPieceIndex = idx
        · have := hend.1 h3
          simp only [h3, if_true]
          by_cases h4 : f.endPiecePos < b
          · simp only [h4, if_true]
            constructor
            · intro g; simp only; omega
            · simp
          · simp only [h4, if_false]
            by_cases h5 : f.endPiecePos < b + len
            · simp only [h5, if_true]
              rw [sub32_eq (a := b + len) (by omega) (by omega), sub32_eq (by omega) (by omega)]
              constructor
              · intro g; simp only; omega
              · simp only; omega
            · simp only [h5, if_false]
              constructor
              · intro g; simp only; omega
              · simp only; omega
        · have := hend.2 h3
          simp only [h3, if_false]
          constructor
          · intro g; simp only; omega
          · simp only; omega
  · simp only [hs, if_false]
    obtain ⟨d, hd⟩ : ∃ d, idx = f.startPieceIndex + 1 + d := ⟨idx - f.startPieceIndex - 1, by omega⟩
    have hidx : idx * ps = f.startPieceIndex * ps + ps + d * ps := by rw [hd, Nat.add_mul, Nat.add_mul, Nat.one_mul]
    have hfp : (if idx > u32 (f.startPieceIndex + 1)
        then u64 (u32 (sub32 ps f.startPiecePos + b) + sub32 (sub32 idx f.startPieceIndex) 1 * ps)
        else u32 (sub32 ps f.startPiecePos + b)) + off = idx * ps + b := by
      have hle : idx * ps ≤ f.endPieceIndex * ps := Nat.mul_le_mul_right _ hc2
      rw [sub32_eq (a := ps) (b := f.startPiecePos) (by omega) (Nat.le_of_lt gspos), u32_id (n := ps - f.startPiecePos + b) (by have := Nat.sub_le ps f.startPiecePos; omega),
        u32_id (n := f.startPieceIndex + 1) (by omega)]
      rw [sub32_eq (a := idx) (by omega) (by omega), sub32_eq (by omega) (by omega)]
      have hd' : idx - f.startPieceIndex - 1 = d := by omega
      rw [hd']
      split
      · rw [u64_id (by omega)]; omega
      · have : d = 0 := by omega
        subst this
        simp at hidx
        omega
    generalize (if idx > u32 (f.startPieceIndex + 1)
        then u64 (u32 (sub32 ps f.startPiecePos + b) + sub32 (sub32 idx f.startPieceIndex) 1 * ps)
        else u32 (sub32 ps f.startPiecePos + b)) = FP at *
    have hoff : off ≤ idx * ps := by
      have : 0 ≤ d * ps := Nat.zero_le _
      omega
    generalize idx * ps = P at *
    by_cases h3 : f.endPieceIndex = idx
    · have := hend.1 h3
      simp only [h3, if_true]
      by_cases h4 : f.endPiecePos < b
      · simp only [h4, if_true]
        constructor
        · intro g; simp only; omega
        · simp
      · simp only [h4, if_false]
        by_cases h5 : f.endPiecePos < b + len
        · simp only [h5, if_true]
          rw [sub32_eq (a := b + len) (by omega) (by omega), sub32_eq (by omega) (by omega)]
          constructor
          · intro g; simp only; omega
          · simp only; omega
        · simp only [h5, if_false]
          constructor
          · intro g; simp only; omega
          · simp only; omega
    · have := hend.2 h3
      simp only [h3, if_false]
      constructor
      · intro g; simp only; omega
      · simp only; omega

/-- A file not containing the piece has none of its bytes. -/
theorem not_contains {ps : Nat} {f : File} {off size : Nat} (g : FileGeom ps f off size) (idx b len : Nat) (hb : b + len ≤ ps)
    (hc : fileContainsPiece f idx = false) : idx * ps + b + len ≤ off ∨ off + size ≤ idx * ps + b := by
  obtain ⟨gsize, gstart, gspos, gfin, gepos, gepos', gse, ge32⟩ := g
  unfold fileContainsPiece at hc
  simp only [Bool.and_eq_false_iff, decide_eq_false_iff_not] at hc
  rcases hc with h | h
  · left
    have : (idx + 1) * ps ≤ f.startPieceIndex * ps := Nat.mul_le_mul_right _ (by omega)
    rw [Nat.add_mul] at this
    omega
  · right
    have : (f.endPieceIndex + 1) * ps ≤ idx * ps := Nat.mul_le_mul_right _ (by omega)
    rw [Nat.add_mul] at this
    omega

/-! ### Storing -/

/-- A block inside its piece, with its data. -/
structure Legal (ps : Nat) (b : Block) : Prop where
  len : b.data.length = b.info.length
  inside : b.info.begin + b.info.length ≤ ps

theorem put_outside (ps : Nat) (m : Mem) (b : Block) (hb : Legal ps b) (off size : Nat)
    (h : b.info.index * ps + b.info.begin + b.info.length ≤ off ∨ off + size ≤ b.info.index * ps + b.info.begin ∨ b.info.length = 0) :
    (memStore ps m b).read off size = m.read off size := by
  have hl := hb.len
  unfold Mem.read
  apply List.map_congr_left
  intro j hj
  simp only [List.mem_range] at hj
  unfold memStore blockStart Mem.write
  rw [dif_neg (by omega)]

theorem storeOne_spec (i : Info) (f : File) (ps off size : Nat) (m : Mem) (b : Block) (hb : Legal ps b) (hf : f.size = size)
    (r : BlockPos) (hr : PosSpec (b.info.index * ps) off size b.info.begin b.info.length r) (hpos : 0 < r.dataSize) :
    storeOne i f size (m.read off size) b r = .ok ((memStore ps m b).read off size) := by
  obtain ⟨h1, h2, h3⟩ := hr.pos hpos
  have hl := hb.len
  unfold storeOne slice
  simp only [hf, true_or, if_true]
  rw [if_pos (by omega)]
  simp only [Res.bind_ok, Res.pure_eq, Res.ok.injEq]
  have hdl : ((b.data.drop r.dataPos).take r.dataSize).length = r.dataSize := by
    simp; omega
  apply List.ext_getElem?
  intro j
  rw [fileWrite_get? _ _ _ (by rw [hdl, read_length]; omega), hdl, read_get?, read_get?]
  have hi := hr.inter (off + j)
  unfold memStore blockStart Mem.write
  split
  · rename_i hin
    have hj : j < size := by omega
    have := hi.mpr (by omega)
    rw [if_pos hj, dif_pos (by omega), List.getElem?_take, if_pos (by omega), List.getElem?_drop]
    rw [List.getElem?_eq_getElem (by omega)]
    congr 2
    omega
  · split
    · rename_i hin hj
      rw [dif_neg]
      intro hh
      have := hi.mp (by omega)
      omega
    · rfl

theorem storeAll_spec (i : Info) (f : File) (ps off size : Nat) (g : FileGeom ps f off size) (hi : i.pieceSize = ps)
    (hps : ps < 2147483648) (h64 : off + size < 9223372036854775808) (blocks : List Block) (hb : ∀ b ∈ blocks, Legal ps b) (m : Mem) :
    storeAll i f size (m.read off size) (blocksInfo i f blocks) = .ok ((blocks.foldl (memStore ps) m).read off size) ∧
    (blocksInfo i f blocks = [] → (blocks.foldl (memStore ps) m).read off size = m.read off size) := by
  induction blocks generalizing m with
  | nil => exact ⟨rfl, fun _ => rfl⟩
  | cons b rest ih =>
    have hbl := hb b (by simp)
    obtain ⟨ih1, ih2⟩ := ih (fun x hx => hb x (by simp [hx])) (memStore ps m b)
    have skip : (memStore ps m b).read off size = m.read off size →
        blocksInfo i f (b :: rest) = blocksInfo i f rest →
        storeAll i f size (m.read off size) (blocksInfo i f (b :: rest)) = .ok (((b :: rest).foldl (memStore ps) m).read off size) ∧
        (blocksInfo i f (b :: rest) = [] → ((b :: rest).foldl (memStore ps) m).read off size = m.read off size) := by
      intro e1 e2
      rw [e2, List.foldl_cons, ← e1]
      exact ⟨ih1, ih2⟩
    by_cases hc : fileContainsPiece f b.info.index = true
    · have hr := getFileBlockPosition_spec i f ps off size g hi hps h64 b.info.index b.info.begin b.info.length hbl.inside hc
      by_cases hz : (getFileBlockPosition i f b.info.index b.info.begin b.info.length).dataSize = 0
      · apply skip
        · have hint := hr.inter
          rw [hz] at hint
          unfold Mem.read
          apply List.map_congr_left
          intro j hj
          simp only [List.mem_range] at hj
          have := hint (off + j)
          have hl := hbl.len
          unfold memStore blockStart Mem.write
          rw [dif_neg (by omega)]
        · unfold blocksInfo
          rw [List.filterMap_cons]
          simp [hc, hz]
      · have e : blocksInfo i f (b :: rest) = (b, getFileBlockPosition i f b.info.index b.info.begin b.info.length) :: blocksInfo i f rest := by
          unfold blocksInfo
          rw [List.filterMap_cons]
          simp [hc, hz]
        refine ⟨?_, fun h => by rw [e] at h; cases h⟩
        rw [e]
        unfold storeAll
        rw [storeOne_spec i f ps off size m b hbl g.fsize _ hr (by omega)]
        exact ih1
    · have hc' : fileContainsPiece f b.info.index = false := by simpa using hc
      apply skip
      · exact put_outside ps m b hbl off size (by
          rcases not_contains g b.info.index _ _ hbl.inside hc' with h | h
          · exact .inl h
          · exact .inr (.inl h))
      · unfold blocksInfo
        rw [List.filterMap_cons]
        simp [hc']

theorem storeFile_spec (i : Info) (f : File) (ps off size : Nat) (g : FileGeom ps f off size) (hi : i.pieceSize = ps)
    (hps : ps < 2147483648) (h64 : off + size < 9223372036854775808) (blocks : List Block) (hb : ∀ b ∈ blocks, Legal ps b) (m : Mem) :
    storeFile i f blocks (some (m.read off size)) = .ok (.Success, some ((blocks.foldl (memStore ps) m).read off size)) := by
  obtain ⟨h1, h2⟩ := storeAll_spec i f ps off size g hi hps h64 blocks hb m
  unfold storeFile
  simp only
  split
  · rename_i h; rw [h2 h]
  · rw [read_length, h1]; rfl

/-- Blocks before `off` do not touch the files from `off` on. -/
theorem files_congr (m m' : Mem) (off : Nat) (sizes : List Nat) (h : ∀ g, off ≤ g → m g = m' g) :
    m.files off sizes = m'.files off sizes := by
  induction sizes generalizing off with
  | nil => rfl
  | cons s ss ih =>
    unfold Mem.files
    rw [ih (off + s) (fun g hg => h g (by omega))]
    congr 2
    unfold Mem.read
    apply List.map_congr_left
    intro j _
    exact h _ (by omega)

theorem foldl_put_outside (ps : Nat) (blocks : List Block) (hb : ∀ b ∈ blocks, Legal ps b) (m : Mem) (g : Nat)
    (h : ∀ b ∈ blocks, g < b.info.index * ps + b.info.begin ∨ b.info.index * ps + b.info.begin + b.info.length ≤ g) :
    blocks.foldl (memStore ps) m g = m g := by
  induction blocks generalizing m with
  | nil => rfl
  | cons b rest ih =>
    rw [List.foldl_cons, ih (fun x hx => hb x (by simp [hx])) _ (fun x hx => h x (by simp [hx]))]
    have := h b (by simp)
    have hl := (hb b (by simp)).len
    unfold memStore blockStart Mem.write
    rw [dif_neg (by omega)]

theorem storeLoop_spec (i : Info) (ps : Nat) (hi : i.pieceSize = ps) (hps : ps < 2147483648) (blocks : List Block)
    (hb : ∀ b ∈ blocks, Legal ps b) (last : Nat) (hlast : ∀ b ∈ blocks, b.info.index ≤ last)
    (m : Mem) (off : Nat) (files : List File) (sizes : List Nat) (g : Geo ps off files sizes)
    (h64 : off + sizes.sum < 9223372036854775808) (st : Status) :
    storeLoop i blocks last files (m.files off sizes) st =
      .ok (match files with
        | [] => st
        | f :: _ => if f.startPieceIndex > last then st else .Success, (blocks.foldl (memStore ps) m).files off sizes) := by
  induction g generalizing st with
  | nil off => rfl
  | cons off f fs s ss gf gr ih =>
    simp only [List.sum_cons] at h64
    simp only [Mem.files, storeLoop]
    split
    · rename_i hgt
      congr 2
      have hcg : ∀ x, off ≤ x → m x = blocks.foldl (memStore ps) m x := by
        intro x hx
        symm
        apply foldl_put_outside ps blocks hb
        intro b hbm
        right
        have h1 := hlast b hbm
        have h2 := (hb b hbm).inside
        have h3 := gf.start
        have : (b.info.index + 1) * ps ≤ f.startPieceIndex * ps := Nat.mul_le_mul_right _ (by omega)
        rw [Nat.add_mul] at this
        omega
      have := files_congr m (blocks.foldl (memStore ps) m) off (s :: ss) hcg
      simpa [Mem.files] using this
    · rw [storeFile_spec i f ps off s gf hi hps (by omega) blocks hb m]
      simp only [Res.bind_ok, ne_eq, not_true_eq_false, if_false]
      rw [ih (by omega)]
      simp only [Res.bind_ok, Res.pure_eq, Res.ok.injEq, Prod.mk.injEq, and_true]
      cases fs with
      | nil => rfl
      | cons f' fs' => simp

theorem prefix_spec (i : Info) (ps : Nat) (hi : i.pieceSize = ps) (hps : ps < 2147483648) (blocks : List Block)
    (hb : ∀ b ∈ blocks, Legal ps b) (first last : Nat) (hlast : ∀ b ∈ blocks, b.info.index ≤ last)
    (hfirst : ∀ b ∈ blocks, first ≤ b.info.index) (hfl : first ≤ last)
    (m : Mem) (off : Nat) (files : List File) (sizes : List Nat) (g : Geo ps off files sizes)
    (h64 : off + sizes.sum < 9223372036854775808) (st : Status) (hoff : off ≤ first * ps) (hne : first * ps < off + sizes.sum) :
    ∃ r, storeLoop i blocks last (files.drop (files.takeWhile fun f => decide (f.endPieceIndex < first)).length)
      ((m.files off sizes).drop (files.takeWhile fun f => decide (f.endPieceIndex < first)).length) st = .ok (.Success, r) ∧
      (m.files off sizes).take (files.takeWhile fun f => decide (f.endPieceIndex < first)).length ++ r
        = (blocks.foldl (memStore ps) m).files off sizes := by
  induction g with
  | nil off => simp at hne; omega
  | cons off f fs s ss gf gr ih =>
    simp only [List.sum_cons] at h64 hne
    by_cases hlt : f.endPieceIndex < first
    · have hle : off + s ≤ first * ps := by
        have := gf.fin
        have := gf.epos'
        have : (f.endPieceIndex + 1) * ps ≤ first * ps := Nat.mul_le_mul_right _ (by omega)
        rw [Nat.add_mul] at this
        omega
      obtain ⟨r, h1, h2⟩ := ih (by omega) hle (by omega)
      refine ⟨r, ?_, ?_⟩
      · simpa [List.takeWhile_cons, hlt, Mem.files] using h1
      · simp only [List.takeWhile_cons, hlt, decide_true, if_true, List.length_cons, Mem.files, List.take_succ_cons, List.cons_append]
        rw [h2]
        congr 2
        unfold Mem.read
        apply List.map_congr_left
        intro j hj
        simp only [List.mem_range] at hj
        symm
        apply foldl_put_outside ps blocks hb
        intro b hbm
        left
        have : first * ps ≤ b.info.index * ps := Nat.mul_le_mul_right _ (hfirst b hbm)
        omega
    · simp only [List.takeWhile_cons, hlt, decide_false, Bool.false_eq_true, if_false, List.length_nil, List.drop_zero, List.take_zero, List.nil_append]
      have := storeLoop_spec i ps hi hps blocks hb last hlast m off (f :: fs) (s :: ss) (.cons _ _ _ _ _ gf gr) (by simpa using h64) st
      refine ⟨_, ?_, rfl⟩
      rw [this]
      simp only
      rw [if_neg]
      have h1 := gf.start
      have : f.startPieceIndex * ps ≤ first * ps := by omega
      have hps0 : 0 < ps := by have := gf.spos; omega
      have := Nat.le_of_mul_le_mul_right this hps0
      omega

/-- Storing sorted legal blocks writes them, in this order, into the linear memory. -/
theorem storeSorted_spec (i : Info) (ps : Nat) (hi : i.pieceSize = ps) (hps : ps < 2147483648) (sizes : List Nat)
    (g : Geo ps 0 i.files sizes) (h64 : sizes.sum < 9223372036854775808) (blocks : List Block) (hne : blocks ≠ [])
    (hb : ∀ b ∈ blocks, Legal ps b) (hin : ∀ b ∈ blocks, b.info.index * ps < sizes.sum)
    (hsort : blocks.Pairwise fun a b => blockLt b a = false) (m : Mem) :
    storeSorted i (m.files 0 sizes) blocks = .ok (.Success, (blocks.foldl (memStore ps) m).files 0 sizes) := by
  have hlen : 0 < blocks.length := List.length_pos_iff.mpr hne
  obtain ⟨b0, rest, rfl⟩ : ∃ b0 rest, blocks = b0 :: rest := by
    cases blocks with
    | nil => exact absurd rfl hne
    | cons b r => exact ⟨b, r, rfl⟩
  have hle : ∀ {a b : Block}, blockLt b a = false → a.info.index ≤ b.info.index := by
    intro a b h
    unfold blockLt at h
    simp only [Bool.or_eq_false_iff, decide_eq_false_iff_not] at h
    omega
  have hfirst : ∀ b ∈ b0 :: rest, b0.info.index ≤ b.info.index := by
    intro b hb'
    rcases List.mem_cons.mp hb' with rfl | h
    · exact Nat.le_refl _
    · exact hle ((List.pairwise_cons.mp hsort).1 b h)
  obtain ⟨l, hl⟩ : ∃ l, (b0 :: rest).getLast? = some l := ⟨_, List.getLast?_eq_some_getLast (by simp)⟩
  have hlm : l ∈ b0 :: rest := List.mem_of_getLast? hl
  have hlast : ∀ b ∈ b0 :: rest, b.info.index ≤ l.info.index := by
    intro b hb'
    obtain ⟨ini, hini⟩ : ∃ ini, b0 :: rest = ini ++ [l] := by
      rcases List.eq_nil_or_concat (b0 :: rest) with h | ⟨ini, x, h⟩
      · cases h
      · rw [List.concat_eq_append] at h
        rw [h] at hl
        simp at hl
        subst hl
        exact ⟨ini, h⟩
    rw [hini] at hb' hsort
    rcases List.mem_append.mp hb' with h | h
    · exact hle ((List.pairwise_append.mp hsort).2.2 b h l (by simp))
    · simp at h; subst h; exact Nat.le_refl _
  obtain ⟨r, h1, h2⟩ := prefix_spec i ps hi hps (b0 :: rest) hb b0.info.index l.info.index hlast hfirst
    (hfirst l hlm) m 0 i.files sizes g (by omega) .E_InvalidInput (by omega)
    (by have := hin b0 (by simp); omega)
  unfold storeSorted
  rw [hl]
  simp only [List.head?_cons, lowerFile]
  rw [h1]
  simp only [Res.bind_ok, Res.pure_eq, Res.ok.injEq, Prod.mk.injEq, true_and]
  exact h2

/-! ### Loading -/

/-- The buffer (starting at piece position `base`) with the positions in `S` taken from the memory. -/
def fill (m : Mem) (P base : Nat) (S : Nat → Bool) (buf : List UInt8) : List UInt8 :=
  buf.mapIdx fun j x => if S (base + j) then m (P + (base + j)) else x

theorem fill_length (m : Mem) (P base : Nat) (S : Nat → Bool) (buf : List UInt8) :
    (fill m P base S buf).length = buf.length := by simp [fill]

theorem fill_fill (m : Mem) (P base : Nat) (S T : Nat → Bool) (buf : List UInt8) :
    fill m P base T (fill m P base S buf) = fill m P base (fun q => S q || T q) buf := by
  unfold fill
  apply List.ext_getElem?
  intro j
  simp only [List.getElem?_mapIdx]
  cases buf[j]? with
  | none => rfl
  | some x =>
    simp only [Option.map_some, Option.some.injEq]
    by_cases h1 : S (base + j) <;> by_cases h2 : T (base + j) <;> simp [h1, h2]

theorem fill_congr (m : Mem) (P base : Nat) (S T : Nat → Bool) (buf : List UInt8)
    (h : ∀ j, j < buf.length → S (base + j) = T (base + j)) : fill m P base S buf = fill m P base T buf := by
  unfold fill
  apply List.ext_getElem?
  intro j
  simp only [List.getElem?_mapIdx]
  by_cases hj : j < buf.length
  · rw [h j hj]
  · rw [List.getElem?_eq_none (by omega)]; rfl

theorem putBuf_read (m : Mem) (P base pos n : Nat) (buf : List UInt8) (h1 : base ≤ pos) (h2 : pos + n ≤ base + buf.length) :
    putBuf buf (pos - base) (m.read (P + pos) n)
      = .ok (fill m P base (fun q => decide (pos ≤ q ∧ q < pos + n)) buf) := by
  unfold putBuf
  rw [read_length, if_pos (by omega)]
  congr 1
  apply List.ext_getElem?
  intro j
  unfold fill
  rw [List.getElem?_mapIdx, List.append_assoc]
  by_cases h3 : j < pos - base
  · rw [List.getElem?_append_left (by simp; omega), List.getElem?_take, if_pos h3]
    rw [List.getElem?_eq_getElem (by omega)]
    simp only [Option.map_some, Option.some.injEq, decide_eq_true_eq]
    rw [if_neg (by omega)]
  · have ht : (buf.take (pos - base)).length = pos - base := by simp; omega
    rw [List.getElem?_append_right (by omega), ht]
    by_cases h4 : j < pos - base + n
    · rw [List.getElem?_append_left (by rw [read_length]; omega), read_get?, if_pos (by omega)]
      rw [List.getElem?_eq_getElem (by omega)]
      simp only [Option.map_some, Option.some.injEq, decide_eq_true_eq]
      rw [if_pos (by omega)]
      congr 1
      omega
    · rw [List.getElem?_append_right (by rw [read_length]; omega), read_length, List.getElem?_drop]
      rw [show pos - base + n + (j - (pos - base) - n) = j by omega]
      by_cases hj : j < buf.length
      · rw [List.getElem?_eq_getElem hj]
        simp only [Option.map_some, Option.some.injEq, decide_eq_true_eq]
        rw [if_neg (by omega)]
      · rw [List.getElem?_eq_none (by omega)]; rfl

/-- Some offset covers piece position `q`. -/
def covered (os : List BlockOffset) (q : Nat) : Bool := os.any fun o => decide (o.begin ≤ q ∧ q < o.begin + o.size)

theorem loadOffsets_spec (i : Info) (f : File) (ps off size : Nat) (g : FileGeom ps f off size) (hi : i.pieceSize = ps)
    (hps : ps < 2147483648) (h64 : off + size < 9223372036854775808) (idx base : Nat) (hc : fileContainsPiece f idx = true)
    (m : Mem) (os : List BlockOffset) (buf : List UInt8)
    (ho : ∀ o ∈ os, o.begin + o.size ≤ ps ∧ base ≤ o.begin ∧ o.begin + o.size ≤ base + buf.length) :
    loadOffsets i f (m.read off size) idx base false os buf =
      .ok (fill m (idx * ps) base (fun q => covered os q && decide (off ≤ idx * ps + q ∧ idx * ps + q < off + size)) buf) := by
  induction os generalizing buf with
  | nil =>
    unfold loadOffsets
    congr 1
    symm
    unfold fill covered
    apply List.ext_getElem?
    intro j
    simp
  | cons o os ih =>
    obtain ⟨o1, o2, o3⟩ := ho o (by simp)
    have hr := getFileBlockPosition_spec i f ps off size g hi hps h64 idx o.begin o.size o1 hc
    unfold loadOffsets
    generalize getFileBlockPosition i f idx o.begin o.size = p at hr
    simp only [read_length, g.fsize, Nat.lt_irrefl, and_false, if_false, Bool.false_eq_true]
    have hint := hr.inter
    split
    · rename_i hpos
      obtain ⟨p1, p2, p3⟩ := hr.pos hpos
      rw [if_neg (by omega), read_slice _ _ _ _ _ p3, read_length]
      rw [show off + p.fileDataPos = idx * ps + (o.begin + p.dataPos) by omega]
      rw [putBuf_read m (idx * ps) base (o.begin + p.dataPos) p.dataSize buf (by omega) (by omega)]
      simp only [Res.bind_ok, Nat.lt_irrefl, decide_false]
      rw [ih _ (by intro x hx; rw [fill_length]; exact ho x (by simp [hx])), fill_fill]
      congr 1
      apply fill_congr
      intro j hj
      have := hint (idx * ps + (base + j))
      unfold covered
      simp only [List.any_cons]
      rw [Bool.eq_iff_iff]
      simp only [Bool.or_eq_true, Bool.and_eq_true, decide_eq_true_eq]
      constructor
      · rintro (h | h)
        · have := this.mpr (by omega)
          exact ⟨.inl (by omega), by omega⟩
        · exact ⟨.inr h.1, h.2⟩
      · rintro ⟨h | h, h'⟩
        · left; have := this.mp (by omega); omega
        · exact .inr ⟨h, h'⟩
    · rename_i hpos
      rw [ih _ (by intro x hx; exact ho x (by simp [hx]))]
      congr 1
      apply fill_congr
      intro j hj
      have := hint (idx * ps + (base + j))
      unfold covered
      simp only [List.any_cons]
      rw [Bool.eq_iff_iff]
      simp only [Bool.or_eq_true, Bool.and_eq_true, decide_eq_true_eq]
      constructor
      · rintro h
        exact ⟨.inr h.1, h.2⟩
      · rintro ⟨h | h, h'⟩
        · have := this.mp (by omega); omega
        · exact ⟨h, h'⟩

theorem loadLoop_spec (i : Info) (ps : Nat) (hi : i.pieceSize = ps) (hps : ps < 2147483648) (idx base : Nat)
    (m : Mem) (os : List BlockOffset) (buf : List UInt8)
    (ho : ∀ o ∈ os, o.begin + o.size ≤ ps ∧ base ≤ o.begin ∧ o.begin + o.size ≤ base + buf.length)
    (off : Nat) (files : List File) (sizes : List Nat) (g : Geo ps off files sizes)
    (h64 : off + sizes.sum < 9223372036854775808)
    (hhead : idx * ps < off ∨ ∀ f ∈ files.head?, idx ≤ f.endPieceIndex) :
    loadLoop i idx base os files (m.files off sizes) .Success buf =
      .ok (.Success, fill m (idx * ps) base (fun q => covered os q &&
        decide (off ≤ idx * ps + q ∧ idx * ps + q < off + sizes.sum)) buf) := by
  induction g generalizing buf with
  | nil off =>
    unfold loadLoop
    congr 2
    symm
    have : fill m (idx * ps) base (fun q => covered os q && decide (off ≤ idx * ps + q ∧ idx * ps + q < off + [].sum)) buf
        = fill m (idx * ps) base (fun _ => false) buf := by
      apply fill_congr
      intro j hj
      have : ¬ (off ≤ idx * ps + (base + j) ∧ idx * ps + (base + j) < off + [].sum) := by simp
      simp only [this, decide_false, Bool.and_false]
    rw [this]
    unfold fill
    apply List.ext_getElem?
    intro j
    simp
  | cons off f fs s ss gf gr ih =>
    simp only [List.sum_cons] at h64
    simp only [Mem.files, loadLoop]
    by_cases hc : fileContainsPiece f idx = true
    · have hnc : ¬ ((Status.Success ≠ .Success) ∨ fileContainsPiece f idx = false) := by simp [hc]
      rw [if_neg hnc]
      simp only [loadFile]
      rw [loadOffsets_spec i f ps off s gf hi hps (by omega) idx base hc m os buf ho]
      simp only [Res.bind_ok, Res.pure_eq]
      have hlt : idx * ps < off + s := by
        have h1 := gf.fin
        have h2 := gf.epos
        unfold fileContainsPiece at hc
        simp only [Bool.and_eq_true, decide_eq_true_eq] at hc
        have : idx * ps ≤ f.endPieceIndex * ps := Nat.mul_le_mul_right _ hc.2
        omega
      rw [ih _ (by intro x hx; rw [fill_length]; exact ho x hx) (by omega) (.inl hlt), fill_fill]
      congr 2
      apply fill_congr
      intro j hj
      rw [Bool.eq_iff_iff]
      simp only [Bool.or_eq_true, Bool.and_eq_true, decide_eq_true_eq]
      constructor
      · rintro (⟨h, h'⟩ | ⟨h, h'⟩) <;> exact ⟨h, by rw [List.sum_cons]; omega⟩
      · rintro ⟨h, h'⟩
        rw [List.sum_cons] at h'
        by_cases hh : idx * ps + (base + j) < off + s
        · exact .inl ⟨h, by omega⟩
        · exact .inr ⟨h, by omega⟩
    · have hc' : fileContainsPiece f idx = false := by simpa using hc
      rw [if_pos (.inr hc')]
      congr 2
      symm
      have : fill m (idx * ps) base (fun q => covered os q && decide (off ≤ idx * ps + q ∧ idx * ps + q < off + (s :: ss).sum)) buf
          = fill m (idx * ps) base (fun _ => false) buf := by
        apply fill_congr
        intro j hj
        rw [Bool.eq_iff_iff]
        simp only [Bool.and_eq_true, decide_eq_true_eq, Bool.false_eq_true, iff_false, not_and]
        intro hcov h1
        exfalso
        unfold covered at hcov
        simp only [List.any_eq_true, decide_eq_true_eq] at hcov
        obtain ⟨o, hom, ho1⟩ := hcov
        obtain ⟨q1, q2, q3⟩ := ho o hom
        unfold fileContainsPiece at hc'
        simp only [Bool.and_eq_false_iff, decide_eq_false_iff_not] at hc'
        have hst : f.startPieceIndex ≤ idx := by
          have a1 := gf.start
          have hps0 : 0 < ps := by have := gf.spos; omega
          have : f.startPieceIndex * ps < (idx + 1) * ps := by rw [Nat.add_mul]; omega
          have := Nat.lt_of_mul_lt_mul_right this
          omega
        have hend : ¬ idx ≤ f.endPieceIndex := by omega
        rcases hhead with hh | hh
        · have a1 := gf.fin
          have a2 := gf.epos'
          have : (f.endPieceIndex + 1) * ps ≤ idx * ps := Nat.mul_le_mul_right _ (by omega)
          rw [Nat.add_mul] at this
          omega
        · exact hend (hh f (by simp))
      rw [this]
      unfold fill
      apply List.ext_getElem?
      intro j
      simp

/-- Loading ranges of a piece copies exactly these positions from the linear memory. -/
theorem loadPieceBlocks_spec (i : Info) (ps : Nat) (hi : i.pieceSize = ps) (hps : ps < 2147483648) (idx base : Nat)
    (m : Mem) (os : List BlockOffset) (buf : List UInt8)
    (ho : ∀ o ∈ os, o.begin + o.size ≤ ps ∧ base ≤ o.begin ∧ o.begin + o.size ≤ base + buf.length)
    (off : Nat) (files : List File) (sizes : List Nat) (g : Geo ps off files sizes)
    (h64 : off + sizes.sum < 9223372036854775808) (hin : ∀ o ∈ os, idx * ps + o.begin + o.size ≤ off + sizes.sum)
    (hoff : off ≤ idx * ps) :
    loadLoop i idx base os (files.drop (files.takeWhile fun f => decide (f.endPieceIndex < idx)).length)
      ((m.files off sizes).drop (files.takeWhile fun f => decide (f.endPieceIndex < idx)).length) .Success buf =
      .ok (.Success, fill m (idx * ps) base (covered os) buf) := by
  induction g with
  | nil off =>
    have := loadLoop_spec i ps hi hps idx base m os buf ho off [] [] (.nil _) h64 (.inr (by simp))
    simp only [List.takeWhile_nil, List.length_nil, List.drop_zero]
    rw [this]
    congr 2
    apply fill_congr
    intro j hj
    rw [Bool.eq_iff_iff]
    simp only [Bool.and_eq_true, decide_eq_true_eq, and_iff_left_iff_imp]
    intro hcov
    unfold covered at hcov
    simp only [List.any_eq_true, decide_eq_true_eq] at hcov
    obtain ⟨o, hom, ho1⟩ := hcov
    have := hin o hom
    simp at this ⊢
    omega
  | cons off f fs s ss gf gr ih =>
    simp only [List.sum_cons] at h64 hin
    by_cases hlt : f.endPieceIndex < idx
    · have hle : off + s ≤ idx * ps := by
        have := gf.fin
        have := gf.epos'
        have : (f.endPieceIndex + 1) * ps ≤ idx * ps := Nat.mul_le_mul_right _ (by omega)
        rw [Nat.add_mul] at this
        omega
      have := ih (by omega) (by intro o ho; have := hin o ho; omega) hle
      simpa [List.takeWhile_cons, hlt, Mem.files] using this
    · simp only [List.takeWhile_cons, hlt, decide_false, Bool.false_eq_true, if_false, List.length_nil, List.drop_zero]
      rw [loadLoop_spec i ps hi hps idx base m os buf ho off (f :: fs) (s :: ss) (.cons _ _ _ _ _ gf gr)
        (by simpa using h64) (.inr (by intro x hx; simp at hx; subst hx; omega))]
      congr 2
      apply fill_congr
      intro j hj
      rw [Bool.eq_iff_iff]
      simp only [Bool.and_eq_true, decide_eq_true_eq, and_iff_left_iff_imp]
      intro hcov
      unfold covered at hcov
      simp only [List.any_eq_true, decide_eq_true_eq] at hcov
      obtain ⟨o, hom, ho1⟩ := hcov
      have := hin o hom
      simp only [List.sum_cons]
      omega

end Verif.Storage
