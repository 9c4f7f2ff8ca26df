import Verif.Model.Layout
import Verif.Spec.Layout

namespace Verif.Layout
open Verif Verif.Spec

theorem u32_id {n : Nat} (h : n < 4294967296) : u32 n = n := Nat.mod_eq_of_lt h
theorem u64_id {n : Nat} (h : n < 18446744073709551616) : u64 n = n := Nat.mod_eq_of_lt h

theorem sub32_eq {a b : Nat} (ha : a < 4294967296) (hb : b ≤ a) : sub32 a b = a - b := by
  unfold sub32 u32
  rw [Nat.mod_eq_of_lt (show b < 4294967296 by omega)]
  omega

/-- The layout of the file loop started at position `base`. -/
theorem fileLoop_spec (ps : Nat) (sizes : List Nat) (base : Nat)
    (h64 : base + sizes.sum < 18446744073709551616) :
    (fileLoop ps base sizes).2 = base + sizes.sum ∧
    (fileLoop ps base sizes).1.length = sizes.length ∧
    ∀ k (hk : k < sizes.length),
      (fileLoop ps base sizes).1[k]? = some (makeFile ps (base + fileStart sizes k) sizes[k]) := by
  induction sizes generalizing base with
  | nil => simp [fileLoop]
  | cons s rest ih =>
    simp only [List.sum_cons] at h64
    have e : u64 (base + s) = base + s := u64_id (by omega)
    obtain ⟨h1, h2, h3⟩ := ih (base + s) (by omega)
    simp only [fileLoop, e, List.sum_cons]
    refine ⟨by rw [h1]; omega, by simp [h2], ?_⟩
    intro k hk
    cases k with
    | zero => simp [fileStart]
    | succ k =>
      simp only [List.length_cons, Nat.add_lt_add_iff_right] at hk
      simp only [List.getElem?_cons_succ, List.getElem_cons_succ]
      rw [h3 k hk]
      simp [fileStart, Nat.add_assoc]

theorem fileEnd_eq (sizes : List Nat) (k : Nat) (hk : k < sizes.length) :
    fileEnd sizes k = fileStart sizes k + sizes[k] := by
  unfold fileEnd fileStart
  rw [List.take_add_one, List.getElem?_eq_getElem hk, List.sum_append]
  simp only [Option.toList_some, List.sum_cons, List.sum_nil, Nat.add_zero]

theorem take_sum_le (sizes : List Nat) (k : Nat) : (sizes.take k).sum ≤ sizes.sum := by
  conv => rhs; rw [← List.take_append_drop k sizes]
  rw [List.sum_append]
  omega

theorem fileEnd_le (sizes : List Nat) (k : Nat) : fileEnd sizes k ≤ sizes.sum := take_sum_le _ _

theorem div_lt_of_lt {a b ps N : Nat} (hps : 0 < ps) (h : b / ps < N) (hab : a ≤ b) : a / ps < N :=
  Nat.lt_of_le_of_lt (Nat.div_le_div_right hab) h

/-- `makeFile` without truncations. -/
theorem makeFile_eq (ps off size : Nat) (hps : 0 < ps) (hps32 : ps < 4294967296)
    (h64 : off + size < 18446744073709551616) (h32 : (off + size) / ps < 4294967296) :
    makeFile ps off size =
      { size := size, startPieceIndex := off / ps, startPiecePos := off % ps
        endPieceIndex := if size = 0 then off / ps else (off + size - 1) / ps
        endPiecePos := (off + size) % ps } := by
  have hoff : off / ps < 4294967296 := div_lt_of_lt hps h32 (by omega)
  have hm1 := Nat.mod_lt off hps
  have hm2 := Nat.mod_lt (off + size) hps
  unfold makeFile getPieceIndex
  simp only [u64_id h64, u32_id hoff, u32_id h32, Bool.false_and, Bool.false_eq_true, if_false,
    u32_id (show off % ps < 4294967296 by omega), u32_id (show (off + size) % ps < 4294967296 by omega),
    Bool.true_and, beq_iff_eq]
  congr 1
  by_cases hs : size = 0
  · simp [hs]
  · simp only [hs, ne_eq, not_false_eq_true, if_true, if_false]
    have hdm := Nat.div_add_mod (off + size) ps
    split
    · rename_i h0
      rw [h0, Nat.add_zero] at hdm
      generalize (off + size) / ps = q at *
      cases q with
      | zero => simp at hdm; omega
      | succ q =>
        rw [sub32_eq h32 (by omega)]
        have : off + size - 1 = ps * q + (ps - 1) := by
          rw [Nat.mul_add] at hdm; omega
        rw [this, Nat.mul_add_div hps, Nat.div_eq_of_lt (by omega)]
        omega
    · rename_i h0
      symm
      rw [Nat.div_eq_iff hps, Nat.mul_comm]
      omega

/-! Blocks -/

theorem tiles_range (m B : Nat) (count : Nat) (size : Nat) (len : Nat → Nat) (hB : 0 < B) (hBm : B ≤ m)
    (hc : count = (size + B - 1) / B)
    (hlen : ∀ i, i < count → len i = min B (size - i * B)) (k : Nat) (hk : k ≤ count) :
    Tiles m (min size (k * B)) size (((List.range count).drop k).map fun i => (i * B, len i)) := by
  have hcB : size ≤ count * B ∧ count * B < size + B := by
    have h1 := Nat.div_add_mod (size + B - 1) B
    have h2 := Nat.mod_lt (size + B - 1) hB
    rw [← hc, Nat.mul_comm] at h1
    omega
  induction hn : count - k generalizing k with
  | zero =>
    have : k = count := by omega
    subst this
    rw [List.drop_of_length_le (by simp), Nat.min_eq_left hcB.1]
    exact .nil _
  | succ n ih =>
    have hkc : k < count := by omega
    have hkB : k * B < size := by
      have : (k + 1) * B ≤ count * B := Nat.mul_le_mul_right _ hkc
      rw [Nat.add_mul] at this
      omega
    rw [List.drop_eq_getElem_cons (by simpa using hkc)]
    simp only [List.map_cons, List.getElem_range]
    rw [Nat.min_eq_right (Nat.le_of_lt hkB), hlen k hkc]
    have hnext := ih (k + 1) (by omega) (by omega)
    have : min size ((k + 1) * B) = k * B + min B (size - k * B) := by
      rw [Nat.add_mul, Nat.one_mul]; omega
    rw [this] at hnext
    exact .cons _ _ _ _ (by omega) (by omega) hnext

/-- What the geometry must satisfy for blocks to be right. -/
structure GoodGeom (i : Info) (n : Nat) : Prop where
  ps_pos : 0 < i.pieceSize
  ps_lt : i.pieceSize + 16384 ≤ 4294967296
  last : i.lastPieceIndex + 1 = n
  lps_pos : 0 < i.lastPieceSize
  lps_le : i.lastPieceSize ≤ i.pieceSize
  lbi : i.lastPieceLastBlockIndex = (i.lastPieceSize - 1) / BlockMaxSize
  lbs : i.lastPieceLastBlockSize = i.lastPieceSize - (i.lastPieceSize - 1) / BlockMaxSize * BlockMaxSize

theorem blocks_tile (i : Info) (n : Nat) (g : GoodGeom i n) (idx : Nat) :
    Tiles BlockMaxSize 0 (getPieceSize i idx)
      ((makePieceBlocksInfo i idx).map fun b => (b.begin, b.length)) ∧
    ∀ b ∈ makePieceBlocksInfo i idx, b.index = idx := by
  obtain ⟨ps_pos, ps_lt, last, lps_pos, lps_le, lbi, lbs⟩ := g
  refine ⟨?_, ?_⟩
  · unfold makePieceBlocksInfo
    rw [List.map_map]
    have hcount : getPieceBlocksCount i idx = (getPieceSize i idx + 16384 - 1) / 16384 := by
      unfold getPieceBlocksCount getPieceSize BlockMaxSize at *
      split
      · rw [lbi, u32_id (by omega)]; omega
      · rw [u32_id (by omega)]
    have hsz : getPieceSize i idx ≤ i.pieceSize := by unfold getPieceSize; split <;> omega
    have hlen : ∀ k, k < getPieceBlocksCount i idx →
        (getPieceBlockInfo i idx k).length = min 16384 (getPieceSize i idx - k * 16384) := by
      intro k hk
      have hk2 : k * 16384 < getPieceSize i idx := by omega
      clear hcount hk
      unfold getPieceBlockInfo getPieceSize BlockMaxSize at *
      simp only
      rw [u32_id (by omega)]
      by_cases hidx : idx = i.lastPieceIndex
      · simp only [hidx, true_and, if_true] at *
        split
        · rename_i h
          rw [lbs, h, lbi]; omega
        · rw [sub32_eq (by omega) (by omega)]
          omega
      · simp only [hidx, false_and, if_false] at *
        rw [sub32_eq (by omega) (by omega)]
    have := tiles_range 16384 16384 (getPieceBlocksCount i idx) (getPieceSize i idx)
      (fun k => (getPieceBlockInfo i idx k).length) (by omega) (by omega) hcount hlen 0 (by omega)
    simp only [Nat.zero_mul, Nat.min_zero, List.drop_zero] at this
    have e : (List.range (getPieceBlocksCount i idx)).map ((fun b : BlockInfo => (b.begin, b.length)) ∘ getPieceBlockInfo i idx)
        = (List.range (getPieceBlocksCount i idx)).map (fun k => (k * 16384, (getPieceBlockInfo i idx k).length)) := by
      apply List.map_congr_left
      intro k hk
      simp only [List.mem_range] at hk
      simp only [Function.comp, getPieceBlockInfo, BlockMaxSize]
      rw [u32_id (by omega)]
    rw [e]
    exact this
  · intro b hb
    unfold makePieceBlocksInfo at hb
    simp only [List.mem_map] at hb
    obtain ⟨k, _, rfl⟩ := hb
    rfl

/-- In a tiling every position lies in exactly one tile. -/
theorem tiles_count {m a b : Nat} {l : List (Nat × Nat)} (h : Tiles m a b l) :
    a ≤ b ∧ ∀ x, l.countP (fun t => decide (t.1 ≤ x ∧ x < t.1 + t.2)) = if a ≤ x ∧ x < b then 1 else 0 := by
  induction h with
  | nil a => refine ⟨Nat.le_refl _, fun x => ?_⟩; rw [if_neg (by omega)]; rfl
  | cons a b n l hn hm ht ih =>
    refine ⟨by omega, fun x => ?_⟩
    rw [List.countP_cons, ih.2 x]
    have := ih.1
    simp only [decide_eq_true_eq]
    repeat' split
    all_goals omega

theorem tiles_append {m a b c : Nat} {l l' : List (Nat × Nat)} (h : Tiles m a b l) (h' : Tiles m b c l') :
    Tiles m a c (l ++ l') := by
  induction h with
  | nil a => exact h'
  | cons a b n l hn hm ht ih => exact .cons _ _ _ _ hn hm (ih h')

theorem tiles_shift {m a b : Nat} {l : List (Nat × Nat)} (h : Tiles m a b l) (d : Nat) :
    Tiles m (d + a) (d + b) (l.map fun t => (d + t.1, t.2)) := by
  induction h with
  | nil a => exact .nil _
  | cons a b n l hn hm ht ih => exact .cons _ _ _ _ hn hm (by rw [Nat.add_assoc]; exact ih)

theorem pieces_tile (i : Info) (ps total n : Nat) (g : GoodGeom i n) (hps : i.pieceSize = ps)
    (htot : total = (n - 1) * ps + i.lastPieceSize) (k : Nat) (hk : k ≤ n) :
    Tiles BlockMaxSize 0 (min total (k * ps))
      (((List.range k).flatMap (makePieceBlocksInfo i)).map fun b => (b.index * ps + b.begin, b.length)) := by
  induction k with
  | zero => simp; exact .nil _
  | succ k ih =>
    have ht := blocks_tile i n g k
    rw [List.range_succ, List.flatMap_append, List.map_append, List.flatMap_singleton]
    refine tiles_append (ih (by omega)) ?_
    have e : (makePieceBlocksInfo i k).map (fun b => (b.index * ps + b.begin, b.length))
        = ((makePieceBlocksInfo i k).map fun b => (b.begin, b.length)).map fun t => (k * ps + t.1, t.2) := by
      rw [List.map_map]
      apply List.map_congr_left
      intro b hb
      simp [ht.2 b hb]
    rw [e]
    have := tiles_shift ht.1 (k * ps)
    have hl := g.last
    have h1 := g.lps_le
    have h2 := g.lps_pos
    rw [hps] at h1
    have hkn : k * ps ≤ (n - 1) * ps := Nat.mul_le_mul_right _ (by omega)
    rw [Nat.add_zero] at this
    rw [show min total (k * ps) = k * ps by omega]
    rw [show min total ((k + 1) * ps) = k * ps + getPieceSize i k by
      unfold getPieceSize
      rw [Nat.add_mul, Nat.one_mul]
      split
      · rename_i h
        rw [show n - 1 = k by omega] at htot
        omega
      · rename_i h
        have : (k + 1) * ps ≤ (n - 1) * ps := Nat.mul_le_mul_right _ (by omega)
        rw [Nat.add_mul] at this
        omega]
    exact this

/-! Geometry of the last piece. -/

theorem pieceCount_short (ps total : Nat) (hps : 0 < ps) (h : total % ps ≠ 0) :
    pieceCount ps total = total / ps + 1 := by
  unfold pieceCount
  have := Nat.div_add_mod total ps
  have := Nat.mod_lt total hps
  rw [Nat.div_eq_iff hps, Nat.add_mul, Nat.mul_comm (total / ps)]
  omega

theorem pieceCount_exact (ps q : Nat) (hps : 0 < ps) : pieceCount ps (q * ps) = q := by
  unfold pieceCount
  rw [Nat.div_eq_iff hps]
  omega

theorem finish_geom (i : Info) (f : File) (hf : i.files.getLast? = some f) (hpos : 0 < f.endPiecePos)
    (hle : f.endPiecePos ≤ i.pieceSize) (hps : i.pieceSize + 16384 ≤ 4294967296) :
    GoodGeom (finishInfo i) (f.endPieceIndex + 1) := by
  unfold finishInfo
  rw [hf]
  constructor
  · simp; omega
  · simpa using hps
  · rfl
  · simpa using hpos
  · simpa using hle
  · simp only
    rw [sub32_eq (by omega) (by omega)]
  · simp only
    unfold BlockMaxSize
    rw [sub32_eq (a := f.endPiecePos) (b := 1) (by omega) (by omega), u32_id (by omega), sub32_eq (by omega) (by omega)]

end Verif.Layout
