import Verif.Model.PieceState
import Verif.Spec.PieceState
import Mathlib.Data.List.Basic

namespace Verif.PieceState
open Verif Layout Spec

theorem blockNo_aligned {b : BlockInfo} (h : Aligned b) : blockNo b.begin = b.begin / 16384 := by
  obtain ⟨h1, h2⟩ := h
  unfold blockNo u32 BlockMaxSize
  omega

/-- The state reached after the blocks `seen`. -/
def Rep (n idx : Nat) (seen : List BlockInfo) (dl : Nat) (p : PState) : Prop :=
  p.blocksState = (List.range n).map (fun k => if Arrived seen k then (1 : UInt8) else 0) ∧
  p.remainingBlocks = ((List.range n).filter (fun k => ¬ Arrived seen k)).length ∧
  p.downloadedSize = u32 dl ∧ p.index = idx

theorem arrived_append (seen : List BlockInfo) (b : BlockInfo) (k : Nat) :
    Arrived (b :: seen) k ↔ Arrived seen k ∨ b.begin = k * 16384 := by
  simp [Arrived, or_comm]

theorem rep_init (n idx : Nat) (p : PState) :
    Rep n idx [] p.downloadedSize { init p idx n with downloadedSize := u32 p.downloadedSize } := by
  refine ⟨?_, ?_, rfl, rfl⟩
  · simp [init, Arrived, List.map_const']
  · simp [init, Arrived]

theorem filter_drop_one (n j : Nat) (hj : j < n) (P : Nat → Prop) [DecidablePred P] (hP : ¬ P j) :
    ((List.range n).filter (fun k => ¬ P k)).length =
      ((List.range n).filter (fun k => ¬ (P k ∨ k = j))).length + 1 := by
  induction n with
  | zero => omega
  | succ n ih =>
    rw [List.range_succ, List.filter_append, List.filter_append, List.length_append, List.length_append]
    by_cases h : j < n
    · rw [ih h]
      have hnj : n ≠ j := by omega
      have : [n].filter (fun k => decide ¬ (P k ∨ k = j)) = [n].filter (fun k => decide ¬ P k) := by
        apply List.filter_congr
        intro k hk
        simp [List.mem_singleton.mp hk, hnj]
      rw [this]; omega
    · have hjn : j = n := by omega
      subst hjn
      have : (List.range j).filter (fun k => ¬ (P k ∨ k = j)) = (List.range j).filter (fun k => ¬ P k) := by
        apply List.filter_congr
        intro k hk
        have := List.mem_range.mp hk
        have : k ≠ j := by omega
        simp [this]
      rw [this]; simp [hP]

theorem addBlock_step (n idx : Nat) (hn : n < 4294967296) (seen : List BlockInfo) (dl : Nat) (p : PState)
    (hr : Rep n idx seen dl p) (b : BlockInfo) (hb : Aligned b) :
    (addBlock p b).1 = decide (b.begin < n * 16384 ∧ b.begin ∉ seen.map (·.begin)) ∧
    Rep n idx (b :: seen)
      (if b.begin < n * 16384 ∧ b.begin ∉ seen.map (·.begin) then dl + b.length else dl) (addBlock p b).2 := by
  obtain ⟨h1, h2, h3, h4⟩ := hr
  have hbn := blockNo_aligned hb
  have hm := hb.1
  have hmul : b.begin = b.begin / 16384 * 16384 := by omega
  have harr : Arrived seen (b.begin / 16384) ↔ b.begin ∈ seen.map (·.begin) := by
    unfold Arrived
    rw [← hmul]; simp
  unfold addBlock
  rw [hbn, h1]
  have hget : ((List.range n).map (fun k => if Arrived seen k then (1 : UInt8) else 0))[b.begin / 16384]? = some 0 ↔
      (b.begin < n * 16384 ∧ b.begin ∉ seen.map (·.begin)) := by
    rw [List.getElem?_map]
    by_cases hlt : b.begin / 16384 < n
    · rw [List.getElem?_range hlt]
      simp only [Option.map_some, Option.some.injEq, ← harr]
      constructor
      · intro h
        refine ⟨by omega, ?_⟩
        intro ha; rw [if_pos ha] at h; exact absurd h (by decide)
      · rintro ⟨_, h⟩; rw [if_neg h]
    · rw [List.getElem?_eq_none (by simpa using hlt)]
      simp; omega
  by_cases hc : b.begin < n * 16384 ∧ b.begin ∉ seen.map (·.begin)
  · rw [if_pos (hget.mpr hc), if_pos hc]
    have hlt : b.begin / 16384 < n := by omega
    have hna : ¬ Arrived seen (b.begin / 16384) := by rw [harr]; exact hc.2
    refine ⟨by simp [hc], ?_, ?_, ?_, h4⟩
    · apply List.ext_getElem?
      intro k
      rw [List.getElem?_set, List.getElem?_map, List.getElem?_map, List.length_map, List.length_range]
      by_cases hk : k < n
      · rw [List.getElem?_range hk]
        by_cases hkj : b.begin / 16384 = k
        · subst hkj
          simp [hk, arrived_append, ← hmul]
        · have : b.begin ≠ k * 16384 := by omega
          simp [hkj, arrived_append, this]
      · rw [List.getElem?_eq_none (by simpa using hk)]
        have : b.begin / 16384 ≠ k := by omega
        simp [this]
    · simp only
      rw [h2, filter_drop_one n (b.begin / 16384) hlt (fun k => Arrived seen k) hna]
      have : (List.filter (fun k => decide ¬(Arrived seen k ∨ k = b.begin / 16384)) (List.range n)) =
          (List.filter (fun k => decide ¬Arrived (b :: seen) k) (List.range n)) := by
        apply List.filter_congr
        intro k _
        have : (k = b.begin / 16384) ↔ (b.begin = k * 16384) := by omega
        simp only [arrived_append, this]
      rw [this]
      have hle := List.length_filter_le (fun k => decide ¬Arrived (b :: seen) k) (List.range n)
      rw [List.length_range] at hle
      unfold sub32 u32
      have hle2 := filter_drop_one n (b.begin / 16384) hlt (fun k => Arrived seen k) hna
      have hle3 := List.length_filter_le (fun k => decide ¬Arrived seen k) (List.range n)
      rw [List.length_range] at hle3
      rw [this] at hle2
      omega
    · simp only; rw [h3]; unfold u32; omega
  · rw [if_neg (by rw [hget]; exact hc), if_neg hc]
    have hsame : ∀ k, k < n → (Arrived (b :: seen) k ↔ Arrived seen k) := by
      intro k hk
      rw [arrived_append]
      constructor
      · rintro (h | h)
        · exact h
        · have : b.begin < n * 16384 := by omega
          have hin : b.begin ∈ seen.map (·.begin) := by
            by_contra hh; exact hc ⟨this, hh⟩
          have hk' : k = b.begin / 16384 := by omega
          rw [hk', harr]; exact hin
      · exact Or.inl
    refine ⟨by simp only [decide_eq_false hc], ?_, ?_, h3, h4⟩
    · rw [h1]
      apply List.map_congr_left
      intro k hk
      simp only [hsame k (List.mem_range.mp hk)]
    · rw [h2]
      congr 1
      apply List.filter_congr
      intro k hk
      simp only [hsame k (List.mem_range.mp hk)]

/-- The calls answered with `true`. -/
def accepted : List Bool → List BlockInfo → List BlockInfo
  | a :: as, b :: bs => if a then b :: accepted as bs else accepted as bs
  | _, _ => []

theorem addBlocks_rep (n idx : Nat) (hn : n < 4294967296) :
    ∀ (bs : List BlockInfo), (∀ b ∈ bs, Aligned b) → ∀ (seen : List BlockInfo) (dl : Nat) (p : PState),
      Rep n idx seen dl p →
      (addBlocks p bs).1.length = bs.length ∧
      accepted (addBlocks p bs).1 bs = firstArrivals n seen bs ∧
      ∃ seen', (∀ k, Arrived seen' k ↔ Arrived seen k ∨ Arrived bs k) ∧
        Rep n idx seen' (dl + ((firstArrivals n seen bs).map (·.length)).sum) (addBlocks p bs).2
  | [], _, seen, dl, p, hr => ⟨rfl, rfl, seen, by intro k; simp [Arrived], by simpa [firstArrivals, addBlocks] using hr⟩
  | b :: bs, hb, seen, dl, p, hr => by
    obtain ⟨s1, s2⟩ := addBlock_step n idx hn seen dl p hr b (hb b (by simp))
    obtain ⟨i1, i2, seen', i3, i4⟩ := addBlocks_rep n idx hn bs (fun x hx => hb x (by simp [hx])) _ _ _ s2
    refine ⟨by simp [addBlocks, i1], ?_, seen', ?_, ?_⟩
    · simp only [addBlocks, accepted, firstArrivals, s1]
      by_cases hc : b.begin < n * 16384 ∧ b.begin ∉ seen.map (·.begin)
      · simp only [decide_eq_true hc, if_pos hc, if_true, i2]
      · simp only [decide_eq_false hc, if_neg hc, i2]; simp
    · intro k
      rw [i3, arrived_append]
      have : Arrived (b :: bs) k ↔ b.begin = k * 16384 ∨ Arrived bs k := by simp [Arrived]
      rw [this]; tauto
    · simp only [addBlocks, firstArrivals]
      by_cases hc : b.begin < n * 16384 ∧ b.begin ∉ seen.map (·.begin)
      · rw [if_pos hc] at i4 ⊢
        simpa [Nat.add_assoc] using i4
      · rw [if_neg hc] at i4 ⊢
        exact i4

/-! ### Unfinished pieces -/

theorem load_find (idx : Nat) (ps : List PState) :
    (unfinishedLoad idx ps).1 =
      ((ps.find? (fun u => decide (u.index = idx ∧ u.downloadedSize ≠ 0))).getD {}) := by
  induction ps with
  | nil => rfl
  | cons u us ih =>
    unfold unfinishedLoad
    by_cases h : u.index = idx ∧ u.downloadedSize ≠ 0
    · rw [if_pos h, List.find?_cons_of_pos (by simpa using h)]; rfl
    · rw [if_neg h, List.find?_cons_of_neg (by simpa using h)]; exact ih

end Verif.PieceState
