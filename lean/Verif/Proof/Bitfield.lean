import Verif.Proof.Progress

namespace Verif.Progress
open Verif Verif.Spec

theorem toFloat_small (n : Nat) (h : n ≤ 16777216) : toFloat n = n := by
  unfold toFloat
  split
  · rfl
  · have : n = 16777216 := by omega
    subst this
    decide

theorem byteIdx_small (n : Nat) (h : n ≤ 16777216) : byteIdx n = n / 8 := by
  rw [byteIdx, toFloat_small n h]

theorem mask_test : ∀ b : UInt8, ∀ i : Fin 8,
    (b &&& (128 >>> UInt8.ofNat i.val) != 0) = b.toNat.testBit (7 - i.val) :=
  forall_u8 (by decide +kernel)

theorem mask_set : ∀ b : UInt8, ∀ i j : Fin 8,
    (b ||| (128 >>> UInt8.ofNat i.val)).toNat.testBit (7 - j.val)
      = (b.toNat.testBit (7 - j.val) || decide (i = j)) :=
  forall_u8 (by decide +kernel)

theorem bit_mask (b : UInt8) (i : Nat) : (b &&& bitMask i != 0) = b.toNat.testBit (7 - i % 8) :=
  mask_test b ⟨i % 8, by omega⟩

theorem bfPut_spec (d : List UInt8) (i : Nat) (hi : i ≤ 16777216) (hd : i / 8 < d.length) :
    ∃ d', bfPut d i = .ok d' ∧ d'.length = d.length ∧
      ∀ k, bit d' k = (bit d k || decide (k = i)) := by
  unfold bfPut
  rw [byteIdx_small i hi, rd_eq_ok hd]
  refine ⟨_, rfl, by simp, ?_⟩
  intro k
  unfold bit
  rw [List.getElem?_set]
  by_cases hk : i / 8 = k / 8
  · have hkd : k / 8 < d.length := by omega
    rw [if_pos hk, if_pos hd, ← hk, List.getElem?_eq_getElem hd]
    have := mask_set d[i / 8] ⟨i % 8, by omega⟩ ⟨k % 8, by omega⟩
    simp only at this
    simp only [bitMask]
    rw [this]
    congr 1
    simp only [decide_eq_decide, Fin.mk.injEq]
    omega
  · rw [if_neg hk]
    have : k ≠ i := by omega
    simp [this]

theorem toBitfieldLoop_spec {s l} (h : Rel s l) (n i : Nat) (d : List UInt8)
    (hn : i + n = l.length) (hl : l.length ≤ 16777216) (hd : d.length = (l.length + 7) / 8)
    (hb : ∀ k, bit d k = (decide (k < i) && (l[k]?.map (·.has)).getD false)) :
    ∃ d', toBitfieldLoop s i n d = .ok d' ∧ d'.length = (l.length + 7) / 8 ∧
      ∀ k, bit d' k = (decide (k < l.length) && (l[k]?.map (·.has)).getD false) := by
  induction n generalizing i d with
  | zero =>
    have : i = l.length := by omega
    subst this
    exact ⟨d, rfl, hd, hb⟩
  | succ n ih =>
    have hi : i < l.length := by omega
    simp only [toBitfieldLoop, hasPiece_eq h i hi, Res.bind_ok]
    cases hh : l[i].has with
    | false =>
      simp only [Bool.false_eq_true, if_false, Res.pure_eq, Res.bind_ok]
      apply ih (i + 1) d (by omega) hd
      intro k
      rw [hb k]
      by_cases hk : k = i
      · subst hk; simp [hh, hi]
      · simp only [show (k < i + 1) ↔ (k < i) by omega]
    | true =>
      obtain ⟨d', h1, h2, h3⟩ := bfPut_spec d i (by omega) (by omega)
      simp only [if_true, h1, Res.bind_ok]
      apply ih (i + 1) d' (by omega) (by omega)
      intro k
      rw [h3 k, hb k]
      by_cases hk : k = i
      · subst hk; simp [hh, hi]
      · simp only [show (k < i + 1) ↔ (k < i) by omega, hk, decide_false, Bool.or_false]

theorem bit_replicate_zero (n k : Nat) : bit (List.replicate n 0) k = false := by
  unfold bit
  rw [List.getElem?_replicate]
  split
  · rename_i b h
    split at h
    · injection h with h; subst h; simp
    · cases h
  · rfl

theorem fromBitfieldLoop_spec (bf : List UInt8) (n i : Nat) (s : PP)
    (hn : i + n = s.pieces.length) (hs : s.pieces.length ≤ 16777216) (hb : s.pieces.length ≤ 8 * bf.length)
    (hp : ∀ k (hk : k < i), s.pieces[k]? = some (if bit bf k then HasFlag else 0))
    (hc : s.receivedPiecesCount = ((List.range i).countP (bit bf) : Int)) :
    ∃ s', fromBitfieldLoop bf i n s = .ok s' ∧ s'.pieces.length = s.pieces.length ∧
      (∀ k, k < s.pieces.length → s'.pieces[k]? = some (if bit bf k then HasFlag else 0)) ∧
      s'.receivedPiecesCount = ((List.range s.pieces.length).countP (bit bf) : Int) := by
  induction n generalizing i s with
  | zero =>
    have : i = s.pieces.length := by omega
    subst this
    exact ⟨s, rfl, rfl, fun k hk => hp k hk, hc⟩
  | succ n ih =>
    have hi : i < s.pieces.length := by omega
    have hbi : i / 8 < bf.length := by omega
    simp only [fromBitfieldLoop]
    rw [byteIdx_small i (by omega), rd_eq_ok hbi, rd_eq_ok hi]
    simp only [Res.bind_ok]
    have hv : (bf[i / 8] &&& bitMask i != 0) = bit bf i := by
      rw [bit_mask]; unfold bit; rw [List.getElem?_eq_getElem hbi]
    rw [hv]
    obtain ⟨s', h1, h2, h3, h4⟩ := ih (i + 1)
      { s with pieces := s.pieces.set i (if bit bf i then HasFlag else 0)
               receivedPiecesCount := s.receivedPiecesCount + (if bit bf i then 1 else 0) }
      (by simp; omega) (by simpa using hs) (by simpa using hb)
      (by
        intro k hk
        simp only [List.getElem?_set]
        by_cases hki : i = k
        · subst hki; simp [hi]
        · simp only [hki, if_false]; exact hp k (by omega))
      (by
        simp only [List.range_succ, List.countP_append, List.countP_cons, List.countP_nil, hc]
        split <;> simp)
    refine ⟨s', h1, ?_, ?_, ?_⟩
    · simpa using h2
    · simpa using h3
    · simpa using h4

end Verif.Progress
