import Verif.Proof.UtpSafe
/-! What the selective acks of a stream name. -/
namespace Verif.Utp
open Verif Spec

theorem testBit_add_pow {v i j : Nat} (h : v < 2 ^ i) : (v + 2 ^ i).testBit j = (if j = i then true else v.testBit j) := by
  have e : v + 2 ^ i = 2 ^ i + v := Nat.add_comm _ _
  rw [e]
  split
  · rename_i hj
    subst hj
    rw [Nat.testBit_two_pow_add_eq, Nat.testBit_lt_two_pow h]; rfl
  · rename_i hj
    rcases Nat.lt_or_gt_of_ne hj with hj | hj
    · rw [Nat.testBit_two_pow_add_gt hj]
    · rw [Nat.testBit_lt_two_pow (by
          have : 2 ^ (i + 1) ≤ 2 ^ j := Nat.pow_le_pow_right (by omega) (by omega)
          rw [Nat.pow_succ] at this; omega),
        Nat.testBit_lt_two_pow (Nat.lt_of_lt_of_le h (Nat.pow_le_pow_right (by omega) (by omega)))]

theorem sackBits_sound (l : List Stored) : ∀ (n q k v : Nat) {r : Nat × Nat × Nat}, n ≤ 8 → q < 65536 → v < 2 ^ (8 - n) → sackBits l n q k v = .ok r →
    r.1 < 256 ∧ (∀ j, r.1.testBit j = true → v.testBit j = true ∨ 8 - n ≤ j ∧ j < 8 ∧ ∃ d ∈ l, d.seq = (q + (j - (8 - n))) % 65536) ∧ (∀ j, v.testBit j = true → r.1.testBit j = true) ∧
    (l.length ≤ r.2.2 ∨ r.2.1 = (q + n) % 65536)
  | 0, q, k, v, r, hn, hq, hv, h => by
    rw [sackBits] at h; cases h
    exact ⟨hv, fun j hj => Or.inl hj, fun j hj => hj, Or.inr (by simp only; omega)⟩
  | n + 1, q, k, v, r, hn, hq, hv, h => by
    rw [sackBits] at h
    obtain ⟨d, h1, h⟩ := bind_ok_inv h
    have hd : d ∈ l := List.mem_of_getElem? (rd_ok h1)
    have e : 8 - (n + 1) = 7 - n := by omega
    have e8 : 8 - n = 7 - n + 1 := by omega
    rw [e] at hv
    have hv2 : v + 2 ^ (7 - n) < 2 ^ (8 - n) := by rw [e8, Nat.pow_succ]; omega
    have bit : ∀ j, (v + 2 ^ (7 - n)).testBit j = true → v.testBit j = true ∨ j = 7 - n := by
      intro j hj
      rw [testBit_add_pow hv] at hj
      split at hj
      · right; assumption
      · left; exact hj
    have bit' : ∀ j, v.testBit j = true → (v + 2 ^ (7 - n)).testBit j = true := by
      intro j hj
      rw [testBit_add_pow hv]
      split
      · rfl
      · exact hj
    split at h
    · rename_i hs
      split at h
      · rename_i hl
        cases h
        refine ⟨Nat.lt_of_lt_of_le hv2 (Nat.pow_le_pow_right (by omega) (by omega : 8 - n ≤ 8)), fun j hj => ?_, bit', Or.inl (by simp only; omega)⟩
        rcases bit j hj with h | h
        · exact Or.inl h
        · exact Or.inr ⟨by omega, by omega, d, hd, by rw [hs, h, e]; omega⟩
      · obtain ⟨i1, i2, i3, i4⟩ := sackBits_sound l n (inc16 q) (k + 1) _ (by omega) (by unfold inc16; omega) hv2 h
        refine ⟨i1, fun j hj => ?_, fun j hj => i3 j (bit' j hj), i4.imp id fun h => ?_⟩
        · rcases i2 j hj with h | ⟨h1, h2, x, hx, h3⟩
          · rcases bit j h with h | h
            · exact Or.inl h
            · exact Or.inr ⟨by omega, by omega, d, hd, by rw [hs, h, e]; omega⟩
          · exact Or.inr ⟨by omega, h2, x, hx, by rw [h3]; unfold inc16; omega⟩
        · rw [h]; unfold inc16; omega
    · obtain ⟨i1, i2, i3, i4⟩ := sackBits_sound l n (inc16 q) k v (by omega) (by unfold inc16; omega) (Nat.lt_of_lt_of_le hv (Nat.pow_le_pow_right (by omega) (by omega))) h
      refine ⟨i1, fun j hj => ?_, i3, i4.imp id fun h => ?_⟩
      · rcases i2 j hj with h | ⟨h1, h2, x, hx, h3⟩
        · exact Or.inl h
        · exact Or.inr ⟨by omega, h2, x, hx, by rw [h3]; unfold inc16; omega⟩
      · rw [h]; unfold inc16; omega

theorem sackBytes_sound (l : List Stored) : ∀ (n q k : Nat) {bs : List UInt8}, q < 65536 → sackBytes l n q k = .ok bs →
    bs.length = n ∧ ∀ i j b, bs[i]? = some b → b.toNat.testBit j = true → ∃ d ∈ l, d.seq = (q + 8 * i + j) % 65536
  | 0, q, k, bs, hq, h => by
    rw [sackBytes] at h; cases h
    exact ⟨rfl, fun i j b hb => by simp at hb⟩
  | n + 1, q, k, bs, hq, h => by
    rw [sackBytes] at h
    obtain ⟨r, h1, h⟩ := bind_ok_inv h
    obtain ⟨bs', h2, h⟩ := bind_ok_inv h
    cases h
    obtain ⟨i1, i2, _, i4⟩ := sackBits_sound l 8 q k 0 (Nat.le_refl _) hq (by omega) h1
    have hfirst : ∀ j, (UInt8.ofNat r.1).toNat.testBit j = true → ∃ d ∈ l, d.seq = (q + j) % 65536 := by
      intro j hj
      rw [UInt8.toNat_ofNat_of_lt' (by simpa [UInt8.size] using i1)] at hj
      rcases i2 j hj with h | ⟨_, _, d, hd, h3⟩
      · simp at h
      · exact ⟨d, hd, by simpa using h3⟩
    rcases i4 with i4 | i4
    · have hn : n = 0 := by
        cases n with
        | zero => rfl
        | succ n =>
          rw [sackBytes] at h2
          obtain ⟨r', h3, _⟩ := bind_ok_inv h2
          rw [sackBits] at h3
          obtain ⟨d, h4, _⟩ := bind_ok_inv h3
          have := rd_ok h4
          rw [List.getElem?_eq_none i4] at this
          cases this
      subst hn
      rw [sackBytes] at h2
      cases h2
      refine ⟨rfl, fun i j b hb hj => ?_⟩
      cases i with
      | zero =>
        rw [List.getElem?_cons_zero] at hb; cases hb
        simpa using hfirst j hj
      | succ i => simp at hb
    · obtain ⟨j1, j2⟩ := sackBytes_sound l n r.2.1 r.2.2 (by rw [i4]; omega) h2
      refine ⟨by simp [j1], fun i j b hb hj => ?_⟩
      cases i with
      | zero =>
        rw [List.getElem?_cons_zero] at hb; cases hb
        simpa using hfirst j hj
      | succ i =>
        rw [List.getElem?_cons_succ] at hb
        obtain ⟨d, hd, h3⟩ := j2 i j b hb hj
        exact ⟨d, hd, by rw [h3, i4]; omega⟩

/-- Stored packets in order: `f i` is the place of packet `i` behind `base`. -/
structure InOrder (l : List Stored) (base : Nat) (f : Nat → Nat) : Prop where
  seq : ∀ (i : Nat) (d : Stored), l[i]? = some d → d.seq = (base + f i) % 65536
  lt : ∀ i, i < l.length → f i < 65536
  mono : ∀ i j, i < j → j < l.length → f i < f j

theorem sackBits_full {l : List Stored} {base : Nat} {f : Nat → Nat} (ho : InOrder l base f) : ∀ (n t k v : Nat) {r : Nat × Nat × Nat}, n ≤ 8 → t + n ≤ 65536 → v < 2 ^ (8 - n) →
    (∀ i, k ≤ i → i < l.length → t ≤ f i) → sackBits l n ((base + t) % 65536) k v = .ok r →
    (∀ i, k ≤ i → i < l.length → f i < t + n → r.1.testBit (8 - n + (f i - t)) = true) ∧ (∀ i, r.2.2 ≤ i → i < l.length → t + n ≤ f i) ∧ (∀ i, k ≤ i → i < r.2.2 → f i < t + n)
  | 0, t, k, v, r, hn, ht, hv, hk, h => by
    rw [sackBits] at h; cases h
    exact ⟨fun i h1 h2 h3 => by have := hk i h1 h2; omega, fun i h1 h2 => hk i h1 h2, fun i h1 h2 => by simp only at h2; omega⟩
  | n + 1, t, k, v, r, hn, ht, hv, hk, h => by
    have hall := (sackBits_sound l (n + 1) _ k v hn (Nat.mod_lt _ (by omega)) hv h).2.2
    rw [sackBits] at h
    obtain ⟨d, h1, h⟩ := bind_ok_inv h
    have hd := rd_ok h1
    have hkl : k < l.length := by
      rcases Nat.lt_or_ge k l.length with hl | hl
      · exact hl
      · rw [List.getElem?_eq_none hl] at hd; cases hd
    have hseq := ho.seq k d hd
    have hf := ho.lt k hkl
    have hq : inc16 ((base + t) % 65536) = (base + (t + 1)) % 65536 := by unfold inc16; omega
    have e : 8 - (n + 1) = 7 - n := by omega
    have e8 : 8 - n = 7 - n + 1 := by omega
    rw [e] at hv
    have hv2 : v + 2 ^ (7 - n) < 2 ^ (8 - n) := by rw [e8, Nat.pow_succ]; omega
    rw [hq] at h
    split at h
    · rename_i hs
      have hft : f k = t := by have := hk k (Nat.le_refl _) hkl; omega
      have hbit : (v + 2 ^ (7 - n)).testBit (7 - n) = true := by rw [testBit_add_pow hv]; simp
      split at h
      · rename_i hl
        cases h
        refine ⟨fun i h1 h2 h3 => ?_, fun i h1 h2 => by simp only at h1; omega, fun i h1 h2 => ?_⟩
        · have : i = k := by omega
          subst this
          rw [hft, e]; simpa using hbit
        · simp only at h2
          have : i = k := by omega
          subst this; omega
      · have hk1 : ∀ i, k + 1 ≤ i → i < l.length → t + 1 ≤ f i := fun i h1 h2 => by have := ho.mono k i (by omega) h2; omega
        obtain ⟨i1, i2, i3⟩ := sackBits_full ho n (t + 1) (k + 1) _ (by omega) (by omega) hv2 hk1 h
        have hkeep := (sackBits_sound l n _ (k + 1) _ (by omega) (Nat.mod_lt _ (by omega)) hv2 h).2.2.1
        refine ⟨fun i h1 h2 h3 => ?_, fun i h1 h2 => by have := i2 i h1 h2; omega, fun i h1 h2 => ?_⟩
        · rcases Nat.eq_or_lt_of_le h1 with hi | hi
          · subst hi
            rw [hft, e]
            simpa using hkeep _ hbit
          · have h4 := i1 i hi h2 (by omega)
            have h5 := hk1 i hi h2
            have e9 : 8 - (n + 1) + (f i - t) = 8 - n + (f i - (t + 1)) := by omega
            rw [e9]; exact h4
        · rcases Nat.eq_or_lt_of_le h1 with hi | hi
          · subst hi; omega
          · have := i3 i hi h2; omega
    · rename_i hs
      have hft : f k ≠ t := fun he => hs (by rw [hseq, he])
      have hk1 : ∀ i, k ≤ i → i < l.length → t + 1 ≤ f i := by
        intro i h1 h2
        rcases Nat.eq_or_lt_of_le h1 with hi | hi
        · subst hi; have := hk k (Nat.le_refl _) hkl; omega
        · have := ho.mono k i hi h2
          have := hk k (Nat.le_refl _) hkl
          omega
      obtain ⟨i1, i2, i3⟩ := sackBits_full ho n (t + 1) k v (by omega) (by omega) (Nat.lt_of_lt_of_le hv (Nat.pow_le_pow_right (by omega) (by omega))) hk1 h
      refine ⟨fun i h1 h2 h3 => ?_, fun i h1 h2 => by have := i2 i h1 h2; omega, fun i h1 h2 => by have := i3 i h1 h2; omega⟩
      have h4 := i1 i h1 h2 (by omega)
      have h5 := hk1 i h1 h2
      have e9 : 8 - (n + 1) + (f i - t) = 8 - n + (f i - (t + 1)) := by omega
      rw [e9]; exact h4

theorem sackBytes_full {l : List Stored} {base : Nat} {f : Nat → Nat} (ho : InOrder l base f) : ∀ (n t k : Nat) {bs : List UInt8}, t + 8 * n ≤ 65536 →
    (∀ i, k ≤ i → i < l.length → t ≤ f i) → sackBytes l n ((base + t) % 65536) k = .ok bs →
    ∀ i, k ≤ i → i < l.length → f i < t + 8 * n → ∃ b, bs[(f i - t) / 8]? = some b ∧ b.toNat.testBit ((f i - t) % 8) = true
  | 0, t, k, bs, ht, hk, h, i, h1, h2, h3 => by have := hk i h1 h2; omega
  | n + 1, t, k, bs, ht, hk, h, i, h1, h2, h3 => by
    rw [sackBytes] at h
    obtain ⟨r, g1, h⟩ := bind_ok_inv h
    obtain ⟨bs', g2, h⟩ := bind_ok_inv h
    cases h
    obtain ⟨s1, _, _, s4⟩ := sackBits_sound l 8 _ k 0 (Nat.le_refl _) (Nat.mod_lt _ (by omega)) (by omega) g1
    obtain ⟨i1, i2, i3⟩ := sackBits_full ho 8 t k 0 (Nat.le_refl _) (by omega) (by omega) hk g1
    have hti := hk i h1 h2
    rcases Nat.lt_or_ge (f i) (t + 8) with h8 | h8
    · have hb := i1 i h1 h2 h8
      have e1 : (f i - t) / 8 = 0 := by omega
      have e2 : (f i - t) % 8 = f i - t := by omega
      rw [e1, e2]
      refine ⟨_, rfl, ?_⟩
      rw [UInt8.toNat_ofNat_of_lt' (by simpa [UInt8.size] using s1)]
      simpa using hb
    · have hir : r.2.2 ≤ i := by
        rcases Nat.lt_or_ge i r.2.2 with hlt | hge
        · have := i3 i h1 hlt; omega
        · exact hge
      rcases s4 with s4 | s4
      · omega
      · have e : r.2.1 = (base + (t + 8)) % 65536 := by rw [s4]; omega
        rw [e] at g2
        obtain ⟨b, hb, hbit⟩ := sackBytes_full ho n (t + 8) r.2.2 (by omega) (fun i h1 h2 => i2 i h1 h2) g2 i hir h2 (by omega)
        have e1 : (f i - t) / 8 = (f i - (t + 8)) / 8 + 1 := by omega
        have e2 : (f i - t) % 8 = (f i - (t + 8)) % 8 := by omega
        rw [e1, e2]
        exact ⟨b, by rw [List.getElem?_cons_succ]; exact hb, hbit⟩

end Verif.Utp
