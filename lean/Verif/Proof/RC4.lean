import Verif.Model.RC4
import Verif.Spec.Encoding

namespace Verif.RC4
open Verif

/-- The table `b` holds the permutation `S`. -/
def Rel (b : Vector UInt8 256) (S : Nat → Nat) : Prop := ∀ k (h : k < 256), b[k].toNat = S k

theorem rel_at {b S} (h : Rel b S) (i : UInt8) : (at' b i).toNat = S i.toNat :=
  h i.toNat i.toNat_lt

theorem rel_swap {b S} (h : Rel b S) (x y : UInt8) :
    Rel (swap' b x y) (Spec.swapF S x.toNat y.toNat) := by
  intro k hk
  have hx := rel_at h x
  have hy := rel_at h y
  simp only [swap', Spec.swapF, Vector.getElem_set]
  by_cases h1 : y.toNat = k
  · subst h1; simp [hx]
  · by_cases h2 : x.toNat = k
    · subst h2; simp [h1, hy, Ne.symm h1]
    · simp [h1, h2, Ne.symm h1, Ne.symm h2, h k hk]

theorem rel_ident : Rel identBuf id := by
  intro k hk
  simp [identBuf]
  try omega

theorem cyc (j i len : Nat) (hl : 0 < len) (h : j = i % len) :
    (if j + 1 = len then 0 else j + 1) = (i + 1) % len := by
  subst h
  have hlt := Nat.mod_lt i hl
  rw [Nat.add_mod]
  split
  · rename_i h
    by_cases h1 : len = 1
    · subst h1; omega
    · rw [Nat.mod_eq_of_lt (a := 1) (by omega), h, Nat.mod_self]
  · by_cases h1 : len = 1
    · subst h1; omega
    · rw [Nat.mod_eq_of_lt (a := 1) (by omega), Nat.mod_eq_of_lt (a := i % len + 1) (by omega)]

theorem ksa_rel (key : List UInt8) (hk : 0 < key.length) (N n x j : Nat) (y : UInt8)
    (b : Vector UInt8 256) (hN : N ≤ 256) (hx : x + n = N) (hj : j = x % key.length)
    (hb : Rel b (Spec.rc4Ksa key x).1) (hy : y.toNat = (Spec.rc4Ksa key x).2) :
    Rel (ksa key n x j y b) (Spec.rc4Ksa key N).1 := by
  induction n generalizing x j y b with
  | zero => simp only [Nat.add_zero] at hx; subst hx; exact hb
  | succ n ih =>
    rw [ksa]
    have hxx : (UInt8.ofNat x).toNat = x := by simp; omega
    have hy' : (y + at' b (UInt8.ofNat x) + key.getD j 0).toNat = (Spec.rc4Ksa key (x + 1)).2 := by
      have := rel_at hb (UInt8.ofNat x)
      rw [hxx] at this
      simp only [UInt8.toNat_add, this, hy, hj, Spec.rc4Ksa]
      omega
    refine ih (x + 1) _ _ _ (by omega) (cyc j x _ hk hj) ?_ hy'
    have := rel_swap hb (UInt8.ofNat x) (y + at' b (UInt8.ofNat x) + key.getD j 0)
    rw [hxx, hy'] at this
    exact this

/-- The state holds the textbook generator after `n` bytes. -/
def RelS (s : State) (g : (Nat → Nat) × Nat × Nat) : Prop :=
  Rel s.buf g.1 ∧ s.xs.toNat = g.2.1 ∧ s.ys.toNat = g.2.2

theorem advance_rel (key : List UInt8) (n : Nat) (s : State) (h : RelS s (Spec.rc4Gen key n)) :
    RelS (advance s) (Spec.rc4Gen key (n + 1)) := by
  obtain ⟨hb, hx, hy⟩ := h
  have hx' : (s.xs + 1).toNat = ((Spec.rc4Gen key n).2.1 + 1) % 256 := by
    simp [UInt8.toNat_add, hx]
  have hy' : (s.ys + at' s.buf (s.xs + 1)).toNat
      = ((Spec.rc4Gen key n).2.2 + (Spec.rc4Gen key n).1 (((Spec.rc4Gen key n).2.1 + 1) % 256)) % 256 := by
    rw [UInt8.toNat_add, rel_at hb, hx', hy]
  refine ⟨?_, hx', hy'⟩
  have := rel_swap hb (s.xs + 1) (s.ys + at' s.buf (s.xs + 1))
  rw [hx', hy'] at this
  exact this

theorem keyByte_rel (key : List UInt8) (n : Nat) (s : State) (h : RelS s (Spec.rc4Gen key (n + 1))) :
    (keyByte s).toNat = Spec.rc4Byte key n := by
  obtain ⟨hb, hx, hy⟩ := h
  unfold keyByte Spec.rc4Byte
  rw [rel_at hb, UInt8.toNat_add, rel_at hb, rel_at hb, hx, hy]

theorem skip_rel (key : List UInt8) (m n : Nat) (s : State) (h : RelS s (Spec.rc4Gen key n)) :
    RelS (skip s m) (Spec.rc4Gen key (n + m)) := by
  induction m generalizing n s with
  | zero => exact h
  | succ m ih =>
    have := ih (n + 1) (advance s) (advance_rel key n s h)
    rw [show n + 1 + m = n + (m + 1) by omega] at this
    exact this

theorem init_rel (key : List UInt8) (s : State) (h : init key = .ok s) :
    RelS s (Spec.rc4Gen (key.take 256) 0) := by
  unfold init at h
  simp only at h
  split at h
  · cases h
  · rename_i hne
    injection h with h
    subst h
    have hk : 0 < (key.take 256).length := List.length_pos_iff.mpr hne
    have h1 := ksa_rel (key.take 256) hk 256 256 0 0 0 identBuf (Nat.le_refl _) (Nat.zero_add _)
      (by rw [Nat.zero_mod]) rel_ident rfl
    unfold RelS Spec.rc4Gen
    generalize Spec.rc4Ksa (key.take 256) 256 = k at h1 ⊢
    generalize ksa (key.take 256) 256 0 0 0 identBuf = b at h1 ⊢
    exact ⟨h1, rfl, rfl⟩

/-- What `decode` does from a state that has produced `n` bytes. -/
theorem decode_rel (key : List UInt8) (l : List UInt8) (n : Nat) (s : State)
    (h : RelS s (Spec.rc4Gen key n)) :
    RelS (decode s l).1 (Spec.rc4Gen key (n + l.length)) ∧
    (decode s l).2 = l.mapIdx (fun i c => c ^^^ UInt8.ofNat (Spec.rc4Byte key (n + i))) := by
  induction l generalizing n s with
  | nil => exact ⟨h, rfl⟩
  | cons c cs ih =>
    have ha := advance_rel key n s h
    have := ih (n + 1) _ ha
    have hk := keyByte_rel key n _ ha
    simp only [decode, List.length_cons, List.mapIdx_cons]
    rw [show n + (cs.length + 1) = n + 1 + cs.length by omega]
    refine ⟨this.1, ?_⟩
    rw [this.2]
    congr 1
    · rw [Nat.add_zero, ← hk]; simp
    · simp only [Nat.add_assoc, Nat.add_comm 1]

end Verif.RC4
