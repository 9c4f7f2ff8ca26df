import Verif.Proof.DiffieHellman
import Verif.Spec.KeyExchange
/-! C27 modular exponentiation, C28 key exchange. -/

namespace Verif
open BigNum

theorem number_val (l : List Nat) : Spec.digitNumber l = val l := by
  induction l with
  | nil => rfl
  | cons d l ih => simp only [Spec.digitNumber, List.foldr_cons] at ih ⊢; rw [ih]; rfl

theorem little_val (l : List UInt8) : Spec.littleNumber l = leVal l := by
  induction l with
  | nil => rfl
  | cons d l ih => simp only [Spec.littleNumber, List.foldr_cons] at ih ⊢; rw [ih]; rfl

theorem big_val (l : List UInt8) : Spec.bigNumber l = beVal l := by
  rw [Spec.bigNumber, little_val, leVal_reverse]

theorem good_of {m : List Nat} (hm : Spec.Digits m) (h0 : Spec.digitNumber m ≠ 0) (h : 2 ^ 64 ≤ Spec.digitNumber m ∨ Spec.digitNumber m ≤ 2 ^ 63) : Good m := by
  rw [number_val] at h0 h
  exact ⟨hm, h0, h⟩

/-! ### C27 -/

/-- C27 for all operands of all lengths, except for exponent 0 with modulus 1 and for moduli strictly between 2^63 and
2^64: `Powm` returns true, its result has the length of the modulus and is the power modulo the modulus. Missing, because
they fail: `C27_one_violated` and `C27_overflow_violated`. -/
theorem C27_powm_partial (r a e m : List Nat) (ha : Spec.Digits a) (he : Spec.Digits e) (hm : Spec.Digits m)
    (la : a.length = m.length) (le : e.length = m.length) (h0 : Spec.digitNumber m ≠ 0) (h1 : Spec.digitNumber e = 0 → Spec.digitNumber m ≠ 1)
    (hbig : 2 ^ 64 ≤ Spec.digitNumber m ∨ Spec.digitNumber m ≤ 2 ^ 63) :
    ∃ r', powm r a e m = .ok (true, r') ∧ r'.length = m.length ∧ Spec.Digits r' ∧
      Spec.digitNumber r' = Spec.digitNumber a ^ Spec.digitNumber e % Spec.digitNumber m := by
  obtain ⟨r', e1, e2, e3, e4, e5⟩ := powm_ok (r := r) (good_of hm h0 hbig) ha he la le
  refine ⟨r', e1, e2, e3, ?_⟩
  rw [number_val] at h0
  simp only [number_val] at h1 ⊢
  by_cases h : val e = 0
  · rw [e4 h, h, pow_zero, Nat.mod_eq_of_lt]
    have := h1 h
    omega
  · exact e5 h

/-- Non-vacuity: operands of two digits; the highest digit of the modulus is not normalised. -/
example : ∃ r', powm [] [5, 7] [3, 1] [9, 4] = .ok (true, r') ∧ Spec.digitNumber r' = Spec.digitNumber [5, 7] ^ Spec.digitNumber [3, 1] % Spec.digitNumber [9, 4] := by
  obtain ⟨r', e1, _, _, e2⟩ := C27_powm_partial [] [5, 7] [3, 1] [9, 4] (by unfold Spec.Digits; decide) (by unfold Spec.Digits; decide)
    (by unfold Spec.Digits; decide) rfl rfl (by decide) (by decide) (.inl (by decide))
  exact ⟨r', e1, e2⟩

/-- Products modulo a number: `Mulm` for all operands of all lengths, except for moduli strictly between 2^63 and 2^64. -/
theorem C27_mulm_partial (r a b m : List Nat) (ha : Spec.Digits a) (hb : Spec.Digits b) (hm : Spec.Digits m)
    (la : a.length = m.length) (lb : b.length = m.length) (h0 : Spec.digitNumber m ≠ 0)
    (hbig : 2 ^ 64 ≤ Spec.digitNumber m ∨ Spec.digitNumber m ≤ 2 ^ 63) :
    ∃ r', mulm r a b m = .ok (true, r') ∧ r'.length = m.length ∧ Spec.Digits r' ∧
      Spec.digitNumber r' = Spec.digitNumber a * Spec.digitNumber b % Spec.digitNumber m := by
  obtain ⟨r', e1, e2, e3, e4⟩ := mulm_ok (r := r) (good_of hm h0 hbig) ha hb la lb
  exact ⟨r', e1, e2, e3, by simp only [number_val, e4]⟩

/-- Non-vacuity: a division that takes the rare add-back step (the quotient digit estimated from two digits is too large). -/
example : ∃ r', mulm [] [0, 2 ^ 64 - 1, 2 ^ 63 - 1] [2 ^ 64 - 1, 0, 0] [2 ^ 63 - 1, 2 ^ 64 - 2, 2 ^ 64 - 2] = .ok (true, r') ∧
    Spec.digitNumber r' = Spec.digitNumber [0, 2 ^ 64 - 1, 2 ^ 63 - 1] * Spec.digitNumber [2 ^ 64 - 1, 0, 0] % Spec.digitNumber [2 ^ 63 - 1, 2 ^ 64 - 2, 2 ^ 64 - 2] := by
  obtain ⟨r', e1, _, _, e2⟩ := C27_mulm_partial [] [0, 2 ^ 64 - 1, 2 ^ 63 - 1] [2 ^ 64 - 1, 0, 0] [2 ^ 63 - 1, 2 ^ 64 - 2, 2 ^ 64 - 2] (by unfold Spec.Digits; decide)
    (by unfold Spec.Digits; decide) (by unfold Spec.Digits; decide) rfl rfl (by decide) (.inl (by decide))
  exact ⟨r', e1, e2⟩

/-- Operands of different lengths are refused and the result keeps its value. -/
theorem C27_lengths (r a e m : List Nat) (h : a.length ≠ e.length ∨ e.length ≠ m.length) : powm r a e m = .ok (false, r) := if_pos h

/-- C27 fails: the 0th power modulo 1 is returned as 1. -/
theorem C27_one_violated : ∃ a e m r, Spec.Digits a ∧ Spec.Digits e ∧ Spec.Digits m ∧ a.length = m.length ∧ e.length = m.length ∧ Spec.digitNumber m ≠ 0 ∧
    powm [] a e m = .ok (true, r) ∧ Spec.digitNumber r ≠ Spec.digitNumber a ^ Spec.digitNumber e % Spec.digitNumber m := by
  refine ⟨[5], [0], [1], [1], ?_, ?_, ?_, rfl, rfl, by decide, by decide +kernel, by decide⟩ <;> (unfold Spec.Digits; decide)

/-- C27 fails: division by one digit overflows a signed double digit (undefined behaviour) when the remainder so far is
2^63, which needs a modulus above 2^63. The dividend here is the square of the base. -/
theorem C27_overflow_violated : ∃ a e m, Spec.Digits a ∧ Spec.Digits e ∧ Spec.Digits m ∧ a.length = m.length ∧ e.length = m.length ∧ Spec.digitNumber m ≠ 0 ∧
    Spec.digitNumber a < Spec.digitNumber m ∧ powm [] a e m = .ub := by
  refine ⟨[13043817825332782213], [2], [18446744073709551614], ?_, ?_, ?_, rfl, rfl, by decide, by decide, by decide +kernel⟩ <;> (unfold Spec.Digits; decide)

/-! ### C28 -/

open DH

theorem prime_val : val pePrimes = Spec.exchangePrime := by decide +kernel

/-- The private number of an exchange made from random bytes. -/
theorem private_ok (rnd : List UInt8) (h : rnd.length = 96) :
    (Exchange.create rnd).privateKey.length = 12 ∧ Digs (Exchange.create rnd).privateKey ∧
      val (Exchange.create rnd).privateKey = Spec.littleNumber rnd := by
  obtain ⟨h1, h2, h3⟩ := create_ok (rnd := rnd) (n := 12) (by omega)
  exact ⟨h1, h2, by rw [h3, little_val]⟩

/-- What an end sends: 96 bytes holding 2^x modulo the prime, x being the number of its random bytes, then the padding. -/
theorem C28_message (rnd pad : List UInt8) (h : rnd.length = 96) :
    ∃ out, (Exchange.create rnd).peMessage pad = .ok (out ++ pad) ∧ out.length = 96 ∧
      Spec.bigNumber out = 2 ^ Spec.littleNumber rnd % Spec.exchangePrime := by
  obtain ⟨h1, h2, h3⟩ := private_ok rnd h
  obtain ⟨out, e1, e2, e3⟩ := message_ok h2 h1 pad
  exact ⟨out, e1, e2, by rw [big_val, e3, h3, prime_val]⟩

/-- What an end derives from the first 96 bytes it receives, whatever they are (a peer may send anything): their number
to the power x modulo the prime, exported as 96 bytes. The private key is erased. Data after the key has no influence. -/
theorem C28_secret (rnd : List UInt8) (shared : List Nat) (key : List UInt8) (h : rnd.length = 96) (hk : 96 ≤ key.length) :
    ∃ x s, (Exchange.create rnd).peSecret shared key = .ok (x, s) ∧ (∀ d ∈ x.privateKey, d = 0) ∧ (exportBytes s 96).length = 96 ∧
      Spec.digitNumber s = Spec.bigNumber (key.take 96) ^ Spec.littleNumber rnd % Spec.exchangePrime ∧
      Spec.bigNumber (exportBytes s 96) = Spec.digitNumber s := by
  obtain ⟨h1, h2, h3⟩ := private_ok rnd h
  obtain ⟨s, e1, e2, e3, e4⟩ := secret_ok h2 h1 shared key hk
  obtain ⟨f1, f2⟩ := exportBytes_ok (size := 96) e3 (by omega)
  refine ⟨_, s, e1, fun d hd => (List.mem_replicate.mp hd).2, by rw [f1, e2], ?_, ?_⟩
  · rw [number_val, e4, big_val, h3, prime_val]
  · rw [big_val, number_val, f2]

/-- C28: for all random bytes of both ends, all paddings, and whatever the variables for the secret held before, both
ends derive the same secret from each other's messages, digit for digit, and it is 2^(x y) modulo the prime. -/
theorem C28_agreement (rndA rndB padA padB : List UInt8) (sharedA sharedB : List Nat) (hA : rndA.length = 96) (hB : rndB.length = 96) :
    ∃ msgA msgB xA xB s, (Exchange.create rndA).peMessage padA = .ok msgA ∧ (Exchange.create rndB).peMessage padB = .ok msgB ∧
      (Exchange.create rndA).peSecret sharedA msgB = .ok (xA, s) ∧ (Exchange.create rndB).peSecret sharedB msgA = .ok (xB, s) ∧
      Spec.digitNumber s = 2 ^ (Spec.littleNumber rndA * Spec.littleNumber rndB) % Spec.exchangePrime := by
  obtain ⟨a1, a2, a3⟩ := private_ok rndA hA
  obtain ⟨b1, b2, b3⟩ := private_ok rndB hB
  obtain ⟨ma, e1, e2, e3⟩ := message_ok a2 a1 padA
  obtain ⟨mb, f1, f2, f3⟩ := message_ok b2 b1 padB
  obtain ⟨sa, g1, g2, g3, g4⟩ := secret_ok a2 a1 sharedA (mb ++ padB) (by rw [List.length_append]; omega)
  obtain ⟨sb, i1, i2, i3, i4⟩ := secret_ok b2 b1 sharedB (ma ++ padA) (by rw [List.length_append]; omega)
  rw [List.take_append_of_le_length (by omega), List.take_of_length_le (by omega), f3, ← Nat.pow_mod, ← pow_mul] at g4
  rw [List.take_append_of_le_length (by omega), List.take_of_length_le (by omega), e3, ← Nat.pow_mod, ← pow_mul, Nat.mul_comm] at i4
  have hs : sa = sb := val_inj g3 i3 (by omega) (by rw [g4, i4])
  subst hs
  exact ⟨_, _, _, _, sa, e1, f1, g1, i1, by rw [number_val, g4, prime_val, a3, b3, Nat.mul_comm]⟩

/-- Non-vacuity: two ends with different random bytes and paddings. -/
example : ∃ msgA msgB xA xB s, (Exchange.create (List.replicate 96 1)).peMessage [1, 2, 3] = .ok msgA ∧ (Exchange.create (List.replicate 96 7)).peMessage [] = .ok msgB ∧
    (Exchange.create (List.replicate 96 1)).peSecret [] msgB = .ok (xA, s) ∧ (Exchange.create (List.replicate 96 7)).peSecret [] msgA = .ok (xB, s) ∧
    Spec.digitNumber s = 2 ^ (Spec.littleNumber (List.replicate 96 1) * Spec.littleNumber (List.replicate 96 7)) % Spec.exchangePrime :=
  C28_agreement _ _ _ _ _ _ (by simp) (by simp)

end Verif
