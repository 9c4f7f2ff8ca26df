import Verif.Model.DiffieHellman
import Verif.Proof.BigNumberPow
import Verif.Proof.Addr
/-! Digits and bytes. -/

namespace Verif.BigNum
open Verif

theorem leVal_append (a b : List UInt8) : leVal (a ++ b) = leVal a + 256 ^ a.length * leVal b := by
  induction a with
  | nil => simp [leVal]
  | cons x a ih => simp only [List.cons_append, leVal, ih, List.length_cons, pow_succ]; ring

theorem leVal_zeros (n : Nat) : leVal (List.replicate n 0) = 0 := by
  induction n with
  | zero => rfl
  | succ n ih => simp [List.replicate_succ, leVal, ih]

theorem leVal_reverse (l : List UInt8) : leVal l.reverse = beVal l := by
  induction l with
  | nil => rfl
  | cons a l ih => rw [List.reverse_cons, leVal_append, ih, beVal_cons]; simp [leVal]; ring

theorem leVal_lt (l : List UInt8) : leVal l < 256 ^ l.length := by
  have := beVal_lt l.reverse
  rwa [← leVal_reverse, List.reverse_reverse, List.length_reverse] at this

theorem digitsOf_ok (n : Nat) (bs : List UInt8) (h : bs.length = 8 * n) :
    (digitsOf n bs).length = n ∧ Digs (digitsOf n bs) ∧ val (digitsOf n bs) = leVal bs := by
  induction n generalizing bs with
  | zero =>
    rw [List.length_eq_zero_iff.mp (by omega : bs.length = 0)]
    exact ⟨rfl, fun d hd => (List.not_mem_nil hd).elim, rfl⟩
  | succ n ih =>
    obtain ⟨h1, h2, h3⟩ := ih (bs.drop 8) (by rw [List.length_drop]; omega)
    have ht : (bs.take 8).length = 8 := by rw [List.length_take]; omega
    refine ⟨by simp only [digitsOf, List.length_cons, h1], ?_, ?_⟩
    · intro d hd
      simp only [digitsOf, List.mem_cons] at hd
      rcases hd with rfl | hd
      · have := leVal_lt (bs.take 8)
        rw [ht] at this
        exact this
      · exact h2 d hd
    · simp only [digitsOf, val, h3]
      conv => rhs; rw [← List.take_append_drop 8 bs]
      rw [leVal_append, ht]
      rfl

theorem bytesOf_length (l : List Nat) : (bytesOf l).length = 8 * l.length := by
  induction l with
  | nil => rfl
  | cons d l ih =>
    simp only [bytesOf, List.flatMap_cons, List.length_append, List.length_cons] at ih ⊢
    rw [ih]; simp [bytesOfDigit]; omega

theorem leVal_digit {d : Nat} (h : d < base) : leVal (bytesOfDigit d) = d := by
  simp only [bytesOfDigit, leVal, UInt8.toNat_ofNat', base] at *
  omega

theorem bytesOf_val {l : List Nat} (h : Digs l) : leVal (bytesOf l) = val l := by
  induction l with
  | nil => rfl
  | cons d l ih =>
    have h1 := ih (fun x hx => h x (List.mem_cons_of_mem _ hx))
    have h2 : bytesOf (d :: l) = bytesOfDigit d ++ bytesOf l := by simp [bytesOf]
    have h3 : 256 ^ (bytesOfDigit d).length = base := by
      rw [show (bytesOfDigit d).length = 8 from rfl]; decide
    rw [h2, leVal_append, h1, leVal_digit (h d List.mem_cons_self), val, h3]

theorem exportBytes_ok {l : List Nat} {size : Nat} (h : Digs l) (hs : 8 * l.length ≤ size) :
    (exportBytes l size).length = 8 * l.length ∧ beVal (exportBytes l size) = val l := by
  have h1 : (bytesOf l).take (min (8 * l.length) size) = bytesOf l := by
    rw [Nat.min_eq_left hs]
    exact List.take_of_length_le (by rw [bytesOf_length])
  unfold exportBytes
  rw [h1]
  refine ⟨by rw [List.length_reverse, bytesOf_length], ?_⟩
  rw [← leVal_reverse, List.reverse_reverse, bytesOf_val h]

/-- Digits are determined by their number. -/
theorem val_inj : ∀ {a b : List Nat}, Digs a → Digs b → a.length = b.length → val a = val b → a = b
  | [], [], _, _, _, _ => rfl
  | x :: a, y :: b, ha, hb, hl, h => by
    have hx := ha x List.mem_cons_self
    have hy := hb y List.mem_cons_self
    simp only [val] at h
    have h1 : x = y := by
      have := congrArg (· % base) h
      simpa [Nat.add_mul_mod_self_left, Nat.mod_eq_of_lt hx, Nat.mod_eq_of_lt hy] using this
    have h2 : val a = val b := by
      subst h1
      exact Nat.eq_of_mul_eq_mul_left base_pos (Nat.add_left_cancel h)
    rw [h1, val_inj (fun d hd => ha d (List.mem_cons_of_mem _ hd)) (fun d hd => hb d (List.mem_cons_of_mem _ hd)) (by simpa using hl) h2]

theorem setBytes_ok {data : List UInt8} {n : Nat} (h : data.length = 8 * n) :
    (setBytes [] data).length = n ∧ Digs (setBytes [] data) ∧ val (setBytes [] data) = beVal data := by
  have hn : (if 8 * ([] : List Nat).length < data.length then (data.length + 7) / 8 else ([] : List Nat).length) = n := by
    simp only [List.length_nil]
    split <;> omega
  simp only [setBytes, hn]
  obtain ⟨h1, h2, h3⟩ := digitsOf_ok n (data.reverse ++ List.replicate (8 * n - data.length) 0) (by
    rw [List.length_append, List.length_reverse, List.length_replicate]; omega)
  refine ⟨h1, h2, ?_⟩
  rw [h3, leVal_append, leVal_zeros, leVal_reverse]
  simp

end Verif.BigNum

namespace Verif.DH
open Verif BigNum

theorem create_ok {rnd : List UInt8} {n : Nat} (h : rnd.length = 8 * n) :
    (Exchange.create rnd).privateKey.length = n ∧ Digs (Exchange.create rnd).privateKey ∧ val (Exchange.create rnd).privateKey = leVal rnd := by
  have hn : (rnd.length + 7) / 8 = n := by omega
  simp only [Exchange.create, hn]
  obtain ⟨h1, h2, h3⟩ := digitsOf_ok n (rnd ++ List.replicate (8 * n - rnd.length) 0) (by
    rw [List.length_append, List.length_replicate]; omega)
  refine ⟨h1, h2, ?_⟩
  rw [h3, leVal_append, leVal_zeros]
  simp

theorem primes_ok : pePrimes.length = 12 ∧ Good pePrimes := by
  refine ⟨by decide +kernel, ?_⟩
  have h : pePrimes.all (fun d => decide (d < base)) = true := by decide +kernel
  refine ⟨fun d hd => ?_, by decide +kernel, .inl (by decide +kernel)⟩
  simpa using List.all_eq_true.mp h d hd

theorem generator_ok : peGenerator.length = 12 ∧ Digs peGenerator ∧ val peGenerator = 2 := by
  have h : peGenerator.all (fun d => decide (d < base)) = true := by decide +kernel
  refine ⟨by decide +kernel, fun d hd => ?_, by decide +kernel⟩
  simpa using List.all_eq_true.mp h d hd

/-- Powers modulo the prime. -/
theorem pe_pow {r a e : List Nat} (ha : Digs a) (he : Digs e) (la : a.length = 12) (le : e.length = 12) :
    ∃ r', powm r a e pePrimes = .ok (true, r') ∧ r'.length = 12 ∧ Digs r' ∧ val r' = val a ^ val e % val pePrimes := by
  obtain ⟨p1, p2⟩ := primes_ok
  obtain ⟨r', e1, e2, e3, e4, e5⟩ := powm_ok (r := r) p2 ha he (by omega) (by omega)
  refine ⟨r', e1, by omega, e3, ?_⟩
  by_cases h : val e = 0
  · rw [e4 h, h, pow_zero]
    decide +kernel
  · exact e5 h

theorem message_ok {x : Exchange} (hx : Digs x.privateKey) (lx : x.privateKey.length = 12) (pad : List UInt8) :
    ∃ out, x.peMessage pad = .ok (out ++ pad) ∧ out.length = 96 ∧ beVal out = 2 ^ val x.privateKey % val pePrimes := by
  obtain ⟨g1, g2, g3⟩ := generator_ok
  obtain ⟨r, e1, e2, e3, e4⟩ := pe_pow (r := []) g2 hx g1 lx
  have hk : keySize = 96 := rfl
  obtain ⟨f1, f2⟩ := exportBytes_ok (size := (List.replicate keySize (0 : UInt8) ++ pad).length) e3 (by
    rw [List.length_append, List.length_replicate]; omega)
  refine ⟨_, ?_, by rw [f1, e2], by rw [f2, e4, g3]⟩
  simp only [Exchange.peMessage, Exchange.message, e1, Res.bind_ok, Res.pure_eq]
  rw [f1, e2, List.drop_append_of_le_length (by rw [List.length_replicate, hk]), List.drop_of_length_le (by rw [List.length_replicate, hk]), List.nil_append]

theorem secret_ok {x : Exchange} (hx : Digs x.privateKey) (lx : x.privateKey.length = 12) (shared : List Nat) (key : List UInt8) (hk : 96 ≤ key.length) :
    ∃ s, x.peSecret shared key = .ok (⟨List.replicate 12 0⟩, s) ∧ s.length = 12 ∧ Digs s ∧
      val s = beVal (key.take 96) ^ val x.privateKey % val pePrimes := by
  obtain ⟨p1, p2⟩ := primes_ok
  obtain ⟨k1, k2, k3⟩ := setBytes_ok (data := key.take 96) (n := 12) (by rw [List.length_take]; omega)
  obtain ⟨r, e1, e2, e3, e4⟩ := pe_pow (r := setLength shared 12) k2 hx k1 lx
  refine ⟨r, ?_, e2, e3, by rw [e4, k3]⟩
  unfold Exchange.peSecret Exchange.secret
  rw [p1, if_neg (by omega)]
  simp only [show 8 * 12 = 96 by norm_num, e1, Res.bind_ok, Res.pure_eq, setZero, lx]

end Verif.DH
