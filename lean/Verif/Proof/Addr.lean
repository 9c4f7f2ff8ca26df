import Verif.Model.Addr
import Verif.Spec.Addr

namespace Verif
theorem foldl_be (l : List UInt8) (x : Nat) : l.foldl (fun a b => a * 256 + b.toNat) x = x * 256 ^ l.length + l.foldl (fun a b => a * 256 + b.toNat) 0 := by
  induction l generalizing x with
  | nil => simp
  | cons b l ih =>
    simp only [List.foldl_cons, List.length_cons]
    rw [ih, ih (0 * 256 + b.toNat)]
    rw [Nat.pow_succ, Nat.add_mul, Nat.zero_mul, Nat.zero_add, Nat.mul_assoc, Nat.mul_comm 256, Nat.add_assoc]

theorem beVal_cons (a : UInt8) (l : List UInt8) : beVal (a :: l) = a.toNat * 256 ^ l.length + beVal l := by
  unfold beVal
  rw [List.foldl_cons, foldl_be, Nat.zero_mul, Nat.zero_add]

theorem beVal_lt (l : List UInt8) : beVal l < 256 ^ l.length := by
  induction l with
  | nil => simp [beVal]
  | cons a l ih =>
    rw [beVal_cons, List.length_cons, Nat.pow_succ]
    have := a.toNat_lt
    have : a.toNat * 256 ^ l.length + 256 ^ l.length ≤ 256 ^ l.length * 256 := by
      rw [← Nat.succ_mul, Nat.mul_comm]; exact Nat.mul_le_mul_left _ (by omega)
    omega

theorem beVal_inj : ∀ {a b : List UInt8}, a.length = b.length → beVal a = beVal b → a = b
  | [], [], _, _ => rfl
  | a :: as, b :: bs, hl, h => by
    have hl' : as.length = bs.length := by simpa using hl
    rw [beVal_cons, beVal_cons, hl'] at h
    have h1 := beVal_lt as
    have h2 := beVal_lt bs
    rw [hl'] at h1
    have hp : 0 < 256 ^ bs.length := Nat.pow_pos (by omega)
    have hq : a.toNat = b.toNat := by
      have e1 : (a.toNat * 256 ^ bs.length + beVal as) / 256 ^ bs.length = a.toNat := by
        rw [Nat.mul_comm, Nat.mul_add_div hp, Nat.div_eq_of_lt h1, Nat.add_zero]
      have e2 : (b.toNat * 256 ^ bs.length + beVal bs) / 256 ^ bs.length = b.toNat := by
        rw [Nat.mul_comm, Nat.mul_add_div hp, Nat.div_eq_of_lt h2, Nat.add_zero]
      rw [← e1, ← e2, h]
    rw [hq] at h
    have hb : beVal as = beVal bs := by omega
    rw [UInt8.toNat_inj.mp hq, beVal_inj hl' hb]
  | [], _ :: _, hl, _ => by simp at hl
  | _ :: _, [], hl, _ => by simp at hl

namespace Net

/-- `memcmp` orders by the big-endian value. -/
theorem lexLt_iff : ∀ {a b : List UInt8}, a.length = b.length → (lexLt a b = true ↔ beVal a < beVal b)
  | [], [], _ => by simp [lexLt]
  | a :: as, b :: bs, hl => by
    have hl' : as.length = bs.length := by simpa using hl
    unfold lexLt
    rw [beVal_cons, beVal_cons, hl']
    have h1 := beVal_lt as
    have h2 := beVal_lt bs
    rw [hl'] at h1
    by_cases hab : a = b
    · subst hab
      rw [if_neg (by simp), lexLt_iff hl']; omega
    · rw [if_pos hab, decide_eq_true_iff, UInt8.lt_iff_toNat_lt]
      have hne : a.toNat ≠ b.toNat := fun h => hab (UInt8.toNat_inj.mp h)
      constructor
      · intro h
        have : (a.toNat + 1) * 256 ^ bs.length ≤ b.toNat * 256 ^ bs.length := Nat.mul_le_mul_right _ h
        rw [Nat.add_mul] at this; omega
      · intro h
        rcases Nat.lt_or_ge a.toNat b.toNat with hlt | hge
        · exact hlt
        · have : (b.toNat + 1) * 256 ^ bs.length ≤ a.toNat * 256 ^ bs.length := Nat.mul_le_mul_right _ (by omega)
          rw [Nat.add_mul] at this; omega
  | [], _ :: _, hl => by simp at hl
  | _ :: _, [], hl => by simp at hl

/-- The key addresses of one family are ordered by. -/
def key (a : Addr) : Nat × Nat := (a.port, beVal (a.bytes.take (Addr.size a.ipv6)))

theorem size_le (v : Bool) : Addr.size v ≤ 16 := by cases v <;> simp [Addr.size]

theorem take_len (a : Addr) (v : Bool) (ha : a.bytes.length = 16) : (a.bytes.take (Addr.size v)).length = Addr.size v := by
  rw [List.length_take, ha, Nat.min_eq_left (size_le v)]

theorem lt_iff (a b : Addr) (ha : a.bytes.length = 16) (hb : b.bytes.length = 16) (h : a.ipv6 = b.ipv6) :
    a.lt b = true ↔ (key a).1 < (key b).1 ∨ (key a).1 = (key b).1 ∧ (key a).2 < (key b).2 := by
  unfold Addr.lt key
  simp only [Bool.or_eq_true, decide_eq_true_iff, Bool.and_eq_true, beq_iff_eq]
  rw [lexLt_iff (by rw [take_len a _ ha, take_len b _ hb]), h]

theorem eq_iff (a b : Addr) (ha : a.bytes.length = 16) (hb : b.bytes.length = 16) (h : a.ipv6 = b.ipv6) :
    a.eq b = true ↔ key a = key b := by
  unfold Addr.eq key
  simp only [Bool.and_eq_true, beq_iff_eq, Prod.mk.injEq]
  rw [← h]
  constructor
  · rintro ⟨h1, h2⟩; exact ⟨h1, by rw [h2]⟩
  · rintro ⟨h1, h2⟩; exact ⟨h1, beVal_inj (by rw [take_len a _ ha, take_len b _ hb]) h2⟩

end Net

namespace Dht

theorem shifts_log2 (d : Nat) : shifts d = Nat.log2 d := by
  induction d using Nat.strongRecOn with
  | ind d ih =>
    unfold shifts
    rw [Nat.log2_def]
    by_cases h : d / 2 = 0
    · rw [if_pos h, if_neg (by omega)]
    · rw [if_neg h, if_pos (by omega), ih _ (by omega)]

/-- `length` is the logarithm of the distance. -/
theorem length_log2 (d : Id) : length d = Nat.log2 (beVal d) := by
  induction d with
  | nil => simp [length, beVal]
  | cons a t ih =>
    unfold length
    rw [beVal_cons]
    by_cases ha : a = 0
    · subst ha; rw [if_neg (by simp), ih]; simp
    · rw [if_pos ha, shifts_log2]
      have h0 : a.toNat ≠ 0 := fun h => ha (UInt8.toNat_inj.mp h)
      have hp : 0 < 256 ^ t.length := Nat.pow_pos (by omega)
      have hx : a.toNat * 256 ^ t.length + beVal t ≠ 0 := by
        have : 1 * 256 ^ t.length ≤ a.toNat * 256 ^ t.length := Nat.mul_le_mul_right _ (by omega)
        omega
      symm
      rw [Nat.log2_eq_iff hx]
      obtain ⟨h1, h2⟩ := (Nat.log2_eq_iff h0).mp rfl
      have hbt := beVal_lt t
      have e : (256 : Nat) ^ t.length = 2 ^ (t.length * 8) := by
        rw [show (256 : Nat) = 2 ^ 8 from rfl, ← Nat.pow_mul, Nat.mul_comm]
      rw [e] at hbt ⊢
      constructor
      · rw [Nat.pow_add, Nat.mul_comm (2 ^ (t.length * 8))]
        exact Nat.le_trans (Nat.mul_le_mul_right _ h1) (Nat.le_add_right _ _)
      · have : (a.toNat + 1) * 2 ^ (t.length * 8) ≤ 2 ^ (a.toNat.log2 + 1) * 2 ^ (t.length * 8) := Nat.mul_le_mul_right _ h2
        rw [Nat.add_assoc, Nat.pow_add, Nat.mul_comm (2 ^ (t.length * 8))]
        rw [Nat.add_mul] at this; omega

theorem distance_length (a b : Id) (ha : a.length = 20) (hb : b.length = 20) : (distance a b).length = 20 := by
  unfold distance; rw [List.length_zipWith]; omega

theorem closerTo_iff (a m t : Id) (ha : a.length = 20) (hm : m.length = 20) (ht : t.length = 20) :
    closerToNodeThan a m t = true ↔ 2 ≤ beVal (distance a t) ∧ beVal (distance a t) < beVal m := by
  unfold closerToNodeThan
  simp only
  rw [length_log2]
  have h2 : Nat.log2 (beVal (distance a t)) ≠ 0 ↔ 2 ≤ beVal (distance a t) := by
    rw [Nat.log2_def]
    by_cases h : 2 ≤ beVal (distance a t)
    · rw [if_pos h]; simp [h]
    · rw [if_neg h]; simp; omega
  simp only [h2]
  by_cases h : 2 ≤ beVal (distance a t)
  · rw [if_pos h, Net.lexLt_iff (by rw [distance_length a t ha ht, hm])]
    simp [h]
  · rw [if_neg h]; simp [h]

theorem distance_zero (a b : Id) (h : a.length = b.length) : beVal (distance a b) = 0 ↔ a = b := by
  induction a generalizing b with
  | nil => cases b <;> simp_all [distance, beVal]
  | cons x a ih =>
    cases b with
    | nil => simp at h
    | cons y b =>
      have h' : a.length = b.length := by simpa using h
      simp only [distance, List.zipWith_cons_cons]
      rw [beVal_cons]
      have := ih b h'
      unfold distance at this
      have hp : 0 < 256 ^ (List.zipWith (· ^^^ ·) a b).length := Nat.pow_pos (by omega)
      have hx : (x ^^^ y).toNat = 0 ↔ x = y := by
        constructor
        · intro hz
          have : x ^^^ y = 0 := UInt8.toNat_inj.mp hz
          exact UInt8.xor_eq_zero_iff.mp this
        · rintro rfl; simp
      constructor
      · intro hs
        have h1 : (x ^^^ y).toNat * 256 ^ (List.zipWith (· ^^^ ·) a b).length = 0 := by omega
        have h2 : beVal (List.zipWith (· ^^^ ·) a b) = 0 := by omega
        rcases Nat.mul_eq_zero.mp h1 with h3 | h3
        · rw [hx.mp h3, this.mp h2]
        · omega
      · intro he
        injection he with h1 h2
        rw [hx.mpr h1, this.mpr h2]; simp

end Dht
end Verif

namespace Verif
open Spec

theorem xor_parts (k x y r s : Nat) (hr : r < 2 ^ k) (hs : s < 2 ^ k) :
    (2 ^ k * x + r) ^^^ (2 ^ k * y + s) = 2 ^ k * (x ^^^ y) + (r ^^^ s) := by
  apply Nat.eq_of_testBit_eq
  intro j
  rw [Nat.testBit_xor, Nat.testBit_two_pow_mul_add _ hr, Nat.testBit_two_pow_mul_add _ hs,
    Nat.testBit_two_pow_mul_add _ (Nat.xor_lt_two_pow hr hs)]
  split <;> simp

namespace Dht

theorem distance_xor (a b : Id) (h : a.length = b.length) : beVal (distance a b) = xorDistance a b := by
  unfold xorDistance
  induction a generalizing b with
  | nil => cases b <;> simp_all [distance, beVal]
  | cons x a ih =>
    cases b with
    | nil => simp at h
    | cons y b =>
      have h' : a.length = b.length := by simpa using h
      have hd : (List.zipWith (· ^^^ ·) a b).length = b.length := by rw [List.length_zipWith, h', Nat.min_self]
      have := ih b h'
      unfold distance at this ⊢
      rw [List.zipWith_cons_cons, beVal_cons, beVal_cons, beVal_cons, this, hd, h']
      have h1 := beVal_lt a
      have h2 := beVal_lt b
      rw [h'] at h1
      have e : (256 : Nat) ^ b.length = 2 ^ (b.length * 8) := by
        rw [show (256 : Nat) = 2 ^ 8 from rfl, ← Nat.pow_mul, Nat.mul_comm]
      rw [e] at h1 h2 ⊢
      rw [Nat.mul_comm x.toNat, Nat.mul_comm y.toNat, xor_parts _ _ _ _ _ h1 h2, Nat.mul_comm, UInt8.toNat_xor]

end Dht

namespace Net

theorem portDigits_eq (p : Nat) (acc : List UInt8) : portDigits p acc = decimal p ++ acc := by
  induction p using Nat.strongRecOn generalizing acc with
  | ind p ih =>
    unfold portDigits
    have hd : ∀ d, d < 10 → chr (Nat.digitChar d) = UInt8.ofNat (48 + d) := by
      intro d hd
      have : ∀ d : Fin 10, chr (Nat.digitChar d.val) = UInt8.ofNat (48 + d.val) := by decide
      exact this ⟨d, hd⟩
    by_cases h : p / 10 = 0
    · rw [if_pos h]
      have hp : p < 10 := by omega
      unfold decimal
      rw [Nat.toDigits_of_lt_base hp, Nat.mod_eq_of_lt hp]
      simp [hd p hp]
    · rw [if_neg h, ih _ (by omega)]
      unfold decimal
      rw [Nat.toDigits_of_base_le (by omega) (b := 10) (n := p) (by omega)]
      rw [List.map_append, List.append_assoc, List.map_cons, hd _ (by omega)]
      rfl

theorem iToString_append (i : Nat) (s : List UInt8) : iToString i s = s ++ iToString i [] := by
  unfold iToString
  by_cases h1 : i > 99
  · simp only [if_pos h1]
    by_cases h2 : i - i / 100 * 100 > 9
    · simp only [if_pos h2]; simp
    · simp only [if_neg h2]; simp
  · simp only [if_neg h1]
    by_cases h2 : i > 9
    · simp only [if_pos h2]; simp
    · simp only [if_neg h2]; simp

/-- Octets the text form gets right: those without a zero in the middle of three digits. -/
def GoodOctet (o : UInt8) : Prop := ¬ (100 ≤ o.toNat ∧ o.toNat % 100 < 10)

instance : DecidablePred GoodOctet := fun o => by unfold GoodOctet; infer_instance

theorem iToString_good : ∀ o : UInt8, GoodOctet o → iToString o.toNat [] = decimal o.toNat := by
  apply forall_u8
  unfold GoodOctet
  decide +kernel

theorem toIpv4_good (a b c d : UInt8) (r : List UInt8) (port : Nat) (ha : GoodOctet a) (hb : GoodOctet b) (hc : GoodOctet c)
    (hd : GoodOctet d) : toIpv4String (a :: b :: c :: d :: r) port = .ok (ipv4Text a b c d port) := by
  unfold toIpv4String ipv4Text
  simp only [rd, List.getElem?_cons_zero, List.getElem?_cons_succ, Res.bind_ok, Res.pure_eq]
  rw [portDigits_eq, iToString_append d.toNat, iToString_append c.toNat, iToString_append b.toNat, iToString_good a ha,
    iToString_good b hb, iToString_good c hc, iToString_good d hd]
  simp

end Net
end Verif
