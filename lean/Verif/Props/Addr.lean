import Verif.Proof.Addr

namespace Verif
open Net Dht Spec

/-! ## C52 -/

/-- C52: the compact form of any address, followed by anything, is read back as the same family, port
and address bytes, whatever the object held before; the two compare equal in both directions. -/
theorem C52_compact_round_trip (a old : Addr) (ha : a.bytes.length = 16) (hp : a.port < 65536) (ho : old.bytes.length = 16)
    (rest : List UInt8) :
    ∃ b, Addr.parse old (a.toData ++ rest) a.ipv6 = .ok (a.toData.length, b) ∧ b.ipv6 = a.ipv6 ∧ b.port = a.port ∧
      b.bytes.length = 16 ∧ b.bytes.take (Addr.size a.ipv6) = a.bytes.take (Addr.size a.ipv6) ∧ b.eq a = true ∧ a.eq b = true := by
  have hs := size_le a.ipv6
  have hl := take_len a a.ipv6 ha
  have hlen : a.toData.length = Addr.size a.ipv6 + 2 := by unfold Addr.toData; rw [List.length_append, hl]; rfl
  have ht : (a.toData ++ rest).take (Addr.size a.ipv6) = a.bytes.take (Addr.size a.ipv6) := by
    unfold Addr.toData; rw [List.append_assoc, List.take_left' hl]
  have hpd : ((a.toData ++ rest).drop (Addr.size a.ipv6)).take 2 = be16 a.port := by
    unfold Addr.toData; rw [List.append_assoc, List.drop_left' hl, List.take_left' (be16_length _)]
  refine ⟨⟨a.bytes.take (Addr.size a.ipv6) ++ old.bytes.drop (Addr.size a.ipv6), a.port, a.ipv6⟩, ?_, rfl, rfl, ?_, ?_, ?_, ?_⟩
  · unfold Addr.parse
    simp only
    rw [if_pos (by rw [List.length_append, hlen]; omega), ht, hpd, beVal_be16 _ hp, hlen, Nat.add_comm]
  · simp only [List.length_append, hl, List.length_drop, ho]; omega
  · simp only; rw [List.take_left' hl]
  · unfold Addr.eq; simp only; rw [List.take_left' hl]; simp
  · unfold Addr.eq; simp only; rw [List.take_left' hl]; simp

/-- C52, two or three addresses of one family: `==` is an equivalence meaning same port and same
address bytes, and `<` is a strict total order. Missing: addresses of different families, where it is
false. -/
theorem C52_order_partial (a b c : Addr) (ha : a.bytes.length = 16) (hb : b.bytes.length = 16) (hc : c.bytes.length = 16)
    (h1 : a.ipv6 = b.ipv6) (h2 : b.ipv6 = c.ipv6) :
    (a.eq b = true ↔ a.port = b.port ∧ a.bytes.take (Addr.size a.ipv6) = b.bytes.take (Addr.size a.ipv6)) ∧
    a.eq a = true ∧ (a.eq b = true → b.eq a = true) ∧ (a.eq b = true → b.eq c = true → a.eq c = true) ∧
    a.lt a = false ∧ (a.lt b = true → b.lt c = true → a.lt c = true) ∧ (a.lt b = true → b.lt a = false) ∧
    (a.lt b = true ∨ a.eq b = true ∨ b.lt a = true) ∧ (a.eq b = true → a.lt b = false) := by
  have h3 : a.ipv6 = c.ipv6 := h1.trans h2
  refine ⟨by unfold Addr.eq; simp, ?_⟩
  have e := eq_iff a b ha hb h1
  have e' := eq_iff b a hb ha h1.symm
  have l := lt_iff a b ha hb h1
  have l' := lt_iff b a hb ha h1.symm
  refine ⟨(eq_iff a a ha ha rfl).mpr rfl, ?_, ?_, ?_, ?_, ?_, ?_, ?_⟩
  · intro h; rw [e']; exact (e.mp h).symm
  · intro h h'; rw [eq_iff a c ha hc h3]; exact (e.mp h).trans ((eq_iff b c hb hc h2).mp h')
  · rw [← Bool.not_eq_true, lt_iff a a ha ha rfl]; omega
  · rw [l, lt_iff b c hb hc h2, lt_iff a c ha hc h3]; omega
  · intro h; rw [l] at h; rw [← Bool.not_eq_true, l']; omega
  · rw [l, e, l', Prod.ext_iff]; omega
  · intro h; rw [e, Prod.ext_iff] at h; rw [← Bool.not_eq_true, l]; omega

example : Addr.lt ⟨[1, 2, 3, 4] ++ List.replicate 12 9, 80, false⟩ ⟨[1, 2, 3, 5] ++ List.replicate 12 0, 80, false⟩ = true := by decide

/-- C52 is false across families: an IPv4 address equals an IPv6 address starting with the same bytes,
but not the other way round; and none of `<`, `==`, `>` holds starting from the IPv6 side. -/
theorem C52_families_violated :
    let v4 : Addr := ⟨[1, 2, 3, 4] ++ List.replicate 12 0, 80, false⟩
    let v6 : Addr := ⟨[1, 2, 3, 4] ++ List.replicate 12 7, 80, true⟩
    v4.eq v6 = true ∧ v6.eq v4 = false ∧ v6.lt v4 = false ∧ v4.lt v6 = false := by decide

/-! ## C55 -/

/-- C55, addresses without an octet 100–109 or 200–209: the text is the dotted decimal form with the
port. Missing: these octets, where it is false. -/
theorem C55_ipv4_text_partial (a b c d : UInt8) (rest : List UInt8) (port : Nat)
    (ha : GoodOctet a) (hb : GoodOctet b) (hc : GoodOctet c) (hd : GoodOctet d) :
    toIpv4String (a :: b :: c :: d :: rest) port = .ok (ipv4Text a b c d port) :=
  toIpv4_good a b c d rest port ha hb hc hd

example : toIpv4String [192, 168, 0, 10, 7] 51413 = .ok (ascii "192.168.0.10:51413") ∧ GoodOctet 192 ∧ GoodOctet 99 := by
  decide +kernel

/-- C55 is false for the other octets: 100–109 and 200–209 lose their middle digit, so different
addresses get the same text. -/
theorem C55_lost_digit_violated :
    (∀ o : UInt8, ¬ GoodOctet o → iToString o.toNat [] ≠ decimal o.toNat) ∧
    toIpv4String [10, 105, 0, 1] 80 = .ok (ascii "10.15.0.1:80") ∧ toIpv4String [10, 15, 0, 1] 80 = .ok (ascii "10.15.0.1:80") := by
  refine ⟨?_, by decide +kernel, by decide +kernel⟩
  apply forall_u8
  unfold GoodOctet
  decide +kernel

/-! ## C34 -/

/-- C34: the distance is the exclusive or of the ids read as 160-bit numbers, and `length` is its
binary logarithm rounded down (0 for distance 0). -/
theorem C34_distance (a b : Id) (ha : a.length = 20) (hb : b.length = 20) :
    (distance a b).length = 20 ∧ beVal (distance a b) = xorDistance a b ∧ Dht.length (distance a b) = Nat.log2 (xorDistance a b) ∧
    Dht.length (distance a b) < 160 ∧ (xorDistance a b = 0 ↔ a = b) := by
  have hx := distance_xor a b (ha.trans hb.symm)
  refine ⟨distance_length a b ha hb, hx, by rw [length_log2, hx], ?_, by rw [← hx]; exact distance_zero a b (ha.trans hb.symm)⟩
  rw [length_log2]
  have := beVal_lt (distance a b)
  rw [distance_length a b ha hb] at this
  by_cases h0 : beVal (distance a b) = 0
  · rw [h0]; decide
  · exact (Nat.log2_lt h0).mpr (Nat.lt_of_lt_of_le this (by decide))

/-- C34: comparing by closeness to a target is a strict order, for all ids. -/
theorem C34_strict_order (a b c t : Id) (ha : a.length = 20) (hb : b.length = 20) (hc : c.length = 20) (ht : t.length = 20) :
    closerThan a a t = false ∧ (closerThan a b t = true → closerThan b a t = false) ∧
    (closerThan a b t = true → closerThan b c t = true → closerThan a c t = true) := by
  have k : ∀ x y : Id, x.length = 20 → y.length = 20 →
      (closerThan x y t = true ↔ 2 ≤ beVal (distance x t) ∧ beVal (distance x t) < beVal (distance y t)) :=
    fun x y hx hy => closerTo_iff x _ t hx (distance_length y t hy ht) ht
  refine ⟨?_, ?_, ?_⟩
  · rw [← Bool.not_eq_true, k a a ha ha]; omega
  · rw [k a b ha hb, ← Bool.not_eq_true, k b a hb ha]; omega
  · rw [k a b ha hb, k b c hb hc, k a c ha hc]; omega

/-- C34, ids at distance at least 2: `closerThan` compares the XOR distances. Missing: the two ids
nearest to the target, where it is false. -/
theorem C34_consistent_partial (a b t : Id) (ha : a.length = 20) (hb : b.length = 20) (ht : t.length = 20)
    (hd : 2 ≤ xorDistance a t) : closerThan a b t = true ↔ xorDistance a t < xorDistance b t := by
  unfold closerThan
  rw [closerTo_iff a _ t ha (distance_length b t hb ht) ht, distance_xor a t (ha.trans ht.symm), distance_xor b t (hb.trans ht.symm)]
  simp [hd]

/-- C34: `operator<` orders ids as 160-bit numbers. -/
theorem C34_id_order (a b : Id) (ha : a.length = 20) (hb : b.length = 20) : idLt a b = true ↔ beVal a < beVal b :=
  lexLt_iff (ha.trans hb.symm)

example : closerThan (List.replicate 19 0 ++ [6]) (List.replicate 18 0 ++ [1, 0]) (List.replicate 20 0) = true := by decide +kernel

/-- C34 is false for the ids at distance 0 and 1, the target itself and its neighbour: they are never
closer than anything. -/
theorem C34_nearest_violated (a b t : Id) (ha : a.length = 20) (hb : b.length = 20) (ht : t.length = 20)
    (hd : xorDistance a t < 2) : closerThan a b t = false := by
  unfold closerThan
  rw [← Bool.not_eq_true, closerTo_iff a _ t ha (distance_length b t hb ht) ht, distance_xor a t (ha.trans ht.symm)]
  omega

example : xorDistance (List.replicate 19 3 ++ [1]) (List.replicate 19 3 ++ [0]) < 2 ∧
    xorDistance (List.replicate 19 3 ++ [1]) (List.replicate 19 3 ++ [0]) < xorDistance (List.replicate 20 255) (List.replicate 19 3 ++ [0]) := by
  decide

end Verif
