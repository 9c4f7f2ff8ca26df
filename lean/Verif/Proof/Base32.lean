import Verif.Proof.Encoding

namespace Verif.Encoding
open Verif

theorem b32Char_alpha : ∀ d : Fin 32,
    b32Char (Spec.b32Alpha.getD d.val 0) = some (some (UInt8.ofNat d.val)) := by
  decide +kernel

theorem b32Char_of_lt (d : Nat) (h : d < 32) :
    b32Char (Spec.b32Alpha.getD d 0) = some (some (UInt8.ofNat d)) := b32Char_alpha ⟨d, h⟩

theorem or_a : ∀ x y : Fin 32, ((UInt8.ofNat x.val <<< 3) ||| (UInt8.ofNat y.val >>> 2))
    = UInt8.ofNat (x.val * 8 + y.val / 4) := by decide +kernel
theorem or_b : ∀ x y : Fin 32, (((UInt8.ofNat x.val &&& 0x3) <<< 6) ||| (UInt8.ofNat y.val <<< 1))
    = UInt8.ofNat (x.val % 4 * 64 + y.val * 2) := by decide +kernel
theorem or_c : ∀ x y : Fin 32, (((UInt8.ofNat x.val &&& 0x0f) <<< 4) ||| ((UInt8.ofNat y.val &&& 0x1e) >>> 1))
    = UInt8.ofNat (x.val % 16 * 16 + y.val / 2) := by decide +kernel
theorem or_d : ∀ x y : Fin 32, (((UInt8.ofNat x.val &&& 0x01) <<< 7) ||| ((UInt8.ofNat y.val &&& 0x1f) <<< 2))
    = UInt8.ofNat (x.val % 2 * 128 + y.val * 4) := by decide +kernel
theorem or_e : ∀ x y : Fin 32, (((UInt8.ofNat x.val &&& 0x07) <<< 5) ||| UInt8.ofNat y.val)
    = UInt8.ofNat (x.val % 8 * 32 + y.val) := by decide +kernel
theorem or_b2 : ∀ x : Fin 128, ∀ y : Fin 32, (UInt8.ofNat (x.val * 2) ||| ((UInt8.ofNat y.val &&& 0x10) >>> 4))
    = UInt8.ofNat (x.val * 2 + y.val / 16) := by decide +kernel
theorem or_d2 : ∀ x : Fin 64, ∀ y : Fin 32, (UInt8.ofNat (x.val * 4) ||| ((UInt8.ofNat y.val &&& 0x18) >>> 3))
    = UInt8.ofNat (x.val * 4 + y.val / 8) := by decide +kernel

theorem b32Out_eq (g0 g1 g2 g3 g4 g5 g6 g7 : Nat) (h0 : g0 < 32) (h1 : g1 < 32) (h2 : g2 < 32)
    (h3 : g3 < 32) (h4 : g4 < 32) (h5 : g5 < 32) (h6 : g6 < 32) (h7 : g7 < 32) :
    b32Out ([g0, g1, g2, g3, g4, g5, g6, g7].map UInt8.ofNat) =
      [g0 * 8 + g1 / 4, g1 % 4 * 64 + g2 * 2 + g3 / 16, g3 % 16 * 16 + g4 / 2,
       g4 % 2 * 128 + g5 * 4 + g6 / 8, g6 % 8 * 32 + g7].map UInt8.ofNat := by
  have a := or_a ⟨g0, h0⟩ ⟨g1, h1⟩
  have b := or_b ⟨g1, h1⟩ ⟨g2, h2⟩
  have b2 := or_b2 ⟨g1 % 4 * 32 + g2, by omega⟩ ⟨g3, h3⟩
  have c := or_c ⟨g3, h3⟩ ⟨g4, h4⟩
  have d := or_d ⟨g4, h4⟩ ⟨g5, h5⟩
  have d2 := or_d2 ⟨g4 % 2 * 32 + g5, by omega⟩ ⟨g6, h6⟩
  have e := or_e ⟨g6, h6⟩ ⟨g7, h7⟩
  simp only at a b b2 c d d2 e
  rw [show (g1 % 4 * 32 + g2) * 2 = g1 % 4 * 64 + g2 * 2 by omega] at b2
  rw [show (g4 % 2 * 32 + g5) * 4 = g4 % 2 * 128 + g5 * 4 by omega] at d2
  simp only [b32Out, List.map_cons, List.map_nil, List.getD_cons_zero, List.getD_cons_succ]
  rw [a, b, b2, c, d, d2, e]

/-- Reading the significant digits of a group. -/
theorem b32Read_digits (ds : List Nat) (hd : ∀ d ∈ ds, d < 32) (rest : List UInt8)
    (j pad : Nat) :
    b32Read (ds.map (fun d => Spec.b32Alpha.getD d 0) ++ rest) j pad
      = (b32Read rest (j + ds.length) pad).map (fun r => (ds.map UInt8.ofNat ++ r.1, r.2)) := by
  induction ds generalizing j with
  | nil =>
    simp only [List.map_nil, List.nil_append, List.length_nil, Nat.add_zero]
    cases b32Read rest j pad <;> rfl
  | cons d ds ih =>
    simp only [List.map_cons, List.cons_append, b32Read,
      b32Char_of_lt d (hd d (by simp))]
    rw [ih (fun x hx => hd x (by simp [hx]))]
    simp only [List.length_cons, show j + 1 + ds.length = j + (ds.length + 1) by omega]
    cases b32Read rest (j + (ds.length + 1)) pad <;> rfl

theorem b32Read_pads (n j pad : Nat) (hj : 0 < j) :
    b32Read (List.replicate n (chr '=')) j pad
      = some (List.replicate n 0, if pad = 0 ∧ 0 < n then j else pad) := by
  induction n generalizing j pad with
  | zero => simp [b32Read]
  | succ n ih =>
    have hc : b32Char (chr '=') = some none := by decide
    simp only [List.replicate_succ, b32Read, hc]
    rw [ih _ _ (by omega)]
    by_cases hp : pad = 0
    · subst hp
      simp
      omega
    · simp [hp]

/-- The eight 5-bit digits of a five byte group. -/
def digits (b0 b1 b2 b3 b4 : Nat) : List Nat :=
  [b0 / 8, b0 % 8 * 4 + b1 / 64, b1 / 2 % 32, b1 % 2 * 16 + b2 / 16, b2 % 16 * 2 + b3 / 128,
   b3 / 4 % 32, b3 % 4 * 8 + b4 / 32, b4 % 32]

theorem digits_lt (b0 b1 b2 b3 b4 : Nat) (h0 : b0 < 256) (h1 : b1 < 256) (h2 : b2 < 256)
    (h3 : b3 < 256) (h4 : b4 < 256) : ∀ d ∈ digits b0 b1 b2 b3 b4, d < 32 := by
  simp only [digits, List.mem_cons, List.not_mem_nil, or_false]
  omega

theorem group_digits (b0 b1 b2 b3 b4 : UInt8) :
    ((List.range 8).map fun k =>
        Spec.b32Alpha.getD (beVal [b0, b1, b2, b3, b4] / 32 ^ (7 - k) % 32) 0)
      = (digits b0.toNat b1.toNat b2.toNat b3.toNat b4.toNat).map
          (fun d => Spec.b32Alpha.getD d 0) := by
  have h0 := b0.toNat_lt; have h1 := b1.toNat_lt; have h2 := b2.toNat_lt
  have h3 := b3.toNat_lt; have h4 := b4.toNat_lt
  generalize hn0 : b0.toNat = n0 at *
  generalize hn1 : b1.toNat = n1 at *
  generalize hn2 : b2.toNat = n2 at *
  generalize hn3 : b3.toNat = n3 at *
  generalize hn4 : b4.toNat = n4 at *
  have hN : beVal [b0, b1, b2, b3, b4]
      = n0 * 4294967296 + n1 * 16777216 + n2 * 65536 + n3 * 256 + n4 := by
    simp [beVal, hn0, hn1, hn2, hn3, hn4]; omega
  rw [hN]
  have e0 : (n0 * 4294967296 + n1 * 16777216 + n2 * 65536 + n3 * 256 + n4) / 34359738368 % 32 = n0 / 8 := by omega
  have e1 : (n0 * 4294967296 + n1 * 16777216 + n2 * 65536 + n3 * 256 + n4) / 1073741824 % 32 = n0 % 8 * 4 + n1 / 64 := by omega
  have e2 : (n0 * 4294967296 + n1 * 16777216 + n2 * 65536 + n3 * 256 + n4) / 33554432 % 32 = n1 / 2 % 32 := by omega
  have e3 : (n0 * 4294967296 + n1 * 16777216 + n2 * 65536 + n3 * 256 + n4) / 1048576 % 32 = n1 % 2 * 16 + n2 / 16 := by omega
  have e4 : (n0 * 4294967296 + n1 * 16777216 + n2 * 65536 + n3 * 256 + n4) / 32768 % 32 = n2 % 16 * 2 + n3 / 128 := by omega
  have e5 : (n0 * 4294967296 + n1 * 16777216 + n2 * 65536 + n3 * 256 + n4) / 1024 % 32 = n3 / 4 % 32 := by omega
  have e6 : (n0 * 4294967296 + n1 * 16777216 + n2 * 65536 + n3 * 256 + n4) / 32 % 32 = n3 % 4 * 8 + n4 / 32 := by omega
  have e7 : (n0 * 4294967296 + n1 * 16777216 + n2 * 65536 + n3 * 256 + n4) % 32 = n4 % 32 := by omega
  simp only [List.range, List.range.loop, List.map_cons, List.map_nil, digits,
    Nat.reduceSub, Nat.reducePow, Nat.div_one, e0, e1, e2, e3, e4, e5, e6, e7]

theorem out_digits (b0 b1 b2 b3 b4 : UInt8) :
    b32Out ((digits b0.toNat b1.toNat b2.toNat b3.toNat b4.toNat).map UInt8.ofNat)
      = [b0, b1, b2, b3, b4] := by
  have h0 := b0.toNat_lt; have h1 := b1.toNat_lt; have h2 := b2.toNat_lt
  have h3 := b3.toNat_lt; have h4 := b4.toNat_lt
  simp only [digits]
  rw [b32Out_eq _ _ _ _ _ _ _ _ (by omega) (by omega) (by omega) (by omega) (by omega) (by omega)
    (by omega) (by omega)]
  have key : ∀ (b : UInt8) (n : Nat), n = b.toNat → UInt8.ofNat n = b := by
    intro b n h; subst h; simp
  simp only [List.map_cons, List.map_nil]
  rw [key b0 _ (by omega), key b1 _ (by omega), key b2 _ (by omega), key b3 _ (by omega),
    key b4 _ (by omega)]

/-- A full group decodes to its five bytes. -/
theorem decode_full (b0 b1 b2 b3 b4 : UInt8) (rest : List UInt8) :
    base32decodeAux (Spec.b32Group [b0, b1, b2, b3, b4] ++ rest)
      = (base32decodeAux rest).map ([b0, b1, b2, b3, b4] ++ ·) := by
  have hg : Spec.b32Group [b0, b1, b2, b3, b4]
      = (digits b0.toNat b1.toNat b2.toNat b3.toNat b4.toNat).map
          (fun d => Spec.b32Alpha.getD d 0) := by
    rw [← group_digits]
    simp [Spec.b32Group]
    exact List.take_of_length_le (by simp)
  have hr := b32Read_digits (digits b0.toNat b1.toNat b2.toNat b3.toNat b4.toNat)
    (digits_lt _ _ _ _ _ b0.toNat_lt b1.toNat_lt b2.toNat_lt b3.toNat_lt b4.toNat_lt) [] 0 0
  have ho := out_digits b0 b1 b2 b3 b4
  rw [hg]
  have hlen : ((digits b0.toNat b1.toNat b2.toNat b3.toNat b4.toNat).map
          (fun d => Spec.b32Alpha.getD d 0)).length = 8 := by simp [digits]
  generalize hc : (digits b0.toNat b1.toNat b2.toNat b3.toNat b4.toNat).map
          (fun d => Spec.b32Alpha.getD d 0) = cs at *
  match cs, hlen with
  | c :: cs', hlen =>
    rw [List.cons_append, base32decodeAux]
    have ht : List.take 8 (c :: (cs' ++ rest)) = c :: cs' := by
      rw [← List.cons_append, List.take_append_of_le_length (by omega), List.take_of_length_le (by omega)]
    have hdrop : List.drop 8 (c :: (cs' ++ rest)) = rest := by
      rw [← List.cons_append, List.drop_append_of_le_length (by omega), List.drop_of_length_le (by omega)]
      rfl
    simp only [List.append_nil] at hr
    have hl8 : min 8 (c :: (cs' ++ rest)).length = 8 := by
      simp only [List.length_cons, List.length_append] at *; omega
    simp only [ht, hdrop, hl8, Nat.lt_irrefl, if_false, hr]
    simp only [b32Read, Option.map_some, List.append_nil, ho]
    cases base32decodeAux rest <;> rfl

theorem getD_append_zeros (l : List UInt8) (p k : Nat) :
    (l ++ List.replicate p 0).getD k 0 = l.getD k 0 := by
  simp only [List.getD_eq_getElem?_getD, List.getElem?_append, List.getElem?_replicate]
  split
  · rfl
  · rename_i h
    rw [List.getElem?_eq_none (by omega)]
    split <;> rfl

theorem b32Out_zeros (l : List UInt8) (p : Nat) : b32Out (l ++ List.replicate p 0) = b32Out l := by
  simp only [b32Out, getD_append_zeros]

/-- A short last group, padded or not. -/
theorem decode_short (ds : List Nat) (hd : ∀ d ∈ ds, d < 32) (p : Nat) (h0 : 0 < ds.length)
    (h8 : ds.length < 8) (hp : p = 0 ∨ ds.length + p = 8) :
    base32decodeAux (ds.map (fun d => Spec.b32Alpha.getD d 0) ++ List.replicate p (chr '='))
      = some ((b32Out (ds.map UInt8.ofNat)).take (b32Map.getD ds.length 0)) := by
  have hr := b32Read_digits ds hd (List.replicate p (chr '=')) 0 (if ds.length + p < 8 then ds.length + p else 0)
  rw [b32Read_pads _ _ _ (by omega)] at hr
  have hlen : (ds.map (fun d => Spec.b32Alpha.getD d 0) ++ List.replicate p (chr '=')).length
      = ds.length + p := by simp
  generalize hc : ds.map (fun d => Spec.b32Alpha.getD d 0) ++ List.replicate p (chr '=') = cs at *
  match cs, hlen with
  | [], hlen => simp at hlen; omega
  | c :: cs', hlen =>
    rw [base32decodeAux]
    have ht : List.take 8 (c :: cs') = c :: cs' := List.take_of_length_le (by omega)
    have hdrop : List.drop 8 (c :: cs') = [] := List.drop_of_length_le (by omega)
    have hl8 : min 8 (c :: cs').length = ds.length + p := by omega
    simp only [ht, hdrop, hl8, hr, Option.map_some, base32decodeAux, b32Out_zeros, List.append_nil,
      Nat.zero_add]
    have : (if (if ds.length + p < 8 then ds.length + p else 0) = 0 ∧ 0 < p then ds.length
        else if ds.length + p < 8 then ds.length + p else 0) = ds.length := by
      rcases hp with hp | hp
      · subst hp; simp [h8]
      · simp [hp]; omega
    rw [this]

theorem tail_digits (b0 b1 b2 b3 : UInt8) (n : Nat) (hn : n = 1 ∨ n = 2 ∨ n = 3 ∨ n = 4) :
    ∃ ds : List Nat, (∀ d ∈ ds, d < 32) ∧ ds.length = (8 * n + 4) / 5 ∧
      Spec.b32Group ([b0, b1, b2, b3].take n) = ds.map (fun d => Spec.b32Alpha.getD d 0) ∧
      (b32Out (ds.map UInt8.ofNat)).take (b32Map.getD ds.length 0) = [b0, b1, b2, b3].take n := by
  have zt : (0 : UInt8).toNat = 0 := rfl
  rcases hn with rfl | rfl | rfl | rfl
  · have g := group_digits b0 0 0 0 0
    have o := out_digits b0 0 0 0 0
    have d := digits_lt b0.toNat 0 0 0 0 b0.toNat_lt (by omega) (by omega) (by omega) (by omega)
    rw [zt] at g o
    refine ⟨(digits b0.toNat 0 0 0 0).take 2, fun x hx => d x (List.mem_of_mem_take hx), by simp [digits], ?_, ?_⟩
    · rw [List.map_take, ← g]; simp [Spec.b32Group, List.replicate]
    · have e : (digits b0.toNat 0 0 0 0).map UInt8.ofNat
          = ((digits b0.toNat 0 0 0 0).take 2).map UInt8.ofNat ++ List.replicate 6 0 := by
        simp [digits]
      rw [e, b32Out_zeros] at o
      rw [o]; simp [digits, b32Map]
  · have g := group_digits b0 b1 0 0 0
    have o := out_digits b0 b1 0 0 0
    have d := digits_lt b0.toNat b1.toNat 0 0 0 b0.toNat_lt b1.toNat_lt (by omega) (by omega) (by omega)
    rw [zt] at g o
    refine ⟨(digits b0.toNat b1.toNat 0 0 0).take 4, fun x hx => d x (List.mem_of_mem_take hx), by simp [digits], ?_, ?_⟩
    · rw [List.map_take, ← g]; simp [Spec.b32Group, List.replicate]
    · have e : (digits b0.toNat b1.toNat 0 0 0).map UInt8.ofNat
          = ((digits b0.toNat b1.toNat 0 0 0).take 4).map UInt8.ofNat ++ List.replicate 4 0 := by
        simp [digits]
      rw [e, b32Out_zeros] at o
      rw [o]; simp [digits, b32Map]
  · have g := group_digits b0 b1 b2 0 0
    have o := out_digits b0 b1 b2 0 0
    have d := digits_lt b0.toNat b1.toNat b2.toNat 0 0 b0.toNat_lt b1.toNat_lt b2.toNat_lt (by omega) (by omega)
    rw [zt] at g o
    refine ⟨(digits b0.toNat b1.toNat b2.toNat 0 0).take 5, fun x hx => d x (List.mem_of_mem_take hx), by simp [digits], ?_, ?_⟩
    · rw [List.map_take, ← g]; simp [Spec.b32Group, List.replicate]
    · have e : (digits b0.toNat b1.toNat b2.toNat 0 0).map UInt8.ofNat
          = ((digits b0.toNat b1.toNat b2.toNat 0 0).take 5).map UInt8.ofNat ++ List.replicate 3 0 := by
        simp [digits]
      rw [e, b32Out_zeros] at o
      rw [o]; simp [digits, b32Map]
  · have g := group_digits b0 b1 b2 b3 0
    have o := out_digits b0 b1 b2 b3 0
    have d := digits_lt b0.toNat b1.toNat b2.toNat b3.toNat 0 b0.toNat_lt b1.toNat_lt b2.toNat_lt b3.toNat_lt (by omega)
    rw [zt] at g o
    refine ⟨(digits b0.toNat b1.toNat b2.toNat b3.toNat 0).take 7, fun x hx => d x (List.mem_of_mem_take hx), by simp [digits], ?_, ?_⟩
    · rw [List.map_take, ← g]; simp [Spec.b32Group, List.replicate]
    · have e : (digits b0.toNat b1.toNat b2.toNat b3.toNat 0).map UInt8.ofNat
          = ((digits b0.toNat b1.toNat b2.toNat b3.toNat 0).take 7).map UInt8.ofNat ++ List.replicate 1 0 := by
        simp [digits]
      rw [e, b32Out_zeros] at o
      rw [o]; simp [digits, b32Map]

theorem decode_encode (bs : List UInt8) (p : Nat) (hp : p = 0 ∨ p = Spec.b32Pad bs.length) :
    base32decodeAux (Spec.b32Encode bs ++ List.replicate p (chr '=')) = some bs := by
  induction bs using Spec.b32Encode.induct with
  | case1 =>
    have : p = 0 := by rcases hp with h | h <;> simpa [Spec.b32Pad] using h
    subst this
    simp [Spec.b32Encode, base32decodeAux]
  | case2 b bs ih =>
    match bs, ih, hp with
    | b1 :: b2 :: b3 :: b4 :: rest, ih, hp =>
      have hp' : p = 0 ∨ p = Spec.b32Pad rest.length := by
        have e : (rest.length + 1 + 1 + 1 + 1 + 1) % 5 = rest.length % 5 := by omega
        simpa only [Spec.b32Pad, List.length_cons, e] using hp
      have := ih (by simpa using hp')
      rw [Spec.b32Encode]
      simp only [List.take_succ_cons, List.take_zero, List.drop_succ_cons, List.drop_zero] at *
      rw [List.append_assoc, decode_full, this]
      rfl
    | [], ih, hp =>
      obtain ⟨ds, h1, h2, h3, h4⟩ := tail_digits b 0 0 0 1 (by simp)
      rw [Spec.b32Encode]
      simp only [List.take_succ_cons, List.take_zero, List.take_nil, List.drop_succ_cons, List.drop_nil] at *
      rw [h3, Spec.b32Encode, List.append_nil, decode_short ds h1 p (by omega) (by omega), h4]
      rcases hp with h | h
      · exact Or.inl h
      · right; rw [h2, h]; rfl
    | [b1], ih, hp =>
      obtain ⟨ds, h1, h2, h3, h4⟩ := tail_digits b b1 0 0 2 (by simp)
      rw [Spec.b32Encode]
      simp only [List.take_succ_cons, List.take_zero, List.take_nil, List.drop_succ_cons, List.drop_nil] at *
      rw [h3, Spec.b32Encode, List.append_nil, decode_short ds h1 p (by omega) (by omega), h4]
      rcases hp with h | h
      · exact Or.inl h
      · right; rw [h2, h]; rfl
    | [b1, b2], ih, hp =>
      obtain ⟨ds, h1, h2, h3, h4⟩ := tail_digits b b1 b2 0 3 (by simp)
      rw [Spec.b32Encode]
      simp only [List.take_succ_cons, List.take_zero, List.take_nil, List.drop_succ_cons, List.drop_nil] at *
      rw [h3, Spec.b32Encode, List.append_nil, decode_short ds h1 p (by omega) (by omega), h4]
      rcases hp with h | h
      · exact Or.inl h
      · right; rw [h2, h]; rfl
    | [b1, b2, b3], ih, hp =>
      obtain ⟨ds, h1, h2, h3, h4⟩ := tail_digits b b1 b2 b3 4 (by simp)
      rw [Spec.b32Encode]
      simp only [List.take_succ_cons, List.take_zero, List.take_nil, List.drop_succ_cons, List.drop_nil] at *
      rw [h3, Spec.b32Encode, List.append_nil, decode_short ds h1 p (by omega) (by omega), h4]
      rcases hp with h | h
      · exact Or.inl h
      · right; rw [h2, h]; rfl

/-! Case insensitivity -/

theorem b32Char_lower : ∀ c : UInt8, b32Char (Spec.lower c) = b32Char c :=
  forall_u8 (by decide +kernel)

theorem b32Read_lower (s : List UInt8) (j pad : Nat) :
    b32Read (s.map Spec.lower) j pad = b32Read s j pad := by
  induction s generalizing j pad with
  | nil => rfl
  | cons c s ih => simp only [List.map_cons, b32Read, b32Char_lower, ih]

theorem decodeAux_lower (s : List UInt8) :
    base32decodeAux (s.map Spec.lower) = base32decodeAux s := by
  induction s using base32decodeAux.induct with
  | case1 => rfl
  | case2 c cs s avail pad h =>
    rw [List.map_cons, base32decodeAux, base32decodeAux, ← List.map_cons, ← List.map_take, ← List.map_drop, b32Read_lower]
    simp_all [s, avail, pad]
  | case3 c cs s avail pad inbuf pad' hr hd ih =>
    rw [List.map_cons, base32decodeAux, base32decodeAux, ← List.map_cons, ← List.map_take, ← List.map_drop, b32Read_lower]
    simp_all [s, avail, pad]
  | case4 c cs s avail pad inbuf pad' hr rest hd ih =>
    rw [List.map_cons, base32decodeAux, base32decodeAux, ← List.map_cons, ← List.map_take, ← List.map_drop, b32Read_lower]
    simp_all [s, avail, pad]

end Verif.Encoding
