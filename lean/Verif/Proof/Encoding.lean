import Verif.Model.Encoding
import Verif.Spec.Magnet

namespace Verif.Encoding
open Verif

theorem hexChar_isHexa_hi : ∀ b : UInt8, isHexa (hexChar (b >>> 4)) = true :=
  forall_u8 (by decide +kernel)
theorem hexChar_isHexa_lo : ∀ b : UInt8, isHexa (hexChar (b &&& 0xf)) = true :=
  forall_u8 (by decide +kernel)
theorem hex_join : ∀ b : UInt8,
    (fromHexa (hexChar (b >>> 4)) <<< 4) + fromHexa (hexChar (b &&& 0xf)) = b :=
  forall_u8 (by decide +kernel)

theorem hexToString_length (bs : List UInt8) : (hexToString bs).length = 2 * bs.length := by
  induction bs with
  | nil => rfl
  | cons b bs ih =>
    simp only [hexToString, List.flatMap_cons, List.length_append, List.length_cons,
      List.length_nil] at *
    omega

theorem hexToString_all (bs : List UInt8) : (hexToString bs).all isHexa = true := by
  induction bs with
  | nil => rfl
  | cons b bs ih =>
    simp only [hexToString, List.flatMap_cons, List.all_append, List.all_cons, List.all_nil,
      hexChar_isHexa_hi, hexChar_isHexa_lo, Bool.and_true] at *
    exact ih

/-- The decoding loop on two characters per byte, with a prefix already passed. -/
theorem decodeHexaLoop_append (pre bs : List UInt8) (k : Nat) (hk : pre.length = 2 * k) :
    decodeHexaLoop (pre ++ hexToString bs) k bs.length = .ok bs := by
  induction bs generalizing pre k with
  | nil => simp [decodeHexaLoop]
  | cons b bs ih =>
    have e : pre ++ hexToString (b :: bs)
        = (pre ++ [hexChar (b >>> 4), hexChar (b &&& 0xf)]) ++ hexToString bs := by
      simp [hexToString, List.flatMap_cons]
    have h1 : strAt (pre ++ hexToString (b :: bs)) (k * 2) = .ok (hexChar (b >>> 4)) := by
      have hl := hexToString_length (b :: bs)
      simp only [List.length_cons] at hl
      unfold strAt
      rw [if_pos (by simp only [List.length_append]; omega)]
      unfold rd
      rw [List.getElem?_append_right (by omega)]
      rw [show k * 2 - pre.length = 0 by omega]
      simp [hexToString, List.flatMap_cons]
    have h2 : strAt (pre ++ hexToString (b :: bs)) (k * 2 + 1) = .ok (hexChar (b &&& 0xf)) := by
      have hl := hexToString_length (b :: bs)
      simp only [List.length_cons] at hl
      unfold strAt
      rw [if_pos (by simp only [List.length_append]; omega)]
      unfold rd
      rw [List.getElem?_append_right (by omega)]
      rw [show k * 2 + 1 - pre.length = 1 by omega]
      simp [hexToString, List.flatMap_cons]
    have h3 := ih (pre ++ [hexChar (b >>> 4), hexChar (b &&& 0xf)]) (k + 1)
      (by simp; omega)
    rw [← e] at h3
    simp only [List.length_cons, decodeHexaLoop, h1, h2, h3, Res.bind_ok, Res.pure_eq, hex_join]

theorem isHexa_lower : ∀ c : UInt8, isHexa (Spec.lower c) = isHexa c :=
  forall_u8 (by decide +kernel)
theorem fromHexa_lower : ∀ c : UInt8, isHexa c = true → fromHexa (Spec.lower c) = fromHexa c :=
  forall_u8 (by decide +kernel)

theorem strAt_map_lower (s : List UInt8) (i : Nat) :
    strAt (s.map Spec.lower) i = Res.map' Spec.lower (strAt s i) := by
  unfold strAt rd
  simp only [List.length_map, List.getElem?_map]
  split
  · rename_i h; simp [List.getElem?_eq_getElem h]
  · split
    · rfl
    · rfl

theorem strAt_hexa {s : List UInt8} (hs : s.all isHexa = true) {i : Nat} {c : UInt8}
    (h : strAt s i = .ok c) : fromHexa (Spec.lower c) = fromHexa c := by
  unfold strAt rd at h
  split at h
  · rename_i hi
    rw [List.getElem?_eq_getElem hi] at h
    injection h with h
    subst h
    exact fromHexa_lower _ (List.all_eq_true.mp hs _ (List.getElem_mem hi))
  · split at h
    · injection h with h; subst h; decide
    · cases h

theorem decodeHexaLoop_lower (s : List UInt8) (hs : s.all isHexa = true) (n : Nat) (i : Nat) :
    decodeHexaLoop (s.map Spec.lower) i n = decodeHexaLoop s i n := by
  induction n generalizing i with
  | zero => rfl
  | succ n ih =>
    simp only [decodeHexaLoop, strAt_map_lower, ih]
    cases h1 : strAt s (i * 2) with
    | ub => rfl
    | diverge => rfl
    | ok f =>
      cases h2 : strAt s (i * 2 + 1) with
      | ub => rfl
      | diverge => rfl
      | ok c => simp [strAt_hexa hs h1, strAt_hexa hs h2]

theorem decodeHexaLoop_defined (s : List UInt8) (n i : Nat) (h : 2 * (i + n) ≤ s.length) :
    ∃ out, decodeHexaLoop s i n = .ok out ∧ out.length = n := by
  induction n generalizing i with
  | zero => exact ⟨[], rfl, rfl⟩
  | succ n ih =>
    obtain ⟨out, ho, hl⟩ := ih (i + 1) (by omega)
    refine ⟨((fromHexa s[i*2] <<< 4) + fromHexa s[i*2+1]) :: out, ?_, by simp [hl]⟩
    simp [decodeHexaLoop, ho, strAt, show i * 2 < s.length by omega,
      show i * 2 + 1 < s.length by omega, rd]

/-! URL -/

theorem isHexa_ne_zero : ∀ c : UInt8, isHexa c = true → c ≠ 0 := forall_u8 (by decide +kernel)

theorem url_plain_ne : ∀ c : UInt8, urlPlain c = true → c ≠ chr '%' ∧ c ≠ chr '+' :=
  forall_u8 (by decide +kernel)

theorem url_hi_lo : ∀ c : UInt8,
    hexChar ((c &&& 0xF0) >>> 4) ≠ 0 ∧ hexChar (c &&& 0x0F) ≠ 0 ∧
    scanHex [hexChar ((c &&& 0xF0) >>> 4), hexChar (c &&& 0x0F)] = some c.toNat :=
  forall_u8 (by decide +kernel)

theorem urlDecodeAux_encode (bs : List UInt8) (ii : Option Nat) :
    urlDecodeAux ii (urlEncode bs) = .ok bs := by
  induction bs generalizing ii with
  | nil => simp [urlEncode, urlDecodeAux]
  | cons c bs ih =>
    have e : urlEncode (c :: bs) = (if urlPlain c then [c]
        else [chr '%', hexChar ((c &&& 0xF0) >>> 4), hexChar (c &&& 0x0F)]) ++ urlEncode bs := by
      simp [urlEncode, List.flatMap_cons]
    rw [e]
    split
    · rename_i h
      have ⟨h1, h2⟩ := url_plain_ne c h
      simp only [List.cons_append, List.nil_append]
      rw [urlDecodeAux, if_pos h1, ih]
      simp [h2]
    · obtain ⟨h1, h2, h3⟩ := url_hi_lo c
      simp only [List.cons_append, List.nil_append]
      rw [urlDecodeAux, if_neg (by simp)]
      simp only [List.take_succ_cons, List.take_zero, List.drop_succ_cons, List.drop_zero,
        List.takeWhile_cons, List.takeWhile_nil]
      simp only [h1, h2, ne_eq, not_false_eq_true, decide_true, if_true, h3, ih]
      simp

theorem url_decode_means (s v : List UInt8) (h : Spec.UrlMeans s v) : urlDecode s = .ok v := by
  have tab : ∀ x : Fin 16, ∀ c ∈ [(ascii "0123456789ABCDEF")[x.val]?, (ascii "0123456789abcdef")[x.val]?].filterMap id,
      hexDigit? c = some x.val ∧ c ≠ 0 := by decide +kernel
  suffices ∀ ii, urlDecodeAux ii s = .ok v from this none
  induction h with
  | nil => intro ii; rw [urlDecodeAux]
  | raw c s v h1 h2 _ ih =>
    intro ii
    rw [urlDecodeAux]
    simp [h1, h2, ih ii]
  | plus s v _ ih =>
    intro ii
    rw [urlDecodeAux]
    have : chr '+' ≠ chr '%' := by decide
    simp [this, ih ii]
    decide
  | esc x y h l s v hh hl _ ih =>
    intro ii
    obtain ⟨a1, a2⟩ := tab x h hh
    obtain ⟨b1, b2⟩ := tab y l hl
    rw [urlDecodeAux]
    have : scanHex (List.takeWhile (fun x => decide (x ≠ 0)) ([h, l])) = some (x.val * 16 + y.val) := by
      simp [a2, b2, scanHex, a1, b1]
    simp only [ne_eq, not_true_eq_false, if_false, List.take_succ_cons, List.take_zero, List.drop_succ_cons, List.drop_zero]
    simp only [ne_eq] at this
    rw [this]
    simp [ih]


end Verif.Encoding
