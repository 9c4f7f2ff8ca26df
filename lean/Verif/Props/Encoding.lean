import Verif.Proof.Base32
import Verif.Proof.RC4

/-! C05 hex, C06 base32, C07 URL escapes, C26 RC4. -/

namespace Verif
open Encoding

/-! ### C05 -/

/-- Rendering any bytes as hex and decoding the text returns the bytes. -/
theorem C05_hex_roundtrip (bs : List UInt8) :
    decodeHexa (hexToString bs) bs.length = .ok (some bs) := by
  unfold decodeHexa
  rw [hexToString_all, if_pos rfl]
  have := decodeHexaLoop_append [] bs 0 rfl
  simp only [List.nil_append] at this
  rw [this]; rfl

/-- Decoding does not depend on the letter case. -/
theorem C05_hex_case_insensitive (s t : List UInt8) (n : Nat)
    (h : s.map Spec.lower = t.map Spec.lower) : decodeHexa s n = decodeHexa t n := by
  have key : ∀ u : List UInt8, decodeHexa (u.map Spec.lower) n = decodeHexa u n := by
    intro u
    unfold decodeHexa
    have : (u.map Spec.lower).all isHexa = u.all isHexa := by
      rw [List.all_map]; congr 1; funext c; exact isHexa_lower c
    rw [this]
    split
    · rename_i hu; rw [decodeHexaLoop_lower u hu]
    · rfl
  rw [← key s, h, key t]

/-- Decoding `size` bytes from at least `2*size` characters is always defined: it either rejects
the text because of a character that is not a hex digit, or produces `size` bytes. -/
theorem C05_hex_defined (s : List UInt8) (size : Nat) (h : 2 * size ≤ s.length) :
    (∃ c ∈ s, ¬ (c ∈ ascii "0123456789abcdefABCDEF")) ∧ decodeHexa s size = .ok none ∨
    ∃ out, out.length = size ∧ decodeHexa s size = .ok (some out) := by
  have tab : ∀ c : UInt8, isHexa c = false → ¬ (c ∈ ascii "0123456789abcdefABCDEF") :=
    forall_u8 (by decide +kernel)
  unfold decodeHexa
  by_cases hs : s.all isHexa = true
  · right
    obtain ⟨out, ho, hl⟩ := decodeHexaLoop_defined s size 0 (by simpa using h)
    exact ⟨out, hl, by rw [if_pos hs, ho]; rfl⟩
  · left
    rw [if_neg hs]
    refine ⟨?_, rfl⟩
    simp only [List.all_eq_true] at hs
    simp only [Classical.not_forall] at hs
    obtain ⟨c, hc, hn⟩ := hs
    exact ⟨c, hc, tab c (by simpa using hn)⟩

/-- The precondition is needed: shorter text is read out of bounds. -/
theorem C05_hex_short_is_ub : decodeHexa (ascii "ab") 20 = .ub := by decide

example : hexToString [0x00, 0xAF, 0x5c] = ascii "00AF5C" := by decide
example : decodeHexa (ascii "00aF5c") 3 = .ok (some [0x00, 0xAF, 0x5c]) := by decide
example : 2 * 3 ≤ (ascii "00AF5C").length := by decide

/-! ### C06 -/

/-- Decoding the RFC 4648 base32 text of any byte string, with or without padding, returns it. -/
theorem C06_base32_inverts (bs : List UInt8) (p : Nat) (hp : p = 0 ∨ p = Spec.b32Pad bs.length) :
    base32decode (Spec.b32Encode bs ++ List.replicate p (chr '=')) = bs := by
  unfold base32decode
  rw [decode_encode bs p hp]

/-- Decoding does not depend on the letter case. -/
theorem C06_base32_case_insensitive (s t : List UInt8)
    (h : s.map Spec.lower = t.map Spec.lower) : base32decode s = base32decode t := by
  unfold base32decode
  rw [← decodeAux_lower s, h, decodeAux_lower t]

example : Spec.b32Encode (ascii "foobar") = ascii "MZXW6YTBOI" := by decide +kernel
example : Spec.b32Pad (ascii "foobar").length = 6 := by decide
example : base32decode (ascii "mzxw6ytboi======") = ascii "foobar" := by decide +kernel

/-! ### C07 -/

/-- URL-decoding the URL-encoding of any bytes returns the bytes. -/
theorem C07_url_roundtrip (bs : List UInt8) : urlDecode (urlEncode bs) = .ok bs :=
  urlDecodeAux_encode bs none

/-- The encoded form is a sequence of alphanumeric characters and `%XX` escapes. -/
inductive UrlText : List UInt8 → Prop where
  | nil : UrlText []
  | plain (c s) : c ∈ ascii "0123456789ABCDEFGHIJKLMNOPQRSTUVWXYZabcdefghijklmnopqrstuvwxyz" →
      UrlText s → UrlText (c :: s)
  | esc (h l s) : h ∈ ascii "0123456789ABCDEF" → l ∈ ascii "0123456789ABCDEF" →
      UrlText s → UrlText (chr '%' :: h :: l :: s)

theorem C07_url_charset (bs : List UInt8) : UrlText (urlEncode bs) := by
  have t1 : ∀ c : UInt8, urlPlain c = true → c ∈ ascii "0123456789ABCDEFGHIJKLMNOPQRSTUVWXYZabcdefghijklmnopqrstuvwxyz" :=
    forall_u8 (by decide +kernel)
  have t2 : ∀ c : UInt8, hexChar ((c &&& 0xF0) >>> 4) ∈ ascii "0123456789ABCDEF" ∧
      hexChar (c &&& 0x0F) ∈ ascii "0123456789ABCDEF" := forall_u8 (by decide +kernel)
  induction bs with
  | nil => exact .nil
  | cons c bs ih =>
    simp only [urlEncode, List.flatMap_cons]
    split
    · rename_i h; exact .plain c _ (t1 c h) ih
    · exact .esc _ _ _ (t2 c).1 (t2 c).2 ih

/-- Every well-formed URL-encoded text (not only our own) is decoded to what it means. -/
theorem C07_url_decode_means (s v : List UInt8) (h : Spec.UrlMeans s v) : urlDecode s = .ok v :=
  url_decode_means s v h

example : Spec.UrlMeans (ascii "a+%2f") (ascii "a /") :=
  .raw _ _ _ (by decide) (by decide) (.plus _ _ (.esc 2 15 _ _ _ _ (by decide) (by decide) .nil))
example : urlEncode [0x61, 0x00, 0x7E, 0x20] = ascii "a%00%7E%20" := by decide
example : urlDecode (ascii "a+b%2F") = .ok (ascii "a b/") := by decide +kernel

/-! ### C26 -/

/-- The cipher's `skip` followed by any number of writes; returns the concatenated output. -/
def rc4Run (s : RC4.State) : List (List UInt8) → List UInt8
  | [] => []
  | c :: cs => (RC4.decode s c).2 ++ rc4Run (RC4.decode s c).1 cs

theorem rc4Run_eq (key : List UInt8) (chunks : List (List UInt8)) (n : Nat) (s : RC4.State)
    (h : RC4.RelS s (Spec.rc4Gen key n)) :
    rc4Run s chunks
      = chunks.flatten.mapIdx (fun i c => c ^^^ UInt8.ofNat (Spec.rc4Byte key (n + i))) := by
  induction chunks generalizing n s with
  | nil => rfl
  | cons c cs ih =>
    have hd := RC4.decode_rel key c n s h
    rw [rc4Run, ih _ _ hd.1, hd.2, List.flatten_cons, List.mapIdx_append]
    congr 1
    simp only [Nat.add_assoc, Nat.add_comm c.length]

/-- The produced stream is the textbook RC4 stream: the `i`-th byte (over all chunks) is xored
with key stream byte `skipped + i`, the key being the first 256 bytes given. -/
theorem C26_rc4_is_textbook (key : List UInt8) (s : RC4.State) (hs : RC4.init key = .ok s)
    (skipped : Nat) (chunks : List (List UInt8)) :
    rc4Run (RC4.skip s skipped) chunks = chunks.flatten.mapIdx (fun i c =>
      c ^^^ UInt8.ofNat (Spec.rc4Byte (key.take 256) (skipped + i))) := by
  have h := RC4.skip_rel _ skipped 0 s (RC4.init_rel key s hs)
  rw [Nat.zero_add] at h
  exact rc4Run_eq _ chunks skipped _ h

/-- Two ends with the same key and the same number of skipped bytes: however the plaintext is cut
into writes and the ciphertext into reads, the receiver sees the plaintext. -/
theorem C26_rc4_roundtrip (key : List UInt8) (s : RC4.State) (hs : RC4.init key = .ok s)
    (skipped : Nat) (writes reads : List (List UInt8))
    (wire : reads.flatten = rc4Run (RC4.skip s skipped) writes) :
    rc4Run (RC4.skip s skipped) reads = writes.flatten := by
  rw [C26_rc4_is_textbook key s hs, wire, C26_rc4_is_textbook key s hs]
  apply List.ext_getElem (by simp)
  intro i h1 h2
  simp [UInt8.xor_assoc]

/-- Every non-empty key initialises. -/
theorem C26_rc4_init (key : List UInt8) (h : key ≠ []) : ∃ s, RC4.init key = .ok s := by
  refine ⟨_, if_neg ?_⟩
  cases key with
  | nil => exact absurd rfl h
  | cons a l => simp

-- Known answer (a test, not a proof): key "Key", plaintext "Plaintext".
example : (match RC4.init (ascii "Key") with
    | .ok s => (RC4.decode s (ascii "Plaintext")).2
    | _ => []) = [0xBB, 0xF3, 0x16, 0xE8, 0xD9, 0x40, 0xAF, 0x0A, 0xD3] := by decide +kernel

end Verif
