import Verif.Spec.HttpComm
/-! Requests to trackers over HTTP and HTTPS. -/

namespace Verif.HttpComm
open Verif Verif.Http Verif.Encoding Verif.Spec Verif.Spec.HttpComm

/-! ### The request -/

theorem cut_append (c : UInt8) (a b : List UInt8) (h : c ∉ a) : cut c (a ++ c :: b) = (a, b) := by
  unfold cut
  have h1 : ∀ x ∈ a, (x != c) = true := by
    intro x hx
    simp only [bne_iff_ne]
    rintro rfl
    exact h hx
  rw [List.takeWhile_append_of_pos h1, List.dropWhile_append_of_pos h1]
  simp

theorem parts_cons (c : UInt8) (a b : List UInt8) (h : c ∉ a) : parts c (a ++ c :: b) = a :: parts c b := by
  induction a with
  | nil => simp [parts]
  | cons x a ih =>
    simp only [List.mem_cons, not_or] at h
    rw [List.cons_append, parts, if_neg (fun e => h.1 e.symm), ih h.2]

theorem parts_last (c : UInt8) (a : List UInt8) (h : c ∉ a) : parts c a = [a] := by
  induction a with
  | nil => simp [parts]
  | cons x a ih =>
    simp only [List.mem_cons, not_or] at h
    rw [parts, if_neg (fun e => h.1 e.symm), ih h.2]

/-- The parts with a `c` between them. -/
def glue (c : UInt8) : List (List UInt8) → List UInt8
  | [] => []
  | [a] => a
  | a :: b :: l => a ++ c :: glue c (b :: l)

theorem parts_glue (c : UInt8) : ∀ (a : List UInt8) (l : List (List UInt8)), (∀ x ∈ a :: l, c ∉ x) → parts c (glue c (a :: l)) = a :: l
  | a, [], h => parts_last c a (h a (by simp))
  | a, b :: l, h => by
    rw [glue, parts_cons c a _ (h a (by simp)), parts_glue c b l (fun x hx => h x (List.mem_cons_of_mem _ hx))]

theorem not_mem_glue (c d : UInt8) (hd : d ≠ c) : ∀ l : List (List UInt8), (∀ x ∈ l, d ∉ x) → d ∉ glue c l
  | [], _ => by simp [glue]
  | [a], h => h a (by simp)
  | a :: b :: l, h => by
    rw [glue, List.mem_append, List.mem_cons]
    rintro (h1 | h1 | h1)
    · exact h a (by simp) h1
    · exact hd h1
    · exact not_mem_glue c d hd (b :: l) (fun x hx => h x (List.mem_cons_of_mem _ hx)) h1

/-- The bytes of encoded texts and numbers. -/
def plainByte (c : UInt8) : Bool := (48 ≤ c && c ≤ 57) || (65 ≤ c && c ≤ 90) || (97 ≤ c && c ≤ 122) || c == 37 || c == 95

theorem plain_url (bs : List UInt8) : ∀ c ∈ urlEncode bs, plainByte c = true := by
  intro c hc
  simp only [urlEncode, List.mem_flatMap] at hc
  obtain ⟨a, -, hc⟩ := hc
  have t1 : ∀ c : UInt8, urlPlain c = true → plainByte c = true := forall_u8 (by decide +kernel)
  have t2 : ∀ c : UInt8, plainByte (hexChar ((c &&& 0xF0) >>> 4)) = true ∧ plainByte (hexChar (c &&& 0x0F)) = true :=
    forall_u8 (by decide +kernel)
  split at hc
  · rename_i h
    simp only [List.mem_cons, List.not_mem_nil, or_false] at hc
    rw [hc]; exact t1 a h
  · simp only [List.mem_cons, List.not_mem_nil, or_false] at hc
    rcases hc with rfl | rfl | rfl
    · decide
    · exact (t2 a).1
    · exact (t2 a).2

theorem plain_number (n : Nat) : ∀ c ∈ number n, plainByte c = true := by
  intro c hc
  simp only [number, List.mem_map] at hc
  obtain ⟨d, hd, rfl⟩ := hc
  have := Nat.isDigit_of_mem_toDigits (b := 10) (by omega) (by omega) hd
  simp only [Char.isDigit, Bool.and_eq_true, decide_eq_true_eq] at this
  obtain ⟨h1, h2⟩ := this
  have e : d.val.toNat = d.toNat := rfl
  have h1' : 48 ≤ d.toNat := by have := UInt32.le_iff_toNat_le.mp h1; simpa using this
  have h2' : d.toNat ≤ 57 := by have := UInt32.le_iff_toNat_le.mp h2; simpa using this
  have : ∀ n, 48 ≤ n → n ≤ 57 → plainByte (UInt8.ofNat n) = true := by
    intro n a b
    have : n = 48 ∨ n = 49 ∨ n = 50 ∨ n = 51 ∨ n = 52 ∨ n = 53 ∨ n = 54 ∨ n = 55 ∨ n = 56 ∨ n = 57 := by omega
    rcases this with rfl | rfl | rfl | rfl | rfl | rfl | rfl | rfl | rfl | rfl <;> decide
  exact this d.toNat h1' h2'

/-- The fields of the request. -/
def fieldsOf (t : Told) : List (List UInt8 × List UInt8) :=
  [(ascii "info_hash", urlEncode t.hash), (ascii "peer_id", urlEncode t.peerId), (ascii "port", number t.port),
    (ascii "uploaded", number t.uploaded), (ascii "downloaded", number t.downloaded), (ascii "left", number t.left),
    (ascii "numwant", number t.numwant), (ascii "compact", ascii "1"), (ascii "no_peer_id", ascii "0"), (ascii "key", number t.key),
    (ascii "event", if t.finished then ascii "completed" else ascii "started")] ++
  match t.encryption with
  | .refuse => []
  | .allow => [(ascii "supportcrypto", ascii "1")]
  | .require => [(ascii "requirecrypto", ascii "1")]

theorem plain_fields (t : Told) : ∀ f ∈ fieldsOf t, (∀ c ∈ f.1, plainByte c = true) ∧ ∀ c ∈ f.2, plainByte c = true := by
  intro f hf
  have hev : ∀ c ∈ (if t.finished then ascii "completed" else ascii "started"), plainByte c = true := by
    cases t.finished <;> decide
  simp only [fieldsOf, List.mem_append, List.mem_cons, List.not_mem_nil, or_false] at hf
  rcases hf with (rfl | rfl | rfl | rfl | rfl | rfl | rfl | rfl | rfl | rfl | rfl) | hf
  · exact ⟨by dsimp only; decide, plain_url _⟩
  · exact ⟨by dsimp only; decide, plain_url _⟩
  · exact ⟨by dsimp only; decide, plain_number _⟩
  · exact ⟨by dsimp only; decide, plain_number _⟩
  · exact ⟨by dsimp only; decide, plain_number _⟩
  · exact ⟨by dsimp only; decide, plain_number _⟩
  · exact ⟨by dsimp only; decide, plain_number _⟩
  · exact ⟨by decide, by decide⟩
  · exact ⟨by decide, by decide⟩
  · exact ⟨by dsimp only; decide, plain_number _⟩
  · exact ⟨by dsimp only; decide, hev⟩
  · cases h : t.encryption with
    | refuse => rw [h] at hf; cases hf
    | allow => rw [h] at hf; simp only [List.mem_cons, List.not_mem_nil, or_false] at hf; subst hf; exact ⟨by decide, by decide⟩
    | require => rw [h] at hf; simp only [List.mem_cons, List.not_mem_nil, or_false] at hf; subst hf; exact ⟨by decide, by decide⟩

/-- One field. -/
def fieldText (f : List UInt8 × List UInt8) : List UInt8 := f.1 ++ chr '=' :: f.2

/-- What follows the first line. -/
def headersOf (host port : List UInt8) : List UInt8 :=
  ascii "\nUser-Agent: mtTorrent 0.9\r\nConnection: close\r\nHost: " ++ host ++
  (if port.isEmpty then [] else ascii ":" ++ port) ++ ascii "\r\nCache-Control: no-cache\r\n\r\n"

theorem request_eq (t : Told) (path host port : List UInt8) :
    createRequest t path host port = ascii "GET" ++ chr ' ' :: ((path ++ chr '?' :: glue (chr '&') ((fieldsOf t).map fieldText)) ++
      chr ' ' :: (ascii "HTTP/1.1" ++ chr '\r' :: headersOf host port)) := by
  have e1 : ascii "GET " = ascii "GET" ++ [chr ' '] := by decide
  have e2 : ascii "?info_hash=" = chr '?' :: (ascii "info_hash" ++ [chr '=']) := by decide
  have e3 : ascii "&peer_id=" = chr '&' :: (ascii "peer_id" ++ [chr '=']) := by decide
  have e4 : ascii "&port=" = chr '&' :: (ascii "port" ++ [chr '=']) := by decide
  have e5 : ascii "&uploaded=" = chr '&' :: (ascii "uploaded" ++ [chr '=']) := by decide
  have e6 : ascii "&downloaded=" = chr '&' :: (ascii "downloaded" ++ [chr '=']) := by decide
  have e7 : ascii "&left=" = chr '&' :: (ascii "left" ++ [chr '=']) := by decide
  have e8 : ascii "&numwant=" = chr '&' :: (ascii "numwant" ++ [chr '=']) := by decide
  have e9 : ascii "&compact=1&no_peer_id=0&key=" = chr '&' :: (ascii "compact" ++ chr '=' :: (ascii "1" ++ chr '&' :: (ascii "no_peer_id" ++
      chr '=' :: (ascii "0" ++ chr '&' :: (ascii "key" ++ [chr '=']))))) := by decide
  have e10 : ascii "&event=" = chr '&' :: (ascii "event" ++ [chr '=']) := by decide
  have e11 : ascii " HTTP/1.1\r\nUser-Agent: mtTorrent 0.9\r\nConnection: close\r\nHost: " =
      chr ' ' :: (ascii "HTTP/1.1" ++ chr '\r' :: ascii "\nUser-Agent: mtTorrent 0.9\r\nConnection: close\r\nHost: ") := by decide
  have e12 : ascii "&supportcrypto=1" = chr '&' :: (ascii "supportcrypto" ++ chr '=' :: ascii "1") := by decide
  have e13 : ascii "&requirecrypto=1" = chr '&' :: (ascii "requirecrypto" ++ chr '=' :: ascii "1") := by decide
  unfold createRequest headersOf
  rw [e1, e2, e3, e4, e5, e6, e7, e8, e9, e10, e11]
  cases h : t.encryption <;>
    simp only [crypto, fieldsOf, h, e12, e13, fieldText, glue, List.map_cons, List.map_nil, List.append_assoc, List.cons_append, List.nil_append,
      List.append_nil]

theorem readRequest_eq (t : Told) (path host port : List UInt8) (hp : Plain path) :
    readRequest (createRequest t path host port) = ⟨ascii "GET", path, fieldsOf t, ascii "HTTP/1.1"⟩ := by
  have none_of : ∀ d : UInt8, plainByte d = false → d ≠ chr '=' → ∀ x ∈ (fieldsOf t).map fieldText, d ∉ x := by
    intro d h1 h2 x hx hd
    simp only [List.mem_map] at hx
    obtain ⟨f, hf, rfl⟩ := hx
    simp only [fieldText, List.mem_append, List.mem_cons] at hd
    rcases hd with hd | hd | hd
    · have := (plain_fields t f hf).1 d hd; rw [h1] at this; cases this
    · exact h2 hd
    · have := (plain_fields t f hf).2 d hd; rw [h1] at this; cases this
  have hq : chr ' ' ∉ glue (chr '&') ((fieldsOf t).map fieldText) :=
    not_mem_glue _ _ (by decide) _ (none_of _ (by decide) (by decide))
  have hparts : parts (chr '&') (glue (chr '&') ((fieldsOf t).map fieldText)) = (fieldsOf t).map fieldText := by
    have : ∃ a l, (fieldsOf t).map fieldText = a :: l := ⟨_, _, rfl⟩
    obtain ⟨a, l, e⟩ := this
    have h := none_of (chr '&') (by decide) (by decide)
    rw [e] at h ⊢
    exact parts_glue _ a l h
  have hfields : ((fieldsOf t).map fieldText).map (cut (chr '=')) = fieldsOf t := by
    rw [List.map_map]
    conv => rhs; rw [← List.map_id (fieldsOf t)]
    apply List.map_congr_left
    intro f hf
    have : chr '=' ∉ f.1 := by
      intro hm
      have := (plain_fields t f hf).1 _ hm
      revert this
      decide
    show cut (chr '=') (f.1 ++ chr '=' :: f.2) = f
    rw [cut_append _ _ _ this]
  rw [request_eq]
  unfold readRequest
  rw [cut_append _ _ _ (by decide)]
  simp only
  rw [cut_append _ _ _ (by
    simp only [List.mem_append, List.mem_cons]
    rintro (h | h | h)
    · exact hp.1 h
    · exact absurd h (by decide)
    · exact hq h)]
  simp only
  rw [cut_append (chr '?') _ _ hp.2.1, cut_append (chr '\r') _ _ (by decide)]
  simp only [hparts, hfields]

theorem urlMeans_encode (bs : List UInt8) : UrlMeans (urlEncode bs) bs := by
  induction bs with
  | nil => exact .nil
  | cons c bs ih =>
    have e : urlEncode (c :: bs) = (if urlPlain c then [c]
        else [chr '%', hexChar ((c &&& 0xF0) >>> 4), hexChar (c &&& 0x0F)]) ++ urlEncode bs := by
      simp [urlEncode, List.flatMap_cons]
    rw [e]
    have t1 : ∀ c : UInt8, urlPlain c = true → c ≠ chr '%' ∧ c ≠ chr '+' := forall_u8 (by decide +kernel)
    by_cases h : urlPlain c
    · rw [if_pos h]
      exact .raw _ _ _ (t1 c h).1 (t1 c h).2 ih
    · rw [if_neg h]
      have t2 : ∀ c : UInt8, (ascii "0123456789ABCDEF")[c.toNat / 16]? = some (hexChar ((c &&& 0xF0) >>> 4)) ∧
          (ascii "0123456789ABCDEF")[c.toNat % 16]? = some (hexChar (c &&& 0x0F)) := forall_u8 (by decide +kernel)
      have hc := c.toNat_lt
      have e2 : c = UInt8.ofNat (c.toNat / 16 * 16 + c.toNat % 16) := by
        rw [Nat.mul_comm, Nat.div_add_mod]; simp
      have := UrlMeans.esc ⟨c.toNat / 16, by omega⟩ ⟨c.toNat % 16, by omega⟩ (hexChar ((c &&& 0xF0) >>> 4)) (hexChar (c &&& 0x0F)) _ _
        (by simp only [(t2 c).1]; simp) (by simp only [(t2 c).2]; simp) ih
      simp only [← e2] at this
      exact this

end Verif.HttpComm
