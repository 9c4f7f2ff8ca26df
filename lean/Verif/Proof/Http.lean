import Verif.Spec.Http
import Verif.Proof.BencodeGet
namespace Verif.Http
open Verif Bencode Spec Net

theorem capital_upper (c : UInt8) : capital c = upper c := by
  revert c; apply forall_u8; decide +kernel

theorem capitals_upper (l : List UInt8) : l.map upper = capitals l := by
  unfold capitals; congr 1; funext c; exact (capital_upper c).symm

theorem oneLine_tail {a : UInt8} {l : List UInt8} (h : OneLine (a :: l)) : OneLine l := fun x y he => h (a :: x) y (by rw [he]; simp)

theorem splitCrlf_line : ∀ (l r : List UInt8), OneLine l → splitCrlf (l ++ 13 :: 10 :: r) = some (l, r)
  | [], r, _ => by simp [splitCrlf, cr, lf]
  | [a], r, _ => by
    have := splitCrlf_line [] r (by intro a b h; simp [crlf] at h)
    simp only [List.nil_append] at this
    simp [splitCrlf, cr, lf]
  | a :: b :: l, r, h => by
    have hne : ¬(a = cr ∧ b = lf) := fun ⟨h1, h2⟩ => h [] l (by simp [crlf, h1, h2, cr, lf])
    have := splitCrlf_line (b :: l) r (oneLine_tail h)
    rw [List.cons_append, List.cons_append, splitCrlf, if_neg hne, ← List.cons_append, this]

theorem splitCrlf_none : ∀ (l : List UInt8), OneLine l → splitCrlf l = none
  | [], _ => rfl
  | [a], _ => rfl
  | a :: b :: l, h => by
    have hne : ¬(a = cr ∧ b = lf) := fun ⟨h1, h2⟩ => h [] l (by simp [crlf, h1, h2, cr, lf])
    rw [splitCrlf, if_neg hne, splitCrlf_none (b :: l) (oneLine_tail h)]

theorem splitCrlf_some : ∀ (l a b : List UInt8), splitCrlf l = some (a, b) → l = a ++ crlf ++ b
  | [], a, b, h => by cases h
  | [x], a, b, h => by cases h
  | x :: y :: l, a, b, h => by
    rw [splitCrlf] at h
    split at h
    · rename_i hc
      cases h
      simp [crlf, hc.1, hc.2, cr, lf]
    · split at h
      · rename_i l' r' heq
        cases h
        rw [splitCrlf_some _ _ _ heq]
        simp
      · cases h

/-- One complete line is taken as a parameter. -/
theorem lines_line (size n : Nat) (l r : List UInt8) (ps : List (List UInt8 × List UInt8)) (h0 : l ≠ []) (h : OneLine l) :
    lines size (n + 1) (l ++ 13 :: 10 :: r) ps = lines size n r (ps ++ [param l]) := by
  match l, h0 with
  | [a], _ =>
    simp only [List.cons_append, List.nil_append]
    rw [lines, if_neg (by intro hh; exact absurd hh.2 (by decide))]
    have := splitCrlf_line [] r (by intro a b h; simp [crlf] at h)
    rw [List.nil_append] at this
    rw [this]
  | a :: b :: l, _ =>
    have hne : ¬(a = cr ∧ b = lf) := fun ⟨h1, h2⟩ => h [] l (by simp [crlf, h1, h2, cr, lf])
    simp only [List.cons_append]
    rw [lines, if_neg hne]
    have := splitCrlf_line (b :: l) r (oneLine_tail h)
    rw [List.cons_append] at this
    rw [this]

theorem lines_all (size : Nat) : ∀ (ls : List (List UInt8)) (n : Nat) (r : List UInt8) (ps : List (List UInt8 × List UInt8)),
    (∀ l ∈ ls, l ≠ [] ∧ OneLine l) → lines size (n + ls.length) (ls.flatMap (fun l => l ++ crlf) ++ r) ps = lines size n r (ps ++ ls.map param)
  | [], n, r, ps, _ => by simp
  | l :: ls, n, r, ps, h => by
    obtain ⟨h1, h2⟩ := h l List.mem_cons_self
    have := lines_line size (n + ls.length) l (ls.flatMap (fun l => l ++ crlf) ++ r) ps h1 h2
    have he : (l :: ls).flatMap (fun l => l ++ crlf) ++ r = l ++ 13 :: 10 :: (ls.flatMap (fun l => l ++ crlf) ++ r) := by simp [crlf]
    rw [he, List.length_cons, ← Nat.add_assoc, this, lines_all size ls n r _ fun x hx => h x (List.mem_cons_of_mem _ hx)]
    simp

theorem lines_end (size n : Nat) (r : List UInt8) (ps : List (List UInt8 × List UInt8)) :
    lines size (n + 1) (13 :: 10 :: r) ps = .ok ((size - r.length) % 4294967296, ps) := by
  rw [lines, if_pos ⟨rfl, rfl⟩]

/-- A line that has not arrived completely keeps the loop going. -/
theorem lines_stuck (size : Nat) (p : List UInt8) (h : OneLine p) (hp : 2 ≤ p.length) : ∀ (n : Nat) (ps : List (List UInt8 × List UInt8)), lines size n p ps = .diverge
  | 0, ps => by rw [lines]
  | n + 1, ps => by
    match p, hp, h with
    | a :: b :: l, _, h =>
      have hne : ¬(a = cr ∧ b = lf) := fun ⟨h1, h2⟩ => h [] l (by simp [crlf, h1, h2, cr, lf])
      rw [lines, if_neg hne, splitCrlf_none (b :: l) (oneLine_tail h)]
      exact lines_stuck size (a :: b :: l) h (by simp) n _

theorem split_keeps : ∀ (x y u v : List UInt8), splitCrlf (x ++ (13 :: 10 :: 13 :: 10 :: y)) = some (u, v) →
    (∃ y', v = 13 :: 10 :: y') ∨ ∃ x' y', v = x' ++ (13 :: 10 :: 13 :: 10 :: y')
  | [], y, u, v, h => by
    rw [List.nil_append, splitCrlf, if_pos ⟨rfl, rfl⟩] at h
    cases h
    exact Or.inl ⟨y, rfl⟩
  | [a], y, u, v, h => by
    simp only [List.cons_append, List.nil_append] at h
    rw [splitCrlf, if_neg (by intro hh; exact absurd hh.2 (by decide)), splitCrlf, if_pos ⟨rfl, rfl⟩] at h
    cases h
    exact Or.inl ⟨y, rfl⟩
  | a :: b :: x, y, u, v, h => by
    simp only [List.cons_append] at h
    rw [splitCrlf] at h
    split at h
    · cases h
      exact Or.inr ⟨x, y, rfl⟩
    · split at h
      · rename_i l r heq
        cases h
        exact split_keeps (b :: x) y _ _ heq
      · cases h

theorem split_found : ∀ (x y : List UInt8), ∃ u v, splitCrlf (x ++ (13 :: 10 :: y)) = some (u, v)
  | [], y => ⟨[], y, by rw [List.nil_append, splitCrlf, if_pos ⟨rfl, rfl⟩]⟩
  | [a], y => ⟨[a], y, by
      simp only [List.cons_append, List.nil_append]
      rw [splitCrlf, if_neg (by intro hh; exact absurd hh.2 (by decide)), splitCrlf, if_pos ⟨rfl, rfl⟩]⟩
  | a :: b :: x, y => by
    simp only [List.cons_append]
    rw [splitCrlf]
    split
    · exact ⟨_, _, rfl⟩
    · obtain ⟨u, v, h⟩ := split_found (b :: x) y
      simp only [List.cons_append] at h
      rw [h]
      exact ⟨_, _, rfl⟩

theorem splitCrlf_length {l u v : List UInt8} (h : splitCrlf l = some (u, v)) : v.length + 2 ≤ l.length := by
  rw [splitCrlf_some _ _ _ h]
  simp [crlf]

/-- With an empty line somewhere the loop ends. -/
theorem lines_terminates (size : Nat) : ∀ (n : Nat) (l : List UInt8) (ps : List (List UInt8 × List UInt8)),
    ((∃ y, l = 13 :: 10 :: y) ∨ ∃ x y, l = x ++ (13 :: 10 :: 13 :: 10 :: y)) → l.length < n →
    ∃ r, lines size n l ps = .ok r
  | 0, l, ps, _, h => by omega
  | n + 1, l, ps, hl, h => by
    rcases hl with ⟨y, rfl⟩ | ⟨x, y, hxy⟩
    · exact ⟨_, lines_end _ _ _ _⟩
    · match x, hxy with
      | [], hxy =>
        rw [hxy]
        exact ⟨_, lines_end _ _ _ _⟩
      | a :: x, hxy =>
        obtain ⟨b, cs, hb⟩ : ∃ b cs, x ++ (13 :: 10 :: 13 :: 10 :: y) = b :: cs := by
          cases x with
          | nil => exact ⟨_, _, rfl⟩
          | cons b x => exact ⟨_, _, rfl⟩
        obtain ⟨u, v, huv⟩ := split_found x (13 :: 10 :: y)
        have hk := split_keeps x y u v huv
        have hlen := splitCrlf_length huv
        rw [hxy, List.cons_append] at h ⊢
        rw [hb] at huv hlen h ⊢
        rw [lines]
        split
        · exact ⟨_, rfl⟩
        · rw [huv]
          exact lines_terminates size n v _ hk (by simp only [List.length_cons] at h hlen; omega)

/-! ### Parameters -/

theorem findByte_none : ∀ (l : List UInt8) (c : UInt8), c ∉ l → findByte c l = none
  | [], _, _ => rfl
  | x :: l, c, h => by
    rw [findByte, if_neg (fun e => h (by simp [e])), findByte_none l c fun hm => h (List.mem_cons_of_mem _ hm)]
    rfl

theorem findByte_some : ∀ (l r : List UInt8) (c : UInt8), c ∉ l → findByte c (l ++ c :: r) = some l.length
  | [], r, c, _ => by simp [findByte]
  | x :: l, r, c, h => by
    rw [List.cons_append, findByte, if_neg (fun e => h (by simp [e])), findByte_some l r c fun hm => h (List.mem_cons_of_mem _ hm)]
    rfl

theorem param_status {l : List UInt8} (h : chr ':' ∉ l) : param l = (l, []) := by
  unfold param; rw [findByte_none l _ h]

theorem param_field {name value : List UInt8} (h : chr ':' ∉ name) : param (name ++ ascii ": " ++ value) = (name, value) := by
  have he : name ++ ascii ": " ++ value = name ++ chr ':' :: (32 :: value) := by
    have : ascii ": " = [chr ':', 32] := by decide
    simp [this]
  unfold param
  rw [he, findByte_some _ _ _ h]
  simp only
  rw [if_pos (by simp), List.take_left' rfl]
  congr 1
  rw [← List.drop_drop, List.drop_left' rfl]
  rfl

theorem upper_digits (k : Nat) : (dec k).map upper = dec k := by
  have : ∀ c : UInt8, isDigit c = true → upper c = c := by apply forall_u8; decide +kernel
  conv => rhs; rw [← List.map_id (dec k)]
  apply List.map_congr_left
  intro c hc
  exact this c (dec_digits k c hc)

theorem takeWhile_all {α} (p : α → Bool) : ∀ (l : List α), (∀ x ∈ l, p x = true) → l.takeWhile p = l
  | [], _ => rfl
  | a :: l, h => by
    rw [List.takeWhile_cons, if_pos (h a List.mem_cons_self), takeWhile_all p l fun x hx => h x (List.mem_cons_of_mem _ hx)]

theorem stoul_dec (k : Nat) (h : k < 18446744073709551616) : stoul (dec k) = .ok k := by
  obtain ⟨d, ds, hd, hdig⟩ := dec_head k
  obtain ⟨h1, h2, h3, _⟩ := digit_facts hdig
  have hw : (dec k).dropWhile isSpace = dec k := by rw [hd, List.dropWhile_cons, if_neg (by simp [h1])]
  have ht : (dec k).takeWhile isDigit = dec k := takeWhile_all _ _ (dec_digits k)
  have hn1 : (dec k).head? ≠ some (chr '-') := by rw [hd]; simpa using h2
  have hn2 : (dec k).head? ≠ some (chr '+') := by rw [hd]; simpa using h3
  unfold stoul
  simp only [hw]
  rw [if_neg (c := (dec k).head? = some (chr '-') ∨ (dec k).head? = some (chr '+')) (fun hh => hh.elim hn1 hn2), ht, if_neg (dec_ne_nil k), decVal_dec, if_neg (by omega), if_neg hn1]

theorem apply_other (buffer after : List UInt8) (i : Info) (p : List UInt8 × List UInt8) (h1 : p.1 ≠ ascii "CONTENT-LENGTH") (h2 : p.1 ≠ ascii "TRANSFER-ENCODING") :
    apply buffer after i p = .ok i := by
  unfold apply
  rw [if_neg (fun hh => h1 hh.1), Res.pure_eq, Res.bind_ok]
  simp only
  rw [if_neg (fun hh => h2 hh.2.1), Res.pure_eq]

theorem apply_length (buffer after : List UInt8) (i : Info) (k : Nat) (hk : k < 4294967296) :
    apply buffer after i (ascii "CONTENT-LENGTH", dec k) = .ok { i with dataSize := k } := by
  unfold apply
  rw [if_pos ⟨rfl, dec_ne_nil k⟩, stoul_dec k (by omega), Res.bind_ok, Res.pure_eq, Res.bind_ok]
  simp only
  rw [if_neg (fun hh => absurd hh.2.1 (by decide)), Res.pure_eq, Nat.mod_eq_of_lt hk]

theorem applyAll_other (buffer after : List UInt8) : ∀ (ps : List (List UInt8 × List UInt8)) (i : Info) (qs : List (List UInt8 × List UInt8)),
    (∀ p ∈ ps, p.1 ≠ ascii "CONTENT-LENGTH" ∧ p.1 ≠ ascii "TRANSFER-ENCODING") → applyAll buffer after (ps ++ qs) i = applyAll buffer after qs i
  | [], i, qs, _ => rfl
  | p :: ps, i, qs, h => by
    obtain ⟨h1, h2⟩ := h p List.mem_cons_self
    rw [List.cons_append, applyAll, apply_other _ _ _ _ h1 h2, Res.bind_ok, applyAll_other buffer after ps i qs fun q hq => h q (List.mem_cons_of_mem _ hq)]

theorem contains_iff (sub : List UInt8) : ∀ (l : List UInt8), contains sub l = true ↔ ∃ a b, l = a ++ sub ++ b
  | [] => by
    rw [contains]
    constructor
    · intro h
      exact ⟨[], [], by simpa using (by simpa using h : sub = []).symm⟩
    · rintro ⟨a, b, h⟩
      have := congrArg List.length h
      simp only [List.length_nil, List.length_append] at this
      have hl : sub = [] := List.length_eq_zero_iff.mp (by omega)
      simp [hl]
  | x :: xs => by
    rw [contains, Bool.or_eq_true, contains_iff sub xs, List.isPrefixOf_iff_prefix]
    constructor
    · rintro (⟨t, ht⟩ | ⟨a, b, h⟩)
      · exact ⟨[], t, by simpa using ht.symm⟩
      · exact ⟨x :: a, b, by simp [h]⟩
    · rintro ⟨a, b, h⟩
      cases a with
      | nil => exact Or.inl ⟨b, by simpa using h.symm⟩
      | cons y a =>
        simp only [List.cons_append, List.cons.injEq] at h
        exact Or.inr ⟨a, b, h.2⟩

/-- A header as a sequence of lines. -/
theorem header_lines (status : List UInt8) (fields : List (List UInt8 × List UInt8)) (body : List UInt8) :
    header status fields ++ body = (status :: fields.map fun f => f.1 ++ ascii ": " ++ f.2).flatMap (fun l => l ++ crlf) ++ (13 :: 10 :: body) := by
  unfold header
  simp [crlf, List.flatMap_map]

theorem good_lines {status : List UInt8} {fields : List (List UInt8 × List UInt8)} (h : GoodHeader status fields) :
    ∀ l ∈ status :: fields.map (fun f => f.1 ++ ascii ": " ++ f.2), l ≠ [] ∧ OneLine l := by
  intro l hl
  rcases List.mem_cons.mp hl with rfl | hl
  · refine ⟨?_, h.line⟩
    rintro rfl
    exact absurd h.http (by decide)
  · obtain ⟨f, hf, rfl⟩ := List.mem_map.mp hl
    refine ⟨?_, h.fieldLine f hf⟩
    intro he
    have := congrArg List.length he
    have h2 : (ascii ": ").length = 2 := by decide
    simp [h2] at this

/-- What the loop over lines gives for a header and what follows it. -/
theorem lines_header {status : List UInt8} {fields : List (List UInt8 × List UInt8)} (h : GoodHeader status fields) (body : List UInt8)
    (size n : Nat) (hn : fields.length + 2 ≤ n) :
    lines size n (header status fields ++ body) [] = .ok ((size - body.length) % 4294967296, (status, []) :: fields) := by
  rw [header_lines]
  have := lines_all size (status :: fields.map fun f => f.1 ++ ascii ": " ++ f.2) (n - (fields.length + 1)) (13 :: 10 :: body) [] (good_lines h)
  simp only [List.length_cons, List.length_map] at this
  rw [Nat.sub_add_cancel (by omega)] at this
  rw [this]
  obtain ⟨m, hm⟩ : ∃ m, n - (fields.length + 1) = m + 1 := ⟨n - (fields.length + 1) - 1, by omega⟩
  rw [hm, lines_end, List.nil_append]
  congr 2
  simp only [List.map_cons, List.map_map]
  rw [param_status h.colon]
  congr 1
  conv => rhs; rw [← List.map_id fields]
  apply List.map_congr_left
  intro f hf
  exact param_field (h.name f hf)

/-- `read` of a complete header, up to the loop over parameters. -/
theorem read_header {status : List UInt8} {fields : List (List UInt8 × List UInt8)} (h : GoodHeader status fields) (body after : List UInt8) (n : Nat)
    (hn : fields.length + 2 ≤ n) (hs : (header status fields ++ body).length < 4294967296) (i : Info)
    (hi : applyAll (header status fields ++ body) after ((capitals status, []) :: fields.map fun f => (capitals f.1, capitals f.2))
      { dataStart := (header status fields).length, params := (capitals status, []) :: fields.map fun f => (capitals f.1, capitals f.2) } = .ok i) :
    read n (header status fields ++ body) after = .ok
      (let i := if i.dataStart ≠ 0 ∧ ¬(i.dataSize ≠ 0 ∨ (header status fields ++ body).length = i.dataStart) then { i with valid := false } else i
       if contains (ascii "200 OK") (capitals status) then { i with success := true } else i) := by
  have h4 : 4 ≤ status.length := by
    have := congrArg List.length h.http
    rw [List.length_take] at this
    have h2 : (ascii "HTTP").length = 4 := by decide
    omega
  have htake : (header status fields ++ body).take 4 = ascii "HTTP" := by
    rw [← h.http]
    unfold header
    simp only [List.append_assoc]
    rw [List.take_append_of_le_length h4]
  unfold read
  rw [if_neg]
  · rw [lines_header h body _ n hn, Res.bind_ok]
    have hmod : ((header status fields ++ body).length - body.length) % 4294967296 = (header status fields).length := by
      rw [List.length_append] at hs ⊢
      rw [Nat.add_sub_cancel, Nat.mod_eq_of_lt (by omega)]
    simp only [hmod, List.map_cons, capitals_upper, List.map_nil]
    rw [show capitals [] = [] from rfl, hi]
    simp only [Res.bind_ok, Res.pure_eq]
  · intro hh
    rcases hh with hh | hh
    · have : status.length ≤ (header status fields ++ body).length := by
        unfold header; simp only [List.length_append]; omega
      omega
    · exact hh (Or.inl htake)

/-- `read` after the loop over lines. -/
theorem read_of_lines {n size : Nat} {buffer after : List UInt8} {st : Nat} {p : List UInt8 × List UInt8} {ps : List (List UInt8 × List UInt8)} {i : Info}
    (h4 : buffer.take 4 = ascii "HTTP") (hsz : buffer.length = size) (hl : lines size n buffer [] = .ok (st, p :: ps))
    (hi : applyAll buffer after ((p :: ps).map fun f => (capitals f.1, capitals f.2)) { dataStart := st, params := (p :: ps).map fun f => (capitals f.1, capitals f.2) } = .ok i) :
    read n buffer after = .ok
      (let i := if i.dataStart ≠ 0 ∧ ¬(i.dataSize ≠ 0 ∨ buffer.length = i.dataStart) then { i with valid := false } else i
       if contains (ascii "200 OK") (capitals p.1) then { i with success := true } else i) := by
  unfold read
  rw [if_neg]
  · rw [hsz, hl, Res.bind_ok]
    simp only [List.map_cons, capitals_upper] at hi ⊢
    rw [hi]
    simp only [Res.bind_ok, Res.pure_eq, hsz]
  · intro hh
    rcases hh with hh | hh
    · have := congrArg List.length h4
      rw [List.length_take] at this
      have h2 : (ascii "HTTP").length = 4 := by decide
      omega
    · exact hh (Or.inl h4)

/-! ### Chunks -/

theorem hexNumber_ne (n : Nat) : hexNumber n ≠ [] := by
  rw [hexNumber]; split <;> simp

theorem hex_digit : ∀ k < 16, isHex (if k < 10 then UInt8.ofNat (48 + k) else UInt8.ofNat (87 + k)) = true ∧
    hexDigit (if k < 10 then UInt8.ofNat (48 + k) else UInt8.ofNat (87 + k)) = k := by decide +kernel

theorem hexNumber_digits (n : Nat) : ∀ c ∈ hexNumber n, isHex c = true := by
  induction n using Nat.strongRecOn with
  | _ n ih =>
    rw [hexNumber]
    split
    · intro c hc
      rw [List.mem_singleton] at hc
      rw [hc]
      exact (hex_digit n (by assumption)).1
    · intro c hc
      rcases List.mem_append.mp hc with hc | hc
      · exact ih (n / 16) (by omega) c hc
      · rw [List.mem_singleton] at hc
        rw [hc]
        exact (hex_digit (n % 16) (by omega)).1

theorem hexVal_hexNumber (n : Nat) : hexVal (hexNumber n) = n := by
  induction n using Nat.strongRecOn with
  | _ n ih =>
    rw [hexNumber]
    split
    · have := (hex_digit n (by assumption)).2
      simp only [hexVal, List.foldl_cons, List.foldl_nil]
      rw [this]; omega
    · have h1 := (hex_digit (n % 16) (by omega)).2
      have h2 := ih (n / 16) (by omega)
      unfold hexVal at h2 ⊢
      rw [List.foldl_append, h2]
      simp only [List.foldl_cons, List.foldl_nil]
      rw [h1]; omega

theorem hex_facts {c : UInt8} (h : isHex c = true) : isSpace c = false ∧ c ≠ chr '-' ∧ c ≠ chr '+' ∧ c ≠ 13 := by
  revert h
  exact forall_u8 (p := fun c => isHex c = true → isSpace c = false ∧ c ≠ chr '-' ∧ c ≠ chr '+' ∧ c ≠ 13) (by decide +kernel) c

theorem strtoul16_hexNumber (k : Nat) (t : List UInt8) (hk : k < 18446744073709551616) : strtoul16 (hexNumber k ++ 13 :: t) = .ok k := by
  have hsp := spanLen_of (p := isHex) (hexNumber k) 13 t (hexNumber_digits k) (by decide)
  match hh : hexNumber k, hexNumber_ne k with
  | d :: ds, _ =>
    obtain ⟨h1, h2, h3, _⟩ := hex_facts (hexNumber_digits k d (by rw [hh]; simp))
    have hw : spanLen isSpace (d :: ds ++ 13 :: t) = .ok 0 := by simp [spanLen, h1]
    have hr : rd (d :: ds ++ 13 :: t) 0 = .ok d := by simp [rd]
    unfold strtoul16
    rw [hw, Res.bind_ok, hr, Res.bind_ok]
    simp only [h2, h3, or_self, if_false, Nat.add_zero, List.drop_zero]
    rw [hh] at hsp
    rw [hsp, Res.bind_ok]
    have hdrop : (d :: ds ++ 13 :: t).drop (d :: ds).length = 13 :: t := List.drop_left' rfl
    have htake : (d :: ds ++ 13 :: t).take (d :: ds).length = d :: ds := List.take_left' rfl
    simp only [hdrop, htake]
    have hx : ¬((13 :: t).head? = some (chr 'x') ∨ (13 :: t).head? = some (chr 'X')) := by
      rw [List.head?_cons]; decide
    rw [if_neg (fun hc => hx hc.2.2), Res.pure_eq, Res.bind_ok]
    have hv := hexVal_hexNumber k
    rw [hh] at hv
    rw [hv, if_neg (by omega), Res.pure_eq]

theorem crlfPos_line : ∀ (l r : List UInt8), OneLine l → crlfPos (l ++ 13 :: 10 :: r) = l.length
  | [], r, _ => by simp [crlfPos, cr, lf]
  | [a], r, _ => by simp [crlfPos, cr, lf]
  | a :: b :: l, r, h => by
    have hne : ¬(a = cr ∧ b = lf) := fun ⟨h1, h2⟩ => h [] l (by simp [crlf, h1, h2, cr, lf])
    have := crlfPos_line (b :: l) r (oneLine_tail h)
    rw [List.cons_append, List.cons_append, crlfPos, if_neg hne, ← List.cons_append, this]
    rfl

theorem hexNumber_line (n : Nat) : OneLine (hexNumber n) := by
  intro a b he
  exact (hex_facts (hexNumber_digits n 13 (by rw [he]; simp [crlf]))).2.2.2 rfl

/-- The line with the size of a chunk. -/
theorem chunks_size (size : Nat) (after : List UInt8) (n k : Nat) (r : List UInt8) (hk : k < 4294967296) :
    chunks size after (n + 1) (hexNumber k ++ crlf ++ r) 0 = chunks size after n r k := by
  have he : hexNumber k ++ crlf ++ r = hexNumber k ++ 13 :: 10 :: r := by simp [crlf]
  rw [he]
  obtain ⟨d, ds, hd⟩ : ∃ d ds, hexNumber k ++ 13 :: 10 :: r = d :: ds := by
    match hh : hexNumber k, hexNumber_ne k with
    | d :: ds, _ => exact ⟨_, _, rfl⟩
  rw [hd, chunks, ← hd]
  rotate_left
  · intro hc; cases hc
  have hp := crlfPos_line (hexNumber k) r (hexNumber_line k)
  have hpos : (hexNumber k).length ≠ 0 := by simpa using hexNumber_ne k
  simp only [hp]
  rw [if_neg hpos, if_pos trivial]
  have hs := strtoul16_hexNumber k (10 :: r ++ after) (by omega)
  simp only [List.append_assoc, List.cons_append] at hs ⊢
  rw [hs, Res.bind_ok, Nat.mod_eq_of_lt hk]
  congr 1
  rw [← List.drop_drop, List.drop_left' rfl]
  rfl

/-- The bytes of a chunk. -/
theorem chunks_data (size : Nat) (after : List UInt8) (n k : Nat) (data r : List UInt8) (hd : data ≠ []) (ho : OneLine data) (hk : k ≠ 0) :
    chunks size after (n + 1) (data ++ crlf ++ r) k =
      (chunks size after n r 0 >>= fun x => pure (((size - (data ++ crlf ++ r).length) % 4294967296, k) :: x)) := by
  have he : data ++ crlf ++ r = data ++ 13 :: 10 :: r := by simp [crlf]
  rw [he]
  obtain ⟨d, ds, hd'⟩ : ∃ d ds, data ++ 13 :: 10 :: r = d :: ds := by
    match data, hd with
    | d :: ds, _ => exact ⟨_, _, rfl⟩
  rw [hd', chunks, ← hd']
  rotate_left
  · intro hc; cases hc
  have hp := crlfPos_line data r ho
  have hpos : data.length ≠ 0 := by simpa using hd
  simp only [hp]
  rw [if_neg hpos, if_neg hk]
  congr 1
  congr 1
  rw [← List.drop_drop, List.drop_left' rfl]
  rfl

theorem chunks_nil (size : Nat) (after : List UInt8) (n k : Nat) : chunks size after n [] k = .ok [] := by
  cases n <;> rw [chunks]

/-- The end of a chunked body. -/
theorem chunks_last (size : Nat) (after : List UInt8) (n : Nat) (hn : 2 ≤ n) : chunks size after n (hexNumber 0 ++ crlf ++ crlf) 0 = .ok [] := by
  obtain ⟨m, rfl⟩ : ∃ m, n = m + 1 + 1 := ⟨n - 2, by omega⟩
  rw [chunks_size size after (m + 1) 0 crlf (by decide)]
  simp [chunks, crlf, crlfPos, cr, lf, chunks_nil]

/-- A chunked body: the first chunk. -/
theorem chunks_body (size : Nat) (after : List UInt8) : ∀ (ds : List (List UInt8)) (n : Nat), (∀ d ∈ ds, d ≠ [] ∧ OneLine d ∧ d.length < 4294967296) →
    2 * ds.length + 2 ≤ n → ∃ r, chunks size after n (ds.flatMap chunk ++ (hexNumber 0 ++ crlf ++ crlf)) 0 = .ok r ∧
      (∀ d tl, ds = d :: tl → r.head? = some ((size - (d ++ crlf ++ (tl.flatMap chunk ++ (hexNumber 0 ++ crlf ++ crlf))).length) % 4294967296, d.length)) ∧ r.length = ds.length
  | [], n, _, hn => ⟨[], by simpa using chunks_last size after n (by simpa using hn), by simp, rfl⟩
  | d :: ds, n, h, hn => by
    obtain ⟨h1, h2, h3⟩ := h d List.mem_cons_self
    obtain ⟨m, rfl⟩ : ∃ m, n = m + 1 + 1 := ⟨n - 2, by simp only [List.length_cons] at hn; omega⟩
    obtain ⟨r, hr, _, hlen⟩ := chunks_body size after ds m (fun x hx => h x (List.mem_cons_of_mem _ hx)) (by simp only [List.length_cons] at hn; omega)
    have he : (d :: ds).flatMap chunk ++ (hexNumber 0 ++ crlf ++ crlf) =
        hexNumber d.length ++ crlf ++ (d ++ crlf ++ (ds.flatMap chunk ++ (hexNumber 0 ++ crlf ++ crlf))) := by
      simp [chunk]
    rw [he, chunks_size _ _ _ _ _ h3, chunks_data _ _ _ _ _ _ h1 h2 (by simpa using h1), hr, Res.bind_ok]
    refine ⟨_, rfl, ?_, by simp [hlen]⟩
    intro d' tl heq
    cases heq
    rfl

/-! ### Endings -/

theorem bind_nd {α β} {r : Res α} {f : α → Res β} (h1 : r ≠ .diverge) (h2 : ∀ a, r = .ok a → f a ≠ .diverge) : (r >>= f) ≠ .diverge := by
  cases r with
  | ok a => rw [Res.bind_ok]; exact h2 a rfl
  | ub => rw [Res.bind_ub]; exact fun h => by cases h
  | diverge => exact absurd rfl h1

theorem rd_nd {α} (l : List α) (i : Nat) : rd l i ≠ .diverge := by
  unfold rd; split <;> exact fun h => by cases h

theorem spanLen_nd (p : UInt8 → Bool) : ∀ (l : List UInt8), spanLen p l ≠ .diverge
  | [] => fun h => by cases h
  | c :: cs => by
    rw [spanLen]
    split
    · exact bind_nd (spanLen_nd p cs) fun a _ h => by cases h
    · exact fun h => by cases h

theorem ok_nd {α} (a : α) : (Res.ok a) ≠ .diverge := fun h => by cases h

theorem strtoul16_nd (l : List UInt8) : strtoul16 l ≠ .diverge := by
  unfold strtoul16
  refine bind_nd (spanLen_nd _ _) fun w _ => bind_nd (rd_nd _ _) fun c _ => bind_nd (spanLen_nd _ _) fun d _ => ?_
  have hk : ∀ v : Nat, (if v ≥ 18446744073709551616 then (pure 18446744073709551615 : Res Nat)
      else pure (if c = chr '-' then (18446744073709551616 - v) % 18446744073709551616 else v)) ≠ .diverge := by
    intro v
    by_cases hv : v ≥ 18446744073709551616
    · rw [if_pos hv]; exact ok_nd _
    · rw [if_neg hv]; exact ok_nd _
  simp only
  generalize l.drop (w + if c = chr '-' ∨ c = chr '+' then 1 else 0) = m
  split
  · exact bind_nd (spanLen_nd _ _) fun e _ => bind_nd (ok_nd _) fun v _ => hk v
  · exact bind_nd (ok_nd _) fun v _ => hk v

theorem chunks_nd (size : Nat) (after : List UInt8) : ∀ (n : Nat) (l : List UInt8) (k : Nat), l.length < n → chunks size after n l k ≠ .diverge
  | 0, l, k, h => by omega
  | n + 1, [], k, _ => by rw [chunks]; exact fun h => by cases h
  | n + 1, a :: l, k, h => by
    have hl : ∀ j, 2 ≤ j → ((a :: l).drop j).length < n := by
      intro j hj
      rw [List.length_drop]
      simp only [List.length_cons] at h ⊢
      omega
    rw [chunks]
    · split
      · exact chunks_nd size after n _ _ (hl 2 (by omega))
      · split
        · exact bind_nd (strtoul16_nd _) fun v _ => chunks_nd size after n _ _ (hl _ (by omega))
        · exact bind_nd (chunks_nd size after n _ _ (hl _ (by omega))) fun a _ h => by cases h
    · intro hc; cases hc

theorem stoul_nd (l : List UInt8) : stoul l ≠ .diverge := by
  unfold stoul
  simp only
  generalize (if (l.dropWhile isSpace).head? = some (chr '-') ∨ (l.dropWhile isSpace).head? = some (chr '+') then (l.dropWhile isSpace).drop 1
    else l.dropWhile isSpace).takeWhile isDigit = ds
  by_cases h1 : ds = []
  · rw [if_pos h1]; simp
  · rw [if_neg h1]
    by_cases h2 : decVal ds ≥ 18446744073709551616
    · rw [if_pos h2]; simp
    · rw [if_neg h2]; exact ok_nd _

theorem apply_nd (buffer after : List UInt8) (i : Info) (p : List UInt8 × List UInt8) : apply buffer after i p ≠ .diverge := by
  have hk : ∀ i : Info, (if i.dataSize = 0 ∧ p.1 = ascii "TRANSFER-ENCODING" ∧ p.2 = ascii "CHUNKED" then do
      let c ← chunks buffer.length after (buffer.length + 1) (buffer.drop i.dataStart) 0
      match c with
      | [] => pure i
      | x :: _ => pure { i with dataStart := x.1, dataSize := x.2 }
    else pure i : Res Info) ≠ .diverge := by
    intro i
    split
    · refine bind_nd (chunks_nd _ _ _ _ _ ?_) fun c _ => ?_
      · rw [List.length_drop]; omega
      · cases c <;> exact ok_nd _
    · exact ok_nd _
  unfold apply
  simp only
  split
  · exact bind_nd (stoul_nd _) fun a _ => bind_nd (ok_nd _) fun j _ => hk j
  · exact bind_nd (ok_nd _) fun j _ => hk j

theorem applyAll_nd (buffer after : List UInt8) : ∀ (ps : List (List UInt8 × List UInt8)) (i : Info), applyAll buffer after ps i ≠ .diverge
  | [], i => fun h => by cases h
  | p :: ps, i => by
    rw [applyAll]
    exact bind_nd (apply_nd _ _ _ _) fun j _ => applyAll_nd buffer after ps j

end Verif.Http
