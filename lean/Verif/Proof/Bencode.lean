import Verif.Spec.Bencode

namespace Verif.Bencode
open Verif

/-! ### Decimal numbers -/

theorem dec_ne_nil (n : Nat) : dec n ≠ [] := by
  unfold dec; split <;> simp

theorem digit_ofNat {k : Nat} (h : k < 10) : isDigit (UInt8.ofNat (48 + k)) = true ∧ (UInt8.ofNat (48 + k)).toNat = 48 + k := by
  have : (UInt8.ofNat (48 + k)).toNat = 48 + k := by simp; omega
  refine ⟨?_, this⟩
  unfold isDigit; rw [this]; simp; omega

theorem dec_digits (n : Nat) : ∀ c ∈ dec n, isDigit c = true := by
  induction n using dec.induct with
  | case1 n h =>
    intro c hc; unfold dec at hc; rw [if_pos h] at hc
    simp only [List.mem_singleton] at hc; subst hc; exact (digit_ofNat h).1
  | case2 n h ih =>
    intro c hc; unfold dec at hc; rw [if_neg h] at hc
    rcases List.mem_append.mp hc with hc | hc
    · exact ih c hc
    · simp only [List.mem_singleton] at hc; subst hc; exact (digit_ofNat (by omega)).1

theorem decVal_dec (n : Nat) : decVal (dec n) = n := by
  induction n using dec.induct with
  | case1 n h =>
    unfold dec; rw [if_pos h]; unfold decVal
    simp only [List.foldl_cons, List.foldl_nil, (digit_ofNat h).2]; omega
  | case2 n h ih =>
    unfold dec; rw [if_neg h]; unfold decVal at *
    rw [List.foldl_append, ih]
    simp only [List.foldl_cons, List.foldl_nil, (digit_ofNat (show n % 10 < 10 by omega)).2]; omega

theorem spanLen_of {p : UInt8 → Bool} (ds : List UInt8) (c : UInt8) (t : List UInt8) (h : ∀ d ∈ ds, p d = true)
    (hc : p c = false) : spanLen p (ds ++ c :: t) = .ok ds.length := by
  induction ds with
  | nil => simp [spanLen, hc]
  | cons d ds ih =>
    simp only [List.cons_append, spanLen]
    rw [if_pos (h d (by simp)), ih (fun x hx => h x (by simp [hx]))]
    simp

theorem digit_facts {c : UInt8} (h : isDigit c = true) :
    isSpace c = false ∧ c ≠ chr '-' ∧ c ≠ chr '+' ∧ c ≠ chr 'e' ∧ c ≠ chr 'i' ∧ c ≠ chr 'l' ∧ c ≠ chr 'd' ∧ c ≠ chr ':' := by
  revert h
  exact forall_u8 (p := fun c => isDigit c = true → isSpace c = false ∧ c ≠ chr '-' ∧ c ≠ chr '+' ∧ c ≠ chr 'e' ∧
    c ≠ chr 'i' ∧ c ≠ chr 'l' ∧ c ≠ chr 'd' ∧ c ≠ chr ':') (by decide +kernel) c

theorem dec_head (n : Nat) : ∃ d ds, dec n = d :: ds ∧ isDigit d = true := by
  match h : dec n, dec_ne_nil n with
  | d :: ds, _ => exact ⟨d, ds, rfl, dec_digits n d (by rw [h]; simp)⟩

theorem toInt32_id {v : Int} (h0 : 0 ≤ v) (h : v < 2147483648) : toInt32 v = v := by unfold toInt32; omega

theorem strtol_dec (n : Nat) (c : UInt8) (t : List UInt8) (hc : isDigit c = false) (hn : n < 9223372036854775808) :
    strtol (dec n ++ c :: t) = .ok ((n : Int), (dec n).length) := by
  obtain ⟨d, ds, hd, hdig⟩ := dec_head n
  have hf := digit_facts hdig
  unfold strtol
  have h1 : spanLen isSpace (dec n ++ c :: t) = .ok 0 := by rw [hd]; simp [spanLen, hf.1]
  rw [h1]
  simp only [Res.bind_ok]
  have h2 : rd (dec n ++ c :: t) 0 = .ok d := by rw [hd]; rfl
  rw [h2]
  simp only [Res.bind_ok, hf.2.1, hf.2.2.1, or_self, if_false, Nat.add_zero, List.drop_zero]
  rw [spanLen_of _ _ _ (dec_digits n) hc]
  simp only [Res.bind_ok, List.take_left, decVal_dec]
  rw [if_neg (by rw [hd]; simp)]
  simp only [Res.pure_eq]
  congr 2
  · omega
  · omega

/-! ### Memory -/

theorem rd_drop {α} {mem : List α} {pos : Nat} {c : α} {t : List α} (h : mem.drop pos = c :: t) : rd mem pos = .ok c := by
  have : mem[pos]? = some c := by
    have := congrArg (·[0]?) h
    simpa using this
  unfold rd; rw [this]

theorem drop_add {α} {mem : List α} {pos : Nat} {x t : List α} (h : mem.drop pos = x ++ t) : mem.drop (pos + x.length) = t := by
  rw [← List.drop_drop, h, List.drop_left]

theorem drop_one {α} {mem : List α} {pos : Nat} {c : α} {t : List α} (h : mem.drop pos = c :: t) : mem.drop (pos + 1) = t := by
  rw [← List.drop_drop, h]; rfl

theorem textAt_ok (e : Env) (objs : List Obj) (p n : Nat) (h : p + n < e.bodyEnd) :
    textAt e objs p n (chr ':') = .ok (some objs.length, ⟨p + 1 + n, objs ++ [⟨p + 1, n, 0, .text⟩]⟩) := by
  unfold textAt
  have h1 : ¬ (chr ':' ≠ chr ':' ∨ (e.bodyEnd : Int) - p < n) := by
    intro h'
    rcases h' with h' | h'
    · exact h' rfl
    · omega
  have h2 : ¬ ((p : Int) + 1 + n < 0) := by omega
  have h3 : ((p : Int) + 1 + n).toNat = p + 1 + n := by omega
  rw [if_neg h1, if_neg h2, h3]

theorem parseString_enc (e : Env) (pos : Nat) (objs : List Obj) (s t : List UInt8)
    (hm : e.mem.drop pos = encStr s ++ t) (hb : pos + (encStr s).length ≤ e.bodyEnd) (hs : s.length < 2147483648) :
    parseString e ⟨pos, objs⟩ = .ok (some objs.length,
      ⟨pos + (encStr s).length, objs ++ [⟨pos + (dec s.length).length + 1, s.length, 0, .text⟩]⟩) := by
  have hl : (encStr s).length = (dec s.length).length + 1 + s.length := by unfold encStr; simp; omega
  unfold encStr at hm
  rw [List.append_assoc, List.cons_append] at hm
  have hst := strtol_dec s.length (chr ':') (s ++ t) (by decide) (by omega)
  have hti : toInt32 (s.length : Int) = s.length := toInt32_id (by omega) (by omega)
  have hrd := rd_drop (drop_add hm)
  have hta := textAt_ok e objs (pos + (dec s.length).length) s.length (by omega)
  unfold parseString
  simp only [hm, hst, Res.bind_ok, hrd, hti, hta]
  rw [show pos + (encStr s).length = pos + (dec s.length).length + 1 + s.length by omega]

theorem intLoop_dec (bodyEnd : Nat) (ds : List UInt8) (t : List UInt8) (pos size : Nat) (h : ∀ d ∈ ds, isDigit d = true)
    (hb : pos + ds.length < bodyEnd) : intLoop bodyEnd (ds ++ chr 'e' :: t) pos size = .ok (pos + ds.length, size + ds.length) := by
  induction ds generalizing pos size with
  | nil => simp [intLoop, show isDigit (chr 'e') = false by decide, show (chr 'e' == chr '-') = false by decide]
  | cons d ds ih =>
    simp only [List.length_cons] at hb
    simp only [List.cons_append, intLoop]
    rw [if_pos, ih _ _ (fun x hx => h x (by simp [hx])) (by omega)]
    · simp only [List.length_cons]; congr 2 <;> omega
    · simp [h d (by simp)]; omega

theorem parseInt_enc (e : Env) (pos : Nat) (objs : List Obj) (n : Nat) (t : List UInt8)
    (hm : e.mem.drop pos = chr 'i' :: dec n ++ [chr 'e'] ++ t) (hb : pos + ((dec n).length + 2) ≤ e.bodyEnd) :
    parseInt e ⟨pos, objs⟩ = .ok (some objs.length,
      ⟨pos + ((dec n).length + 2), objs ++ [⟨pos + 1, (dec n).length, 0, .number⟩]⟩) := by
  have h1 : e.mem.drop (pos + 1) = dec n ++ chr 'e' :: t := by
    have := drop_one (c := chr 'i') (t := dec n ++ chr 'e' :: t) (hm.trans (by simp))
    exact this
  unfold parseInt
  rw [show (PSt.mk pos objs).pos = pos from rfl, h1, intLoop_dec _ _ _ _ _ (dec_digits n) (by omega)]
  simp only [Res.bind_ok]
  rw [rd_drop (drop_add h1)]
  simp only [Res.bind_ok, ne_eq, not_true_eq_false, if_false, Res.pure_eq, Nat.zero_add]
  rw [show pos + ((dec n).length + 2) = pos + 1 + (dec n).length + 1 by omega]

theorem notEnd_of {e : Env} {pos : Nat} {c : UInt8} {t : List UInt8} (h : e.mem.drop pos = c :: t) :
    notEnd e pos = .ok (c != chr 'e' && decide (pos < e.bodyEnd)) := by
  unfold notEnd; rw [rd_drop h]; rfl

/-! ### The objects of a parsed value -/

mutual
/-- The objects of a value encoded at `pos`, the first with sibling offset `nx`. -/
def BVal.flat : BVal → Nat → Nat → List Obj
  | .int n, pos, nx => [⟨pos + 1, (dec n).length, nx, .number⟩]
  | .str s, pos, nx => [⟨pos + (dec s.length).length + 1, s.length, nx, .text⟩]
  | .list vs, pos, nx => ⟨0, vs.length, nx, .list⟩ :: flatList vs (pos + 1)
  | .dict kvs, pos, nx => ⟨0, kvs.length, nx, .dictionary⟩ :: flatDict kvs (pos + 1)
def flatList : List BVal → Nat → List Obj
  | [], _ => []
  | v :: vs, pos => v.flat pos (if vs.isEmpty then 0 else v.count) ++ flatList vs (pos + v.enc.length)
def flatDict : List (List UInt8 × BVal) → Nat → List Obj
  | [], _ => []
  | kv :: kvs, pos => ⟨pos + (dec kv.1.length).length + 1, kv.1.length, 1, .text⟩ ::
      (kv.2.flat (pos + (encStr kv.1).length) (if kvs.isEmpty then 0 else kv.2.count) ++
        flatDict kvs (pos + (encStr kv.1).length + kv.2.enc.length))
end

mutual
theorem flat_length : (v : BVal) → (pos nx : Nat) → (v.flat pos nx).length = v.count
  | .int _, _, _ => by simp [BVal.flat, BVal.count]
  | .str _, _, _ => by simp [BVal.flat, BVal.count]
  | .list vs, pos, _ => by simp [BVal.flat, BVal.count, flatList_length vs (pos + 1)]; omega
  | .dict kvs, pos, _ => by simp [BVal.flat, BVal.count, flatDict_length kvs (pos + 1)]; omega
theorem flatList_length : (vs : List BVal) → (pos : Nat) → (flatList vs pos).length = countList vs
  | [], _ => by simp [flatList, countList]
  | v :: vs, pos => by simp [flatList, countList, flat_length v, flatList_length vs]
theorem flatDict_length : (kvs : List (List UInt8 × BVal)) → (pos : Nat) → (flatDict kvs pos).length = countDict kvs
  | [], _ => by simp [flatDict, countDict]
  | kv :: kvs, pos => by simp [flatDict, countDict, flat_length kv.2, flatDict_length kvs]; omega
end

theorem count_pos (v : BVal) : 0 < v.count := by cases v <;> simp [BVal.count] <;> omega

theorem flat_head (v : BVal) (pos nx : Nat) : ∃ o r, o.next = nx ∧ v.flat pos nx = o :: r ∧
    ∀ n, v.flat pos n = { o with next := n } :: r := by
  cases v <;> simp only [BVal.flat]
  all_goals exact ⟨_, _, rfl, rfl, fun _ => rfl⟩

theorem modify_mid {α} (l : List α) (o : α) (r : List α) (f : α → α) : (l ++ o :: r).modify l.length f = l ++ f o :: r := by
  induction l with
  | nil => simp
  | cons a l ih => simp [ih]

theorem setNext_flat (objs : List Obj) (v : BVal) (pos nx n : Nat) (post : List Obj) :
    setNext (objs ++ (v.flat pos nx ++ post)) objs.length n = objs ++ (v.flat pos n ++ post) := by
  obtain ⟨o, r, _, h2, h3⟩ := flat_head v pos nx
  unfold setNext
  rw [h2, h3 n, List.cons_append, modify_mid, List.cons_append]

theorem enc_head (v : BVal) : ∃ c r, v.enc = c :: r ∧ c ≠ chr 'e' := by
  cases v with
  | int n => exact ⟨_, _, by simp only [BVal.enc, List.cons_append]; rfl, by decide⟩
  | str s =>
    obtain ⟨d, ds, hd, hdig⟩ := dec_head s.length
    exact ⟨d, ds ++ chr ':' :: s, by simp only [BVal.enc, encStr, hd, List.cons_append], (digit_facts hdig).2.2.2.1⟩
  | list vs => exact ⟨_, _, by simp only [BVal.enc, List.cons_append]; rfl, by decide⟩
  | dict kvs => exact ⟨_, _, by simp only [BVal.enc, List.cons_append]; rfl, by decide⟩

theorem encStr_head (s : List UInt8) : ∃ c r, encStr s = c :: r ∧ isDigit c = true := by
  obtain ⟨d, ds, hd, hdig⟩ := dec_head s.length
  exact ⟨d, ds ++ chr ':' :: s, by simp only [encStr, hd, List.cons_append], hdig⟩

theorem notEnd_list (e : Env) (pos : Nat) (vs : List BVal) (t : List UInt8)
    (hm : e.mem.drop pos = encList vs ++ chr 'e' :: t) (hb : pos + (encList vs).length < e.bodyEnd) :
    notEnd e pos = .ok (!vs.isEmpty) := by
  cases vs with
  | nil => rw [notEnd_of (c := chr 'e') (t := t) (by simpa [encList] using hm)]; simp
  | cons v vs =>
    obtain ⟨c, r, h1, h2⟩ := enc_head v
    rw [notEnd_of (c := c) (t := r ++ encList vs ++ chr 'e' :: t) (by rw [hm]; simp [encList, h1])]
    simp [h2]; omega

theorem notEnd_dict (e : Env) (pos : Nat) (kvs : List (List UInt8 × BVal)) (t : List UInt8)
    (hm : e.mem.drop pos = encDict kvs ++ chr 'e' :: t) (hb : pos + (encDict kvs).length < e.bodyEnd) :
    notEnd e pos = .ok (!kvs.isEmpty) := by
  cases kvs with
  | nil => rw [notEnd_of (c := chr 'e') (t := t) (by simpa [encDict] using hm)]; simp
  | cons kv kvs =>
    obtain ⟨c, r, h1, h2⟩ := encStr_head kv.1
    rw [notEnd_of (c := c) (t := r ++ kv.2.enc ++ encDict kvs ++ chr 'e' :: t) (by rw [hm]; simp [encDict, h1])]
    simp [(digit_facts h2).2.2.2.1]; omega

theorem diff16_add (a b : Nat) (h : a + b < 65536) : diff16 (a + b) a = b := by unfold diff16; omega

theorem finish_ok (e : Env) (objs rest : List Obj) (ty : Ty) (count pos : Nat) (c : UInt8) (t : List UInt8)
    (hm : e.mem.drop (pos + 1) = c :: t) :
    ∃ nx, finish e objs.length count ⟨pos, objs ++ { type := ty } :: rest⟩ =
      .ok (some objs.length, ⟨pos + 1, objs ++ ⟨0, count, nx, ty⟩ :: rest⟩) := by
  unfold finish
  simp only
  rw [notEnd_of hm]
  simp only [Res.bind_ok, Res.pure_eq, modify_mid]
  exact ⟨_, rfl⟩

theorem enc_length_pos (v : BVal) : 0 < v.enc.length := by
  obtain ⟨c, r, h, _⟩ := enc_head v
  rw [h]; simp

mutual

theorem parse_enc : (v : BVal) → (e : Env) → (n pos : Nat) → (objs : List Obj) → (t : List UInt8) →
    e.mem.drop pos = v.enc ++ t → t ≠ [] → pos + v.enc.length ≤ e.bodyEnd → v.fits → objs.length + v.count < 65536 →
    v.enc.length ≤ n →
    ∃ nx, internalParse e n ⟨pos, objs⟩ = .ok (some objs.length, ⟨pos + v.enc.length, objs ++ v.flat pos nx⟩)
  | .int k, e, n, pos, objs, t, hm, ht, hb, hf, hc, hn => by
    obtain ⟨n, rfl⟩ : ∃ m, n = m + 1 := ⟨n - 1, by have := enc_length_pos (.int k); omega⟩
    simp only [BVal.enc] at hm hb hn
    unfold internalParse
    rw [rd_drop (c := chr 'i') (t := dec k ++ [chr 'e'] ++ t) (by simpa using hm)]
    rw [Res.bind_ok, if_neg (by decide), if_pos rfl, parseInt_enc e pos objs k t hm (by simpa using hb)]
    exact ⟨0, by simp [BVal.enc, BVal.flat]⟩
  | .str s, e, n, pos, objs, t, hm, ht, hb, hf, hc, hn => by
    obtain ⟨n, rfl⟩ : ∃ m, n = m + 1 := ⟨n - 1, by have := enc_length_pos (.str s); omega⟩
    simp only [BVal.enc] at hm hb hn
    obtain ⟨c, r, h1, h2⟩ := encStr_head s
    unfold internalParse
    rw [rd_drop (c := c) (t := r ++ t) (by rw [hm, h1]; simp)]
    simp only [Res.bind_ok]
    rw [if_pos h2, parseString_enc e pos objs s t hm hb hf]
    exact ⟨0, by simp [BVal.enc, BVal.flat]⟩
  | .list vs, e, n, pos, objs, t, hm, ht, hb, hf, hc, hn => by
    obtain ⟨n, rfl⟩ : ∃ m, n = m + 1 := ⟨n - 1, by have := enc_length_pos (.list vs); omega⟩
    simp only [BVal.enc, List.length_cons, List.length_append, List.length_nil] at hm hb hn
    obtain ⟨c, t', rfl⟩ := List.exists_cons_of_ne_nil ht
    have hm1 : e.mem.drop (pos + 1) = encList vs ++ chr 'e' :: (c :: t') := drop_one (hm.trans (by simp only [List.cons_append, List.append_assoc, List.singleton_append]; rfl))
    have hl := listLoop_enc vs e n 0 (pos + 1) (objs ++ [{ type := .list }]) _ hm1 (by omega) hf
      (by simp [BVal.count] at hc; simp; omega) (by omega)
    unfold internalParse
    rw [rd_drop (c := chr 'l') (t := encList vs ++ [chr 'e'] ++ c :: t') (by simpa using hm)]
    rw [Res.bind_ok, if_neg (by decide), if_neg (by decide), if_pos rfl, hl]
    simp only [Res.bind_ok, Nat.zero_add, List.append_assoc, List.singleton_append]
    obtain ⟨nx, h⟩ := finish_ok e objs (flatList vs (pos + 1)) .list vs.length (pos + 1 + (encList vs).length) c t'
      (drop_one (drop_add hm1))
    refine ⟨nx, ?_⟩
    rw [h]
    simp only [BVal.flat, BVal.enc, List.length_cons, List.length_append, List.length_nil]
    rw [show pos + ((encList vs).length + 1 + (0 + 1)) = pos + 1 + (encList vs).length + 1 by omega]
  | .dict kvs, e, n, pos, objs, t, hm, ht, hb, hf, hc, hn => by
    obtain ⟨n, rfl⟩ : ∃ m, n = m + 1 := ⟨n - 1, by have := enc_length_pos (.dict kvs); omega⟩
    simp only [BVal.enc, List.length_cons, List.length_append, List.length_nil] at hm hb hn
    obtain ⟨c, t', rfl⟩ := List.exists_cons_of_ne_nil ht
    have hm1 : e.mem.drop (pos + 1) = encDict kvs ++ chr 'e' :: (c :: t') := drop_one (hm.trans (by simp only [List.cons_append, List.append_assoc, List.singleton_append]; rfl))
    have hl := dictLoop_enc kvs e n 0 (pos + 1) (objs ++ [{ type := .dictionary }]) _ hm1 (by omega) hf
      (by simp [BVal.count] at hc; simp; omega) (by omega)
    unfold internalParse
    rw [rd_drop (c := chr 'd') (t := encDict kvs ++ [chr 'e'] ++ c :: t') (by simpa using hm)]
    rw [Res.bind_ok, if_neg (by decide), if_neg (by decide), if_neg (by decide), if_pos rfl, hl]
    simp only [Res.bind_ok, Nat.zero_add, List.append_assoc, List.singleton_append]
    obtain ⟨nx, h⟩ := finish_ok e objs (flatDict kvs (pos + 1)) .dictionary kvs.length (pos + 1 + (encDict kvs).length) c t'
      (drop_one (drop_add hm1))
    refine ⟨nx, ?_⟩
    rw [h]
    simp only [BVal.flat, BVal.enc, List.length_cons, List.length_append, List.length_nil]
    rw [show pos + ((encDict kvs).length + 1 + (0 + 1)) = pos + 1 + (encDict kvs).length + 1 by omega]

theorem listLoop_enc : (vs : List BVal) → (e : Env) → (n count pos : Nat) → (objs : List Obj) → (t : List UInt8) →
    e.mem.drop pos = encList vs ++ chr 'e' :: t → pos + (encList vs).length < e.bodyEnd → fitsList vs →
    objs.length + countList vs < 65536 → (encList vs).length < n →
    listLoop e n count ⟨pos, objs⟩ = .ok (count + vs.length, ⟨pos + (encList vs).length, objs ++ flatList vs pos⟩)
  | [], e, n, count, pos, objs, t, hm, hb, hf, hc, hn => by
    obtain ⟨n, rfl⟩ : ∃ m, n = m + 1 := ⟨n - 1, by omega⟩
    unfold listLoop
    rw [notEnd_list e pos [] t hm hb]
    simp [encList, flatList]
  | v :: vs, e, n, count, pos, objs, t, hm, hb, hf, hc, hn => by
    obtain ⟨n, rfl⟩ : ∃ m, n = m + 1 := ⟨n - 1, by omega⟩
    have hpos := enc_length_pos v
    have hm' : e.mem.drop pos = v.enc ++ (encList vs ++ chr 'e' :: t) := by rw [hm]; simp [encList]
    have hlen : (encList (v :: vs)).length = v.enc.length + (encList vs).length := by simp [encList]
    have hcnt : countList (v :: vs) = v.count + countList vs := by simp [countList]
    have hfit : v.fits ∧ fitsList vs := by simpa [fitsList] using hf
    rw [hcnt] at hc
    obtain ⟨nx, hp⟩ := parse_enc v e n pos objs _ hm' (by simp) (by omega) hfit.1 (by omega) (by omega)
    have hm2 := drop_add hm'
    unfold listLoop
    rw [notEnd_list e pos (v :: vs) t hm hb]
    simp only [Res.bind_ok, List.isEmpty_cons, Bool.not_false, if_true]
    rw [hp]
    simp only [Res.bind_ok]
    rw [notEnd_list e _ vs t hm2 (by omega)]
    simp only [Res.bind_ok]
    rw [List.length_append, flat_length, diff16_add _ _ (by omega)]
    have := setNext_flat objs v pos nx (if (!vs.isEmpty) = true then v.count else 0) []
    simp only [List.append_nil] at this
    rw [this, listLoop_enc vs e n (count + 1) (pos + v.enc.length) _ t hm2 (by omega) hfit.2
      (by rw [List.length_append, flat_length]; omega) (by omega)]
    congr 2
    · simp; omega
    · congr 1
      · omega
      · simp only [flatList]
        cases vs <;> simp

theorem dictLoop_enc : (kvs : List (List UInt8 × BVal)) → (e : Env) → (n count pos : Nat) → (objs : List Obj) → (t : List UInt8) →
    e.mem.drop pos = encDict kvs ++ chr 'e' :: t → pos + (encDict kvs).length < e.bodyEnd → fitsDict kvs →
    objs.length + countDict kvs < 65536 → (encDict kvs).length < n →
    dictLoop e n count ⟨pos, objs⟩ = .ok (count + kvs.length, ⟨pos + (encDict kvs).length, objs ++ flatDict kvs pos⟩)
  | [], e, n, count, pos, objs, t, hm, hb, hf, hc, hn => by
    obtain ⟨n, rfl⟩ : ∃ m, n = m + 1 := ⟨n - 1, by omega⟩
    unfold dictLoop
    rw [notEnd_dict e pos [] t hm hb]
    simp [encDict, flatDict]
  | kv :: kvs, e, n, count, pos, objs, t, hm, hb, hf, hc, hn => by
    obtain ⟨n, rfl⟩ : ∃ m, n = m + 1 := ⟨n - 1, by omega⟩
    have hpos := enc_length_pos kv.2
    have hm' : e.mem.drop pos = encStr kv.1 ++ (kv.2.enc ++ (encDict kvs ++ chr 'e' :: t)) := by rw [hm]; simp [encDict]
    have hlen : (encDict (kv :: kvs)).length = (encStr kv.1).length + kv.2.enc.length + (encDict kvs).length := by
      simp [encDict]; omega
    have hcnt : countDict (kv :: kvs) = 1 + kv.2.count + countDict kvs := by simp [countDict]
    have hfit : kv.1.length < 2147483648 ∧ kv.2.fits ∧ fitsDict kvs := by simpa [fitsDict] using hf
    rw [hcnt] at hc
    have hk := parseString_enc e pos objs kv.1 _ hm' (by omega) hfit.1
    have hm1 := drop_add hm'
    obtain ⟨nx, hp⟩ := parse_enc kv.2 e n (pos + (encStr kv.1).length)
      (objs ++ [⟨pos + (dec kv.1.length).length + 1, kv.1.length, 0, .text⟩]) _ hm1 (by simp) (by omega) hfit.2.1
      (by simp; omega) (by omega)
    have hm2 := drop_add hm1
    unfold dictLoop
    rw [notEnd_dict e pos (kv :: kvs) t hm hb]
    simp only [Res.bind_ok, List.isEmpty_cons, Bool.not_false, if_true]
    rw [hk]
    simp only [Res.bind_ok]
    rw [hp]
    simp only [Res.bind_ok]
    rw [notEnd_dict e _ kvs t hm2 (by omega)]
    simp only [Res.bind_ok]
    have hmod : (objs ++ [(⟨pos + (dec kv.1.length).length + 1, kv.1.length, 0, .text⟩ : Obj)]).length % 65536 = objs.length + 1 := by
      simp; omega
    rw [hmod, if_neg (by omega), Nat.add_sub_cancel]
    rw [show (objs ++ [(⟨pos + (dec kv.1.length).length + 1, kv.1.length, 0, .text⟩ : Obj)] ++
        kv.2.flat (pos + (encStr kv.1).length) nx).length = (objs.length + 1) + kv.2.count by
      simp [flat_length]; omega, diff16_add _ _ (by omega)]
    have h1 : setNext (objs ++ [(⟨pos + (dec kv.1.length).length + 1, kv.1.length, 0, .text⟩ : Obj)] ++
        kv.2.flat (pos + (encStr kv.1).length) nx) objs.length 1 =
        (objs ++ [(⟨pos + (dec kv.1.length).length + 1, kv.1.length, 1, .text⟩ : Obj)]) ++
        (kv.2.flat (pos + (encStr kv.1).length) nx ++ []) := by
      unfold setNext
      rw [List.append_assoc, List.singleton_append, modify_mid]
      simp
    rw [h1]
    have h2 := setNext_flat (objs ++ [(⟨pos + (dec kv.1.length).length + 1, kv.1.length, 1, .text⟩ : Obj)]) kv.2
      (pos + (encStr kv.1).length) nx (if (!kvs.isEmpty) = true then kv.2.count else 0) []
    rw [show (objs ++ [(⟨pos + (dec kv.1.length).length + 1, kv.1.length, 1, .text⟩ : Obj)]).length =
      (objs ++ [(⟨pos + (dec kv.1.length).length + 1, kv.1.length, 0, .text⟩ : Obj)]).length by simp] at h2
    rw [h2, dictLoop_enc kvs e n (count + 1) (pos + (encStr kv.1).length + kv.2.enc.length) _ t hm2 (by omega) hfit.2.2
      (by simp [flat_length]; omega) (by omega)]
    congr 2
    · simp; omega
    · congr 1
      · omega
      · simp only [flatDict]
        cases kvs <;> simp

end

/-! ### Writer -/

mutual
theorem write_enc : (v : BVal) → (d : List UInt8) → v.write d = d ++ v.enc
  | .int n, d => by simp [BVal.write, BVal.enc, addNumber]
  | .str s, d => by simp [BVal.write, BVal.enc, addText, encStr]
  | .list vs, d => by simp [BVal.write, BVal.enc, endArray, startArray, writeList_enc vs]
  | .dict kvs, d => by simp [BVal.write, BVal.enc, endMap, startMap, writeDict_enc kvs]
theorem writeList_enc : (vs : List BVal) → (d : List UInt8) → writeList vs d = d ++ encList vs
  | [], d => by simp [writeList, encList]
  | v :: vs, d => by simp [writeList, encList, write_enc v, writeList_enc vs]
theorem writeDict_enc : (kvs : List (List UInt8 × BVal)) → (d : List UInt8) → writeDict kvs d = d ++ encDict kvs
  | [], d => by simp [writeDict, encDict]
  | kv :: kvs, d => by simp [writeDict, encDict, write_enc kv.2, writeDict_enc kvs, addText, encStr]
end

/-! ### Navigation -/

theorem rd_mid {α} (pre : List α) (o : α) (post : List α) : rd (pre ++ o :: post) pre.length = .ok o := by
  unfold rd; simp

theorem getBigInt_dec (mem : List UInt8) (o : Obj) (n : Nat) (t : List UInt8) (h : mem.drop o.data = dec n ++ chr 'e' :: t)
    (hn : n < 18446744073709551616) : getBigInt mem o = .ok n := by
  obtain ⟨d, ds, hd, hdig⟩ := dec_head n
  have hf := digit_facts hdig
  unfold getBigInt
  rw [h]
  have h1 : spanLen isSpace (dec n ++ chr 'e' :: t) = .ok 0 := by rw [hd]; simp [spanLen, hf.1]
  simp only [h1, Res.bind_ok]
  have h2 : rd (dec n ++ chr 'e' :: t) 0 = .ok d := by rw [hd]; rfl
  rw [h2]
  simp only [Res.bind_ok, hf.2.1, hf.2.2.1, or_self, if_false, Nat.add_zero, List.drop_zero]
  rw [spanLen_of _ _ _ (dec_digits n) (by decide)]
  simp only [Res.bind_ok, List.take_left, decVal_dec, Res.pure_eq]
  rw [if_neg (by omega)]

theorem bytes_at {mem : List UInt8} {pos : Nat} {s t : List UInt8} (nx : Nat) (ty : Ty)
    (h : mem.drop pos = encStr s ++ t) : (⟨pos + (dec s.length).length + 1, s.length, nx, ty⟩ : Obj).bytes mem = s := by
  unfold Obj.bytes
  unfold encStr at h
  rw [List.append_assoc, List.cons_append] at h
  rw [drop_one (drop_add h)]
  simp

theorem nextSibling_mid (pre : List Obj) (o : Obj) (post : List Obj) :
    nextSibling (pre ++ o :: post) pre.length = .ok (if o.next ≠ 0 then some (pre.length + o.next) else none) := by
  unfold nextSibling; rw [rd_mid]; rfl

theorem nextSibling_flat (pre : List Obj) (v : BVal) (post : List Obj) (pos nx : Nat) :
    nextSibling (pre ++ (v.flat pos nx ++ post)) pre.length = .ok (if nx ≠ 0 then some (pre.length + nx) else none) := by
  obtain ⟨o, r, h1, h2, _⟩ := flat_head v pos nx
  unfold nextSibling
  rw [h2, List.cons_append, rd_mid]
  simp [h1]

mutual

theorem tree_flat : (v : BVal) → (mem : List UInt8) → (pre post : List Obj) → (n pos nx : Nat) → (t : List UInt8) →
    mem.drop pos = v.enc ++ t → v.fits → 2 * v.count ≤ n → tree mem (pre ++ (v.flat pos nx ++ post)) n pre.length = .ok v
  | .int k, mem, pre, post, n, pos, nx, t, hm, hf, hn => by
    obtain ⟨n, rfl⟩ : ∃ m, n = m + 1 := ⟨n - 1, by have := count_pos (.int k); omega⟩
    unfold tree
    simp only [BVal.flat, List.singleton_append]
    rw [rd_mid]
    simp only [Res.bind_ok]
    rw [getBigInt_dec mem _ k t (drop_one (c := chr 'i') (hm.trans (by simp [BVal.enc]))) hf]
    rfl
  | .str s, mem, pre, post, n, pos, nx, t, hm, hf, hn => by
    obtain ⟨n, rfl⟩ : ∃ m, n = m + 1 := ⟨n - 1, by have := count_pos (.str s); omega⟩
    unfold tree
    simp only [BVal.flat, List.singleton_append]
    rw [rd_mid]
    simp only [Res.bind_ok]
    rw [bytes_at nx .text (by simpa [BVal.enc] using hm)]
    rfl
  | .list vs, mem, pre, post, n, pos, nx, t, hm, hf, hn => by
    obtain ⟨n, rfl⟩ : ∃ m, n = m + 1 := ⟨n - 1, by have := count_pos (.list vs); omega⟩
    have hi := treeItems_flat vs mem (pre ++ [⟨0, vs.length, nx, .list⟩]) post n (pos + 1) (chr 'e' :: t)
      (drop_one (c := chr 'l') (hm.trans (by simp [BVal.enc]))) hf (by simp [BVal.count] at hn; omega)
    simp only [List.append_assoc, List.singleton_append, List.length_append, List.length_cons, List.length_nil, Nat.zero_add] at hi
    unfold tree
    simp only [BVal.flat, List.cons_append]
    rw [rd_mid]
    simp only [Res.bind_ok, firstItem, rd_mid, Res.pure_eq]
    have he : (if ((vs.length : Nat) : Int) ≠ 0 then some (pre.length + 1) else none) =
        (if vs.isEmpty then none else some (pre.length + 1)) := by cases vs <;> simp; omega
    rw [he, hi]
    rfl
  | .dict kvs, mem, pre, post, n, pos, nx, t, hm, hf, hn => by
    obtain ⟨n, rfl⟩ : ∃ m, n = m + 1 := ⟨n - 1, by have := count_pos (.dict kvs); omega⟩
    have hi := treeEntries_flat kvs mem (pre ++ [⟨0, kvs.length, nx, .dictionary⟩]) post n (pos + 1) (chr 'e' :: t)
      (drop_one (c := chr 'd') (hm.trans (by simp [BVal.enc]))) hf (by simp [BVal.count] at hn; omega)
    simp only [List.append_assoc, List.singleton_append, List.length_append, List.length_cons, List.length_nil, Nat.zero_add] at hi
    unfold tree
    simp only [BVal.flat, List.cons_append]
    rw [rd_mid]
    simp only [Res.bind_ok, firstItem, rd_mid, Res.pure_eq]
    have he : (if ((kvs.length : Nat) : Int) ≠ 0 then some (pre.length + 1) else none) =
        (if kvs.isEmpty then none else some (pre.length + 1)) := by cases kvs <;> simp; omega
    rw [he, hi]
    rfl

theorem treeItems_flat : (vs : List BVal) → (mem : List UInt8) → (pre post : List Obj) → (n pos : Nat) → (t : List UInt8) →
    mem.drop pos = encList vs ++ t → fitsList vs → 2 * countList vs < n →
    treeItems mem (pre ++ (flatList vs pos ++ post)) n (if vs.isEmpty then none else some pre.length) = .ok vs
  | [], mem, pre, post, n, pos, t, hm, hf, hn => by simp [treeItems]
  | v :: vs, mem, pre, post, n, pos, t, hm, hf, hn => by
    have hfit : v.fits ∧ fitsList vs := by simpa [fitsList] using hf
    have hcnt : countList (v :: vs) = v.count + countList vs := by simp [countList]
    have hcp := count_pos v
    obtain ⟨n, rfl⟩ : ∃ m, n = m + 1 := ⟨n - 1, by omega⟩
    have hm' : mem.drop pos = v.enc ++ (encList vs ++ t) := by rw [hm]; simp [encList]
    simp only [List.isEmpty_cons, Bool.false_eq_true, if_false, flatList, List.append_assoc]
    generalize hnx : (if vs.isEmpty = true then 0 else v.count) = nx
    unfold treeItems
    rw [tree_flat v mem pre (flatList vs (pos + v.enc.length) ++ post) n pos nx _ hm' hfit.1 (by omega)]
    simp only [Res.bind_ok]
    rw [nextSibling_flat]
    simp only [Res.bind_ok]
    have hi := treeItems_flat vs mem (pre ++ v.flat pos nx) post n (pos + v.enc.length) t (drop_add hm') hfit.2 (by omega)
    rw [List.append_assoc, List.length_append, flat_length] at hi
    have he : (if nx ≠ 0 then some (pre.length + nx) else none) =
        (if vs.isEmpty then none else some (pre.length + v.count)) := by
      subst hnx
      cases vs
      · simp
      · simp; omega
    rw [he, hi]
    rfl

theorem treeEntries_flat : (kvs : List (List UInt8 × BVal)) → (mem : List UInt8) → (pre post : List Obj) → (n pos : Nat) →
    (t : List UInt8) → mem.drop pos = encDict kvs ++ t → fitsDict kvs → 2 * countDict kvs < n →
    treeEntries mem (pre ++ (flatDict kvs pos ++ post)) n (if kvs.isEmpty then none else some pre.length) = .ok kvs
  | [], mem, pre, post, n, pos, t, hm, hf, hn => by simp [treeEntries]
  | kv :: kvs, mem, pre, post, n, pos, t, hm, hf, hn => by
    have hfit : kv.1.length < 2147483648 ∧ kv.2.fits ∧ fitsDict kvs := by simpa [fitsDict] using hf
    have hcnt : countDict (kv :: kvs) = 1 + kv.2.count + countDict kvs := by simp [countDict]
    have hcp := count_pos kv.2
    obtain ⟨n, rfl⟩ : ∃ m, n = m + 1 := ⟨n - 1, by omega⟩
    have hm' : mem.drop pos = encStr kv.1 ++ (kv.2.enc ++ (encDict kvs ++ t)) := by rw [hm]; simp [encDict]
    have hm2 := drop_add hm'
    simp only [List.isEmpty_cons, Bool.false_eq_true, if_false, flatDict, List.append_assoc, List.cons_append]
    generalize hnx : (if kvs.isEmpty = true then 0 else kv.2.count) = nx
    unfold treeEntries
    rw [rd_mid]
    rw [Res.bind_ok, nextSibling_mid]
    simp only [Res.bind_ok, ne_eq, Nat.succ_ne_zero, not_false_eq_true, if_true]
    have ht := tree_flat kv.2 mem (pre ++ [⟨pos + (dec kv.1.length).length + 1, kv.1.length, 1, .text⟩])
      (flatDict kvs (pos + (encStr kv.1).length + kv.2.enc.length) ++ post) n (pos + (encStr kv.1).length) nx _ hm2 hfit.2.1 (by omega)
    have hs := nextSibling_flat (pre ++ [⟨pos + (dec kv.1.length).length + 1, kv.1.length, 1, .text⟩]) kv.2
      (flatDict kvs (pos + (encStr kv.1).length + kv.2.enc.length) ++ post) (pos + (encStr kv.1).length) nx
    simp only [List.append_assoc, List.singleton_append, List.length_append, List.length_cons, List.length_nil, Nat.zero_add] at ht hs
    rw [ht]
    simp only [Res.bind_ok]
    rw [hs]
    simp only [Res.bind_ok]
    have hi := treeEntries_flat kvs mem (pre ++ ⟨pos + (dec kv.1.length).length + 1, kv.1.length, 1, .text⟩ ::
      kv.2.flat (pos + (encStr kv.1).length) nx) post n (pos + (encStr kv.1).length + kv.2.enc.length) t (drop_add hm2) hfit.2.2 (by omega)
    simp only [List.append_assoc, List.cons_append, List.length_append, List.length_cons, flat_length] at hi
    have he : (if nx ≠ 0 then some (pre.length + 1 + nx) else none) =
        (if kvs.isEmpty then none else some (pre.length + (kv.2.count + 1))) := by
      subst hnx
      cases kvs
      · simp
      · simp; omega
    rw [he, hi, bytes_at _ _ hm']
    rfl

end

end Verif.Bencode
