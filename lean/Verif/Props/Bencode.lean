import Verif.Proof.BencodeFind
import Verif.Proof.BencodeSafe
import Verif.Proof.BencodeBad

/-! C01-C03: bencode. `parse fuel data after` is the parser on the buffer `data`, where `after` is the
memory following it; `tree` is what a user of the parsed objects sees. -/

namespace Verif
open Bencode TorrentFile

/-! ### C01 -/

/-- The writer produces the bencoding of what is written. -/
theorem C01_writer (v : BVal) (d : List UInt8) : v.write d = d ++ v.enc := write_enc v d

/-- Every value within the limits (64-bit numbers, strings below 2 GiB, fewer than 65536 objects):
parsing what the writer wrote succeeds, leaves nothing unread and shows the same value. (The parser
looks at one byte after the buffer, which must be readable, see `C02_wellformed_overread_violated`;
its value does not matter.) -/
theorem C01_round_trip (v : BVal) (hf : v.fits) (hc : v.count < 65536) (after : List UInt8) (ha : after ≠ [])
    (fuel : Nat) (hfuel : (v.write []).length ≤ fuel) :
    ∃ p, parse fuel (v.write []) after = .ok p ∧ p.remaining = 0 ∧ p.bodyEnd = (v.write []).length ∧
      ∀ n, 2 * v.count ≤ n → tree (v.write [] ++ after) p.objs n 0 = .ok v := by
  rw [write_enc, List.nil_append] at *
  obtain ⟨p, h1, h2, h3, _, h5⟩ := parseAt_enc v fuel (v.enc ++ after) 0 v.enc.length after rfl ha (Nat.le_refl _) hf hc hfuel
  exact ⟨p, h1, by omega, by omega, fun n hn => h5.tree hf n hn⟩

/-- Looking up a key in a parsed dictionary finds the value of the first entry with that key and the
type asked for. -/
theorem C01_lookup (a b : List (List UInt8 × BVal)) (name : List UInt8) (v : BVal)
    (hf : (BVal.dict (a ++ (name, v) :: b)).fits) (hc : (BVal.dict (a ++ (name, v) :: b)).count < 65536)
    (hfirst : ∀ x ∈ a, ¬ (x.1 = name ∧ x.2.ty = v.ty))
    (after : List UInt8) (ha : after ≠ []) (fuel : Nat) (hfuel : (BVal.dict (a ++ (name, v) :: b)).enc.length ≤ fuel) :
    ∃ p j, parse fuel (BVal.dict (a ++ (name, v) :: b)).enc after = .ok p ∧
      findKey ((BVal.dict (a ++ (name, v) :: b)).enc ++ after) p.objs 0 name v.ty = .ok (some j) ∧
      ∀ n, 2 * v.count ≤ n → tree ((BVal.dict (a ++ (name, v) :: b)).enc ++ after) p.objs n j = .ok v := by
  obtain ⟨p, h1, h2, h3, _, h5⟩ := parseAt_enc (.dict (a ++ (name, v) :: b)) fuel _ 0 _ after rfl ha (Nat.le_refl _) hf hc hfuel
  obtain ⟨j, h6, h7⟩ := findKey_present (kv := (name, v)) h5 hfirst
  have hfv : v.fits := (show _ ∧ v.fits ∧ _ from (fitsDict_append.mp hf).2).2.1
  exact ⟨p, j, h1, h6, fun n hn => h7.tree hfv n hn⟩

/-- ... and finds nothing if there is no such entry. -/
theorem C01_lookup_absent (kvs : List (List UInt8 × BVal)) (name : List UInt8) (ty : Ty)
    (hf : (BVal.dict kvs).fits) (hc : (BVal.dict kvs).count < 65536) (hno : ∀ x ∈ kvs, ¬ (x.1 = name ∧ x.2.ty = ty))
    (after : List UInt8) (ha : after ≠ []) (fuel : Nat) (hfuel : (BVal.dict kvs).enc.length ≤ fuel) :
    ∃ p, parse fuel (BVal.dict kvs).enc after = .ok p ∧
      findKey ((BVal.dict kvs).enc ++ after) p.objs 0 name ty = .ok none := by
  obtain ⟨p, h1, h2, h3, _, h5⟩ := parseAt_enc (.dict kvs) fuel _ 0 _ after rfl ha (Nat.le_refl _) hf hc hfuel
  exact ⟨p, h1, findKey_absent h5 name ty hno⟩

/-- Non-vacuity: nested, empty containers, keys that look like numbers, strings with delimiters. -/
example : ∃ v : BVal, v = .dict [(ascii "12", .list [.int 0, .list [], .str (ascii "e5:")]), ([], .dict [])] ∧
    v.fits ∧ v.count < 65536 := by
  refine ⟨_, rfl, ?_, ?_⟩ <;> simp [BVal.fits, fitsDict, fitsList, BVal.count, countDict, countList, ascii]

/-! ### C02 -/

/-- Every buffer of at most 65535 bytes without a negative or oversized length prefix that is followed
in memory by two NUL bytes and enough readable memory: parsing terminates, with a recursion depth and
loop count linear in the length, and reads nothing outside that memory.
Missing for the full property: it is false without these conditions, see the theorems below. -/
theorem C02_terminates_partial (data rest : List UInt8) (hlen : data.length < 65536)
    (hminus : ∀ pre ds post, data = pre ++ chr '-' :: (ds ++ chr ':' :: post) → (∀ c ∈ ds, isDigit c = true) → ds = [])
    (hsmall : ∀ pre ds post, data = pre ++ (ds ++ chr ':' :: post) → (∀ c ∈ ds, isDigit c = true) → decVal ds < 2147483648)
    (hrest : data.length < rest.length) (fuel : Nat) (hfuel : 2 * data.length + 3 ≤ fuel) :
    ∃ p, parse fuel data (0 :: 0 :: rest) = .ok p := by
  obtain ⟨r, h, _⟩ := (safe_all (rest := rest) ⟨hminus, hsmall⟩ hlen (by omega) fuel).1 ⟨0, []⟩ (by simp only; omega) (by simp)
    (by simp only; omega)
  unfold parse parseAt
  rw [Nat.zero_add, show data ++ 0 :: 0 :: rest = padded data rest from rfl, h]
  exact ⟨_, rfl⟩

/-- Non-vacuity: the conditions hold for a malformed buffer. -/
example : ∃ p, parse 100 (ascii "ld1:") (0 :: 0 :: [1, 2, 3, 4, 5]) = .ok p := by
  refine C02_terminates_partial _ _ (by decide) ?_ ?_ (by decide) _ (by decide)
  · intro pre ds post h
    have : chr '-' ∈ ascii "ld1:" := by rw [h]; simp
    exact absurd this (by decide)
  · intro pre ds post h hd
    have h1 := congrArg List.length h
    simp only [List.length_append, List.length_cons] at h1
    have h2 : (ascii "ld1:").length = 4 := by decide
    have h3 : 10 ^ ds.length ≤ 10 ^ 4 := Nat.pow_le_pow_right (by omega) (by omega)
    have := decVal_lt ds hd
    omega

/-- The four bytes "d-4:" make the parser recurse for ever, whatever follows them in memory. -/
theorem C02_endless_recursion_violated (after : List UInt8) (fuel : Nat) : parse fuel (ascii "d-4:") after = .diverge := by
  unfold parse parseAt
  have : (ascii "d-4:").length = 4 := by decide
  rw [this, Nat.zero_add, loop_diverges]
  rfl

/-- The parser looks `k` bytes past the end of a buffer of `k` bytes 'l': with at most `k` readable
bytes after it, parsing never ends well. -/
theorem C02_nested_overread_violated (k : Nat) (hk : 0 < k) (after : List UInt8) (ha : after.length ≤ k) (fuel : Nat) (p : Parsed) :
    parse fuel (List.replicate k (chr 'l')) after ≠ .ok p := by
  unfold parse parseAt
  rw [List.length_replicate, Nat.zero_add]
  generalize h : internalParse ⟨List.replicate k (chr 'l') ++ after, k⟩ fuel ⟨0, []⟩ = x
  cases x with
  | ub => simp
  | diverge => simp
  | ok r =>
    have := nested_reads k after fuel k [] r hk (Nat.le_refl _) (by rw [Nat.sub_self]; exact h)
    omega

/-- Even a well-formed list or dictionary makes the parser read the byte after the buffer. -/
theorem C02_wellformed_overread_violated (kvs : List (List UInt8 × BVal)) (hf : (BVal.dict kvs).fits)
    (hc : (BVal.dict kvs).count < 65536) (fuel : Nat) (hfuel : (BVal.dict kvs).enc.length ≤ fuel) :
    parse fuel (BVal.dict kvs).enc [] = .ub := by
  obtain ⟨n, rfl⟩ : ∃ m, fuel = m + 1 := ⟨fuel - 1, by have := enc_length_pos (.dict kvs); omega⟩
  have hlen : (BVal.dict kvs).enc.length = (encDict kvs).length + 2 := by simp [BVal.enc]
  have hm1 : ((BVal.dict kvs).enc ++ []).drop (0 + 1) = encDict kvs ++ chr 'e' :: [] := by simp [BVal.enc]
  have hl := dictLoop_enc kvs ⟨(BVal.dict kvs).enc ++ [], (BVal.dict kvs).enc.length⟩ n 0 (0 + 1) ([] ++ [{ type := .dictionary }]) _ hm1
    (by simp only; omega) hf (by simp [BVal.count] at hc; simp; omega) (by omega)
  unfold parse parseAt internalParse
  simp only [Nat.zero_add, List.nil_append] at hl ⊢
  rw [rd_drop (c := chr 'd') (t := encDict kvs ++ [chr 'e']) (by simp [BVal.enc]),
    Res.bind_ok, if_neg (by decide), if_neg (by decide), if_neg (by decide), if_pos rfl, hl, Res.bind_ok]
  unfold finish notEnd
  have : rd ((BVal.dict kvs).enc ++ []) (1 + (encDict kvs).length + 1) = .ub := by
    unfold rd; rw [List.getElem?_eq_none (by simp [BVal.enc]; omega)]
  simp only [List.length_nil] at *
  rw [this]
  rfl

/-! ### C03 -/

/-- For every torrent file that is a bencoded dictionary with an `info` dictionary (the first one)
holding a `pieces` string: the torrent id is the hash of exactly the bytes of the info dictionary,
whatever comes before, after and inside it.
Missing for the full property: a file with the *value* "info" for a key before `info` (see
`C03_value_named_info_violated`); an info dictionary without `pieces` gets no hash. -/
theorem C03_info_hash_partial (sha1 : List UInt8 → List UInt8) (a b ia ib : List (List UInt8 × BVal)) (s : List UInt8)
    (root info : BVal) (hinfo : info = .dict (ia ++ (ascii "pieces", .str s) :: ib))
    (hroot : root = .dict (a ++ (ascii "info", info) :: b))
    (hf : root.fits) (hc : root.count < 65536)
    (hkey : ∀ x ∈ a, x.1 ≠ ascii "info") (hval : ∀ x ∈ a, ∀ t, x.2 = .str t → t ≠ ascii "info")
    (hpieces : ∀ x ∈ ia, ¬ (x.1 = ascii "pieces" ∧ x.2.ty = .text))
    (after : List UInt8) (ha : after ≠ []) (fuel : Nat) (hfuel : root.enc.length + after.length ≤ fuel) :
    torrentHash fuel sha1 root.enc after = .ok (some (sha1 info.enc)) := by
  subst hroot
  obtain ⟨p, h1, h2, h3, h4, h5⟩ := parseAt_enc (.dict (a ++ (ascii "info", info) :: b)) fuel
    ((BVal.dict (a ++ (ascii "info", info) :: b)).enc ++ after) 0 _ after rfl ha (Nat.le_refl _) hf hc (by omega)
  generalize hmem : (BVal.dict (a ++ (ascii "info", info) :: b)).enc ++ after = mem at *
  have hml : mem.length = (BVal.dict (a ++ (ascii "info", info) :: b)).enc.length + after.length := by rw [← hmem]; simp
  have hal : 0 < after.length := List.length_pos_iff.mpr ha
  unfold torrentHash
  rw [show parse fuel (BVal.dict (a ++ (ascii "info", info) :: b)).enc after =
    parseAt fuel mem 0 (BVal.dict (a ++ (ascii "info", info) :: b)).enc.length by rw [← hmem]; rfl, h1, Res.bind_ok]
  rw [hmem]
  obtain ⟨pre, post, nx, t, ho, hj, hm⟩ := h5
  have hpre : pre = [] := List.length_eq_zero_iff.mp hj.symm
  subst hpre
  simp only [BVal.flat, List.nil_append, List.cons_append] at ho
  have hm1 : mem.drop 1 = encDict (a ++ (ascii "info", info) :: b) ++ (chr 'e' :: t) :=
    drop_one (pos := 0) (c := chr 'd') (hm.trans (by simp [BVal.enc]))
  have hcount : p.objs.length = 1 + countDict (a ++ (ascii "info", info) :: b) := by rw [h4]; simp [BVal.count]
  unfold generateInfoHash
  rw [if_neg (by rw [ho]; simp)]
  have hfi : firstItem p.objs 0 = .ok (some 1) := by
    unfold firstItem rd
    rw [ho]
    simp; omega
  rw [hfi, Res.bind_ok]
  subst hinfo
  have hcd : countDict (a ++ (ascii "info", .dict (ia ++ (ascii "pieces", .str s) :: ib)) :: b) =
      countDict a + (1 + (1 + (countDict ia + (1 + 1 + countDict ib))) + countDict b) := by
    rw [countDict_append]; simp [countDict, BVal.count, countDict_append]
  obtain ⟨j, hat, hloop⟩ := infoLoop_reach fuel mem p a b _ [⟨0, _, nx, .dictionary⟩] post (p.objs.length + 1) 1 _
    (by rw [ho]; rfl) hm1 (by omega) hkey hval
  have hlen : (BVal.dict (a ++ (ascii "info", .dict (ia ++ (ascii "pieces", .str s) :: ib)) :: b)).enc.length =
      1 + (encDict a).length + (encStr (ascii "info")).length + (BVal.dict (ia ++ (ascii "pieces", .str s) :: ib)).enc.length +
      (encDict b).length + 1 := by
    generalize BVal.dict (ia ++ (ascii "pieces", .str s) :: ib) = v
    simp [BVal.enc, encDict_append, encDict]; omega
  have hfi := fitsDict_append.mp (show fitsDict _ from hf)
  have hfib : fitsDict ib := by
    have : fitsDict (ia ++ (ascii "pieces", .str s) :: ib) := hfi.2.2.1
    exact (show _ ∧ _ ∧ fitsDict ib from (fitsDict_append.mp this).2).2.2
  have hend := infoEnd_ok fuel mem p j _ ia ib s hat hpieces (by omega) (by omega) hfib (by omega) (by omega)
  simp only [List.length_singleton] at hloop
  rw [hloop, hend]
  simp only [Res.map'_ok, Res.bind_ok, Res.pure_eq, Option.map_some]
  obtain ⟨_, _, _, t', _, _, hmi⟩ := hat
  rw [hmi, Nat.add_sub_cancel_left, List.take_left]

/-- Non-vacuity: keys around the info dictionary and after `pieces` inside it. -/
example (sha1 : List UInt8 → List UInt8) : torrentHash 1000 sha1
    (ascii "d8:announce3:xyz4:infod6:lengthi5e6:pieces3:abc7:privatei1ee3:zzzli1eee") [7] =
    .ok (some (sha1 (ascii "d6:lengthi5e6:pieces3:abc7:privatei1ee"))) := by
  have hc : (ascii "d8:announce3:xyz4:infod6:lengthi5e6:pieces3:abc7:privatei1ee3:zzzli1eee") =
      (BVal.dict ([(ascii "announce", .str (ascii "xyz"))] ++ (ascii "info", .dict ([(ascii "length", .int 5)] ++
        (ascii "pieces", .str (ascii "abc")) :: [(ascii "private", .int 1)])) :: [(ascii "zzz", .list [.int 1])])).enc := by
    simp [BVal.enc, encDict, encList, encStr, dec, ascii]; decide
  rw [hc, C03_info_hash_partial sha1 _ _ [(ascii "length", .int 5)] [(ascii "private", .int 1)] (ascii "abc") _ _ rfl rfl]
  · congr 3
    simp [BVal.enc, encDict, encStr, dec, ascii]; decide
  · simp [BVal.fits, fitsDict, fitsList, ascii]
  · simp [BVal.count, countDict, countList]
  · decide
  · intro x hx t ht
    simp only [List.mem_singleton] at hx
    subst hx
    simp only [BVal.str.injEq] at ht
    subst ht; decide
  · intro x hx
    simp only [List.mem_singleton] at hx
    subst hx
    simp [BVal.ty]
  · simp
  · rw [← hc]; decide

/-- A text value "info" before the info dictionary is taken for its key: the torrent gets no id. -/
theorem C03_value_named_info_violated (sha1 : List UInt8 → List UInt8) :
    torrentHash 1000 sha1 (ascii "d7:comment4:info4:infod6:pieces3:abcee") [0] = .ok none := by
  have h : (Bencode.parse 1000 (ascii "d7:comment4:info4:infod6:pieces3:abcee") [0] >>= fun p =>
      generateInfoHash 1000 (ascii "d7:comment4:info4:infod6:pieces3:abcee" ++ [0]) p) = .ok none := by decide +kernel
  unfold torrentHash
  generalize Bencode.parse 1000 (ascii "d7:comment4:info4:infod6:pieces3:abcee") [0] = x at h ⊢
  cases x with
  | ub => cases h
  | diverge => cases h
  | ok p =>
    rw [Res.bind_ok] at h ⊢
    rw [h]; rfl

end Verif
