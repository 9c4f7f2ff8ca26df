import Verif.Model.Extension
import Verif.Spec.Extension
import Verif.Proof.BencodeGet
import Verif.Proof.PeerMessage
/-! The extended handshake and the messages for hole punching. -/

namespace Verif.Ext
open Verif Bencode Net

/-- The number in a value. -/
def num : BVal → Nat
  | .int n => n
  | _ => 0

theorem textOf_at {mem : List UInt8} {pos : Nat} {s t : List UInt8} (nx : Nat) (ty : Ty)
    (h : mem.drop pos = encStr s ++ t) : textOf mem ⟨pos + (dec s.length).length + 1, s.length, nx, ty⟩ = .ok s := by
  unfold textOf
  have hl : mem.length - pos = (dec s.length).length + 1 + s.length + t.length := by
    have := congrArg List.length h
    simp only [List.length_drop, encStr, List.length_append, List.length_cons] at this
    omega
  rw [if_pos ⟨by simp, by simp only [Int.toNat_natCast]; omega⟩, bytes_at nx ty h]

theorem idsLoop_flat (kvs : List (List UInt8 × BVal)) (mem : List UInt8) (pre post : List Obj)
    (n pos : Nat) (t : List UInt8) (hm : mem.drop pos = encDict kvs ++ t) (hn : countDict kvs < n)
    (ha : ∀ kv ∈ kvs, ∃ x, kv.2 = .int x ∧ x < 2 ^ 63) :
    idsLoop mem (pre ++ (flatDict kvs pos ++ post)) n (if kvs.isEmpty then none else some pre.length) =
      .ok (kvs.map fun kv => (kv.1, toInt32 (num kv.2))) := by
  induction kvs generalizing pre n pos with
  | nil => simp [idsLoop]
  | cons kv kvs ih =>
    have hcnt : countDict (kv :: kvs) = 1 + kv.2.count + countDict kvs := by simp [countDict]
    have hcp := count_pos kv.2
    obtain ⟨n, rfl⟩ : ∃ m, n = m + 1 := ⟨n - 1, by omega⟩
    have hm' : mem.drop pos = encStr kv.1 ++ (kv.2.enc ++ (encDict kvs ++ t)) := by rw [hm]; simp [encDict]
    simp only [List.isEmpty_cons, Bool.false_eq_true, if_false, flatDict, List.append_assoc, List.cons_append]
    obtain ⟨x, hx, hx63⟩ := ha kv (by simp)
    generalize hnx : (if kvs.isEmpty = true then 0 else kv.2.count) = nx
    have hs := nextSibling_flat (pre ++ [⟨pos + (dec kv.1.length).length + 1, kv.1.length, 1, .text⟩]) kv.2
      (flatDict kvs (pos + (encStr kv.1).length + kv.2.enc.length) ++ post) (pos + (encStr kv.1).length) nx
    have hv : AtPos mem (pre ++ ⟨pos + (dec kv.1.length).length + 1, kv.1.length, 1, .text⟩ ::
        (kv.2.flat (pos + (encStr kv.1).length) nx ++
          (flatDict kvs (pos + (encStr kv.1).length + kv.2.enc.length) ++ post))) (pre.length + 1) (.int x)
        (pos + (encStr kv.1).length) :=
      ⟨pre ++ [⟨pos + (dec kv.1.length).length + 1, kv.1.length, 1, .text⟩],
        flatDict kvs (pos + (encStr kv.1).length + kv.2.enc.length) ++ post, nx, encDict kvs ++ t, by rw [← hx]; simp, by simp,
        by rw [← hx]; exact drop_add hm'⟩
    simp only [List.append_assoc, List.singleton_append, List.length_append, List.length_cons, List.length_nil, Nat.zero_add] at hs
    obtain ⟨o, ho, hoi, _⟩ := hv.int
    obtain ⟨o', ho', hot⟩ := hv.rd
    rw [ho] at ho'
    cases ho'
    have hio : intOf mem o = .ok (toInt32 x) := by
      unfold intOf
      rw [if_neg (by rw [hot]; simp [BVal.ty]), hoi (by omega)]
    have hi := ih (pre ++ ⟨pos + (dec kv.1.length).length + 1, kv.1.length, 1, .text⟩ :: kv.2.flat (pos + (encStr kv.1).length) nx)
      n (pos + (encStr kv.1).length + kv.2.enc.length) (drop_add (drop_add hm')) (by omega) (fun y hy => ha y (by simp [hy]))
    simp only [List.append_assoc, List.cons_append, List.length_append, List.length_cons, flat_length] at hi
    have hsk : nextSibling (pre ++ ⟨pos + (dec kv.1.length).length + 1, kv.1.length, 1, .text⟩ ::
        (kv.2.flat (pos + (encStr kv.1).length) nx ++
          (flatDict kvs (pos + (encStr kv.1).length + kv.2.enc.length) ++ post))) pre.length = .ok (some (pre.length + 1)) := by
      unfold nextSibling
      rw [rd_mid, Res.bind_ok]
      rfl
    unfold idsLoop
    rw [rd_mid, Res.bind_ok]
    simp only [if_true, textOf_at 1 .text hm', Res.bind_ok, hsk, ho, hio, hs]
    subst hnx
    rw [nx_eq _ _ _ hcp, show pre.length + 1 + kv.2.count = pre.length + (kv.2.count + 1) by omega, hi]
    simp [hx, num]

theorem idsLoop_dict {mem : List UInt8} {objs : List Obj} {k pos : Nat} {kvs : List (List UInt8 × BVal)}
    (h : AtPos mem objs k (.dict kvs) pos) (ha : ∀ kv ∈ kvs, ∃ x, kv.2 = .int x ∧ x < 2 ^ 63) :
    ((firstItem objs k).bind fun f => idsLoop mem objs (objs.length + 1) f) =
      .ok (kvs.map fun kv => (kv.1, toInt32 (num kv.2))) := by
  obtain ⟨pre, post, nx, t, rfl, rfl, hm⟩ := h
  unfold firstItem
  simp only [BVal.flat, List.cons_append, rd_mid, Res.bind_ok, Res.pure_eq]
  have h1 := idsLoop_flat kvs mem (pre ++ [⟨0, kvs.length, nx, .dictionary⟩]) post
    ((pre ++ ⟨0, kvs.length, nx, .dictionary⟩ :: (flatDict kvs (pos + 1) ++ post)).length + 1) (pos + 1) (chr 'e' :: t)
    (drop_one (c := chr 'd') (hm.trans (by simp [BVal.enc]))) (by simp [flatDict_length]; omega) ha
  simp only [List.append_assoc, List.singleton_append, List.length_append, List.length_cons, List.length_nil, Nat.zero_add] at h1 ⊢
  have he : (if ((kvs.length : Nat) : Int) ≠ 0 then some (pre.length + 1) else none) =
      (if kvs.isEmpty then none else some (pre.length + 1)) := by cases kvs <;> simp; omega
  rw [he]
  exact h1

theorem dictOf_lookup (name : String) : ∀ kvs : List (List UInt8 × BVal),
    Spec.Ext.dictOf kvs name = match lookup kvs (ascii name) .dictionary with
      | some (.dict s) => some s
      | _ => none
  | [] => rfl
  | (k, v) :: kvs => by
    have ih := dictOf_lookup name kvs
    unfold Spec.Ext.dictOf at ih ⊢
    rw [List.findSome?_cons, lookup]
    cases v with
    | dict s =>
      by_cases hk : k = ascii name
      · simp [hk, BVal.ty]
      · simp only [hk, if_false, false_and]
        exact ih
    | int _ => simp only [BVal.ty, reduceCtorEq, and_false, if_false]; exact ih
    | list _ => simp only [BVal.ty, reduceCtorEq, and_false, if_false]; exact ih
    | str _ => simp only [BVal.ty, reduceCtorEq, and_false, if_false]; exact ih

theorem textOf_lookup (name : String) : ∀ kvs : List (List UInt8 × BVal),
    Spec.Ext.textOf kvs name = match lookup kvs (ascii name) .text with
      | some (.str s) => some s
      | _ => none
  | [] => rfl
  | (k, v) :: kvs => by
    have ih := textOf_lookup name kvs
    unfold Spec.Ext.textOf at ih ⊢
    rw [List.findSome?_cons, lookup]
    cases v with
    | str s =>
      by_cases hk : k = ascii name
      · simp [hk, BVal.ty]
      · simp only [hk, if_false, false_and]
        exact ih
    | int _ => simp only [BVal.ty, reduceCtorEq, and_false, if_false]; exact ih
    | list _ => simp only [BVal.ty, reduceCtorEq, and_false, if_false]; exact ih
    | dict _ => simp only [BVal.ty, reduceCtorEq, and_false, if_false]; exact ih

theorem numberOf_lookup (name : String) : ∀ kvs : List (List UInt8 × BVal),
    Spec.Ext.numberOf kvs name = match lookup kvs (ascii name) .number with
      | some (.int s) => some s
      | _ => none
  | [] => rfl
  | (k, v) :: kvs => by
    have ih := numberOf_lookup name kvs
    unfold Spec.Ext.numberOf at ih ⊢
    rw [List.findSome?_cons, lookup]
    cases v with
    | int s =>
      by_cases hk : k = ascii name
      · simp [hk, BVal.ty]
      · simp only [hk, if_false, false_and]
        exact ih
    | str _ => simp only [BVal.ty, reduceCtorEq, and_false, if_false]; exact ih
    | list _ => simp only [BVal.ty, reduceCtorEq, and_false, if_false]; exact ih
    | dict _ => simp only [BVal.ty, reduceCtorEq, and_false, if_false]; exact ih

theorem readIds_dict {mem : List UInt8} {objs : List Obj} {pos : Nat} {kvs : List (List UInt8 × BVal)}
    (h : AtPos mem objs 0 (.dict kvs) pos) (hn : Spec.Ext.Numbers kvs) :
    readIds mem objs = .ok (((Spec.Ext.dictOf kvs "m").getD []).map fun kv => (kv.1, toInt32 (num kv.2))) := by
  have hf := findKey_lookup h (ascii "m") .dictionary
  have hd := dictOf_lookup "m" kvs
  unfold readIds
  cases hl : lookup kvs (ascii "m") .dictionary with
  | none => rw [hl] at hf hd; rw [hf, hd]; rfl
  | some v =>
    rw [hl] at hf hd
    obtain ⟨h1, j, pos', h2, h3⟩ := hf
    cases v with
    | dict s =>
      rw [h2, hd]
      exact idsLoop_dict h3 (hn s hd)
    | str _ => cases h1
    | list _ => cases h1
    | int _ => cases h1

theorem readTxt_dict {mem : List UInt8} {objs : List Obj} {pos : Nat} {kvs : List (List UInt8 × BVal)}
    (h : AtPos mem objs 0 (.dict kvs) pos) (name : String) :
    readTxt mem objs (ascii name) = .ok (Spec.Ext.textOf kvs name) := by
  have hf := findKey_lookup h (ascii name) .text
  have hd := textOf_lookup name kvs
  unfold readTxt
  cases hl : lookup kvs (ascii name) .text with
  | none => rw [hl] at hf hd; rw [hf, hd]; rfl
  | some v =>
    rw [hl] at hf hd
    obtain ⟨h1, j, pos', h2, h3⟩ := hf
    cases v with
    | str s =>
      rw [h2, hd]
      obtain ⟨pre, post, nx, t, rfl, rfl, hm⟩ := h3
      have ht := textOf_at nx .text (by simpa [BVal.enc] using hm : mem.drop pos' = encStr s ++ t)
      simp only [BVal.flat, List.singleton_append, Res.bind_ok, rd_mid, ht, Res.pure_eq]
    | dict _ => cases h1
    | list _ => cases h1
    | int _ => cases h1

theorem dec_length_le : ∀ (k n : Nat), 0 < k → n < 10 ^ k → (dec n).length ≤ k
  | 0, _, h, _ => by omega
  | k + 1, n, _, h => by
    rw [dec]
    split
    · simp
    · have hk : 0 < k := by
        rcases Nat.eq_zero_or_pos k with rfl | h0
        · simp at h; omega
        · exact h0
      have := dec_length_le k (n / 10) hk (by rw [Nat.pow_succ] at h; omega)
      simp; omega

/-- The first four bytes, or none. -/
def ipOf (ip : Option (List UInt8)) : List UInt8 :=
  match ip with
  | some s => if s.length = 4 then s else [0, 0, 0, 0]
  | none => [0, 0, 0, 0]

theorem size_of_int (n : Nat) : (toInt32 (n : Int) % 4294967296).toNat = n % 4294967296 := by
  unfold toInt32; omega

theorem id_of_int (n : Nat) : (toInt32 (n : Int) % 256).toNat = n % 256 := by
  unfold toInt32; omega

theorem readHandshake_dict {kvs : List (List UInt8 × BVal)} (hfits : fitsDict kvs) (hcnt : 1 + countDict kvs < 65536)
    (hn : Spec.Ext.Numbers kvs) (hs : ∀ n, Spec.Ext.numberOf kvs "metadata_size" = some n → n < 2 ^ 63) (fuel : Nat)
    (after : List UInt8) (hfuel : (BVal.dict kvs).enc.length ≤ fuel) (hafter : after ≠ []) :
    readHandshake fuel (BVal.dict kvs).enc after = .ok (some
      { ids := ((Spec.Ext.dictOf kvs "m").getD []).map fun kv => (kv.1, toInt32 (num kv.2))
        client := (Spec.Ext.textOf kvs "v").getD []
        yourIp := ipOf (Spec.Ext.textOf kvs "yourip")
        metadataSize := ((Spec.Ext.numberOf kvs "metadata_size").getD 0) % 2 ^ 32 }) := by
  obtain ⟨p, h1, _, _, _, h5⟩ := parseAt_enc (.dict kvs) fuel ((BVal.dict kvs).enc ++ after) 0 (BVal.dict kvs).enc.length after
    (by simp) hafter (by simp) hfits hcnt hfuel
  obtain ⟨o, h6, h7⟩ := root_at h5
  unfold readHandshake
  rw [show parse fuel (BVal.dict kvs).enc after = .ok p from h1]
  simp only [Res.bind_ok, h6]
  rw [if_neg (by rw [h7]; simp [BVal.ty])]
  generalize (BVal.dict kvs).enc ++ after = mem at *
  have hd := numberOf_lookup "metadata_size" kvs
  have hi := getIntKey_dict h5 (ascii "metadata_size") (by
    intro n hl
    rw [hl] at hd
    exact hs n hd)
  rw [readIds_dict h5 hn, Res.bind_ok, readTxt_dict h5 "v", Res.bind_ok, readTxt_dict h5 "yourip", Res.bind_ok, hi, Res.bind_ok]
  simp only [Res.pure_eq, ipOf]
  rw [hd]
  congr 3
  cases lookup kvs (ascii "metadata_size") .number with
  | none => rfl
  | some v => cases v with
    | int n => simp only [Option.getD_some]; exact size_of_int n
    | str _ => rfl
    | list _ => rfl
    | dict _ => rfl

theorem find_number (name : String) : ∀ d : List (List UInt8 × BVal), (∀ kv ∈ d, ∃ x, kv.2 = .int x ∧ x < 2 ^ 63) →
    (d.map fun kv => (kv.1, toInt32 (num kv.2))).find? (fun x => x.1 = ascii name) =
      (d.findSome? (fun kv => match kv.2 with
        | .int n => if kv.1 = ascii name then some n else none
        | _ => none)).map (fun (n : Nat) => (ascii name, toInt32 (n : Int)))
  | [], _ => rfl
  | (k, v) :: d, h => by
    obtain ⟨x, hx, _⟩ := h (k, v) (by simp)
    simp only at hx
    subst hx
    have ih := find_number name d (fun kv hkv => h kv (by simp [hkv]))
    by_cases hk : k = ascii name
    · simp [hk, num]
    · simp only [List.map_cons, List.find?_cons, hk, decide_false, List.findSome?_cons, if_false]
      exact ih

theorem init_dict (r : Remote) {kvs : List (List UInt8 × BVal)} (hn : Spec.Ext.Numbers kvs) (name : String) {h : Handshake}
    (hh : h.ids = ((Spec.Ext.dictOf kvs "m").getD []).map fun kv => (kv.1, toInt32 (num kv.2))) :
    r.init (ascii name) h = match Spec.Ext.idOf kvs name with
      | some n => ⟨n, true⟩
      | none => r := by
  have hd : ∀ kv ∈ ((Spec.Ext.dictOf kvs "m").getD []).reverse, ∃ x, kv.2 = .int x ∧ x < 2 ^ 63 := by
    intro kv hkv
    cases hm : Spec.Ext.dictOf kvs "m" with
    | none => rw [hm] at hkv; simp at hkv
    | some d => rw [hm] at hkv; exact hn d hm kv (by simpa using hkv)
  have hf := find_number name _ hd
  unfold Remote.init Spec.Ext.idOf Spec.Ext.number
  rw [hh, ← List.map_reverse, hf]
  generalize List.findSome? _ _ = o
  cases o with
  | none => rfl
  | some n => simp [id_of_int]

end Verif.Ext

/-! ### Hole punching -/

namespace Verif.Ext
open Verif Bencode Net

/-- Address bytes that are kept, then zeros. -/
def plain (a : Addr) : Addr :=
  ⟨a.bytes.take (Addr.size a.ipv6) ++ List.replicate (16 - Addr.size a.ipv6) 0, a.port, a.ipv6⟩

theorem wire_plain {a : Addr} (h : Spec.Ext.Whole a) : Spec.Ext.wire (plain a) = Spec.Ext.wire a := by
  obtain ⟨b, p, v⟩ := a
  obtain ⟨h1, _⟩ := h
  cases v <;> simp [plain, Spec.Ext.wire, Addr.size, List.take_append, List.take_take] at h1 ⊢ <;> omega

theorem plain_same {a b : Addr} (h : Spec.Ext.wire a = Spec.Ext.wire b) : plain a = plain b := by
  obtain ⟨x, p, v⟩ := a
  obtain ⟨y, q, w⟩ := b
  simp only [Spec.Ext.wire, Prod.mk.injEq] at h
  obtain ⟨rfl, h2, rfl⟩ := h
  simp only [plain, Addr.size]
  rw [h2]

theorem toData_eq (a : Addr) : a.toData = a.bytes.take (if a.ipv6 then 16 else 4) ++ be16 a.port := rfl

theorem send_eq (id kind e : Nat) (a : Addr) :
    send ⟨id, true⟩ a kind e = .ok (Spec.Ext.framed id (Spec.Ext.punch kind a e)) := by
  unfold send
  simp only [if_true, toData_eq, Spec.Ext.framed, Spec.Ext.punch, Peer.idExtended]
  simp only [List.append_assoc, List.length_append, List.length_cons, List.cons_append, List.nil_append, List.drop_succ_cons,
    List.drop_zero]
  rfl

theorem parse_addr {a : Addr} (h : Spec.Ext.Whole a) (t : List UInt8) :
    Addr.parse Addr.empty (a.bytes.take (if a.ipv6 then 16 else 4) ++ (be16 a.port ++ t)) a.ipv6 =
      .ok (2 + Addr.size a.ipv6, plain a) := by
  obtain ⟨b, p, v⟩ := a
  obtain ⟨h1, h2⟩ := h
  simp only at h1 h2
  unfold Addr.parse plain
  have hb : ∀ n, n ≤ 16 → (b.take n).length = n := fun n hn => by simp [h1]; omega
  cases v with
  | false =>
    simp only [Addr.size, Bool.false_eq_true, if_false, Addr.empty]
    have e4 := hb 4 (by omega)
    have he : (b.take 4 ++ (be16 p ++ t)).drop 4 = be16 p ++ t := by rw [List.drop_left' e4]
    rw [if_pos (by rw [List.length_append, e4]; simp [be16]; omega), List.take_left' e4, he, List.take_left' (by rfl), beVal_be16 _ h2]
    rfl
  | true =>
    simp only [Addr.size, if_true, Addr.empty]
    have e4 := hb 16 (by omega)
    have he : (b.take 16 ++ (be16 p ++ t)).drop 16 = be16 p ++ t := by rw [List.drop_left' e4]
    rw [if_pos (by rw [List.length_append, e4]; simp [be16]; omega), List.take_left' e4, he, List.take_left' (by rfl), beVal_be16 _ h2]
    rfl

theorem punch_length {a : Addr} (h : Spec.Ext.Whole a) (kind e : Nat) :
    (Spec.Ext.punch kind a e).length = 4 + Addr.size a.ipv6 + (if kind = 2 then 4 else 0) := by
  obtain ⟨b, p, v⟩ := a
  obtain ⟨h1, _⟩ := h
  simp only at h1
  unfold Spec.Ext.punch
  cases v <;> by_cases hk : kind = 2 <;> simp [Addr.size, h1, hk, be16, be32]

/-- A whole message is read as it was meant, whatever follows. -/
theorem load_punch {a : Addr} (h : Spec.Ext.Whole a) (kind e : Nat) (hk : kind < 256) (he : e < 2 ^ 32) (more after : List UInt8) :
    load (Spec.Ext.punch kind a e ++ more) after = .ok (some ⟨kind, plain a, if kind = 2 then some e else none⟩) := by
  have hl := punch_length h kind e
  have hsz : Addr.size a.ipv6 = if a.ipv6 then 16 else 4 := rfl
  have hge : 4 ≤ Addr.size a.ipv6 := by rw [hsz]; split <;> omega
  have hlm : (Spec.Ext.punch kind a e ++ more).length = (Spec.Ext.punch kind a e).length + more.length := List.length_append
  have r0 : rd (Spec.Ext.punch kind a e ++ more) 0 = .ok (UInt8.ofNat kind) := rfl
  have r1 : rd (Spec.Ext.punch kind a e ++ more) 1 = .ok (if a.ipv6 then 1 else 0) := rfl
  have hd : (Spec.Ext.punch kind a e ++ more ++ after).drop 2 = a.bytes.take (if a.ipv6 then 16 else 4) ++
      (be16 a.port ++ ((if kind = 2 then be32 e else []) ++ (more ++ after))) := by
    simp only [Spec.Ext.punch, List.append_assoc, List.cons_append, List.nil_append, List.drop_succ_cons, List.drop_zero]
  have hf : ((if a.ipv6 then 1 else 0 : UInt8) == 1) = a.ipv6 := by cases a.ipv6 <;> rfl
  have hid : (UInt8.ofNat kind).toNat = kind := by simp; omega
  unfold load
  rw [if_neg (by omega), r0, Res.bind_ok, r1, Res.bind_ok, if_neg (by cases a.ipv6 <;> decide), if_neg (by
    rintro ⟨h1, h2⟩
    have : a.ipv6 = true := by cases hv : a.ipv6 <;> simp [hv] at h1 ⊢
    rw [this] at hsz hl
    rw [hlm, hl, hsz] at h2
    simp only [if_true] at h2
    split at h2 <;> omega), hf, hd, parse_addr h, Res.bind_ok, hid]
  by_cases h2 : kind = 2
  · simp only [h2, if_true]
    have hv : Peer.popN (Spec.Ext.punch 2 a e ++ more ++ after) (2 + (2 + Addr.size a.ipv6)) 4 = .ok e := by
      have hl2 := punch_length h 2 e
      simp only [if_true] at hl2
      unfold Peer.popN Peer.view
      rw [if_pos (by simp only [List.length_append]; omega), Res.bind_ok]
      have hdd : (Spec.Ext.punch 2 a e ++ more ++ after).drop (2 + (2 + Addr.size a.ipv6)) = be32 e ++ (more ++ after) := by
        have hp : Spec.Ext.punch 2 a e ++ more ++ after = ([UInt8.ofNat 2, if a.ipv6 then 1 else 0] ++
            a.bytes.take (if a.ipv6 then 16 else 4) ++ be16 a.port) ++ (be32 e ++ (more ++ after)) := by
          simp only [Spec.Ext.punch, if_true, List.append_assoc]
        rw [hp, List.drop_left']
        simp only [List.length_append, List.length_cons, List.length_nil, List.length_take, h.1, be16, hsz]
        split <;> omega
      rw [hdd, List.take_left' (by rfl)]
      simp only [Res.pure_eq]
      rw [beVal_be32 _ (by omega)]
    rw [hv]
    rfl
  · simp only [h2, if_false]
    rfl

theorem eq_iff {a b : Addr} (hf : a.ipv6 = b.ipv6) : a.eq b = true ↔ Spec.Ext.wire a = Spec.Ext.wire b := by
  obtain ⟨x, p, v⟩ := a
  obtain ⟨y, q, w⟩ := b
  simp only at hf
  subst hf
  simp only [Addr.eq, Spec.Ext.wire, Addr.size, Bool.and_eq_true, beq_iff_eq, Prod.mk.injEq, true_and]
  exact And.comm

theorem plain_eq (l a : Addr) (ha : Spec.Ext.Whole a) (hf : l.ipv6 = a.ipv6) : l.eq (plain a) = l.eq a := by
  rw [Bool.eq_iff_iff, eq_iff (by exact hf), eq_iff hf, wire_plain ha]

/-- Framed messages are taken apart. -/
theorem parse_ext (id : Nat) (hid : id < 256) (payload rest : List UInt8) (h1 : payload ≠ []) (h2 : payload.length < 65000) :
    Peer.parse (Spec.Ext.framed id payload ++ rest) = .ok
      { id := Peer.idExtended, messageSize := payload.length + 6, extendedId := some id, extendedData := payload } := by
  have hfr : Spec.Ext.framed id payload = Spec.framed (20 :: UInt8.ofNat id :: payload) := by
    simp [Spec.Ext.framed, Spec.framed]
  have hp : 0 < payload.length := List.length_pos_iff.mpr h1
  rw [hfr, Peer.parse_framed _ _ _ (by simp; omega)]
  have hid' : (UInt8.ofNat id).toNat = id := by simp; omega
  unfold Peer.parseBody
  simp only [show (20 : UInt8).toNat = 20 from rfl, List.length_cons, Peer.idHave, Peer.idBitfield, Peer.idRequest, Peer.idPiece, Peer.idCancel,
    Peer.idPort, Peer.idExtended, false_and, if_false, Nat.reduceEqDiff, true_and]
  rw [if_pos (by omega), Peer.popN_total (by rw [Peer.framed_length]; simp), Res.bind_ok,
    Peer.view_total (by rw [Peer.framed_length]; simp; omega), Res.bind_ok]
  have hd5 : (Spec.framed (20 :: UInt8.ofNat id :: payload)).drop 5 = UInt8.ofNat id :: payload := by simp [Spec.framed, be32]
  have hd6 : (Spec.framed (20 :: UInt8.ofNat id :: payload)).drop 6 = payload := by simp [Spec.framed, be32]
  rw [hd5, hd6, show payload.length + 1 + 1 - 2 = payload.length by omega, List.take_length]
  simp [beVal, hid', Peer.idInvalid, Res.bind]

end Verif.Ext
