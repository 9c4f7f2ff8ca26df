import Verif.Proof.BencodeFind
import Verif.Model.BencodeGet

namespace Verif.Bencode
open Verif

/-- The first entry with that key and type. -/
def lookup : List (List UInt8 × BVal) → List UInt8 → Ty → Option BVal
  | [], _, _ => none
  | kv :: kvs, name, ty => if kv.1 = name ∧ kv.2.ty = ty then some kv.2 else lookup kvs name ty

theorem lookup_split : ∀ (kvs : List (List UInt8 × BVal)) (name : List UInt8) (ty : Ty),
    match lookup kvs name ty with
    | none => ∀ kv ∈ kvs, ¬ (kv.1 = name ∧ kv.2.ty = ty)
    | some v => v.ty = ty ∧ ∃ a b, kvs = a ++ (name, v) :: b ∧ ∀ x ∈ a, ¬ (x.1 = name ∧ x.2.ty = ty)
  | [], name, ty => by simp [lookup]
  | kv :: kvs, name, ty => by
    unfold lookup
    by_cases h : kv.1 = name ∧ kv.2.ty = ty
    · rw [if_pos h]
      exact ⟨h.2, [], kvs, by rw [← h.1]; rfl, by simp⟩
    · rw [if_neg h]
      have ih := lookup_split kvs name ty
      cases hl : lookup kvs name ty with
      | none =>
        rw [hl] at ih
        intro x hx
        rcases List.mem_cons.mp hx with rfl | hx
        · exact h
        · exact ih x hx
      | some v =>
        rw [hl] at ih
        obtain ⟨h1, a, b, h2, h3⟩ := ih
        refine ⟨h1, kv :: a, b, by rw [h2]; rfl, ?_⟩
        intro x hx
        rcases List.mem_cons.mp hx with rfl | hx
        · exact h
        · exact h3 x hx

theorem findKey_lookup {mem : List UInt8} {objs : List Obj} {k pos : Nat} {kvs : List (List UInt8 × BVal)}
    (h : AtPos mem objs k (.dict kvs) pos) (name : List UInt8) (ty : Ty) :
    match lookup kvs name ty with
    | none => findKey mem objs k name ty = .ok none
    | some v => v.ty = ty ∧ ∃ j pos', findKey mem objs k name ty = .ok (some j) ∧ AtPos mem objs j v pos' := by
  have hs := lookup_split kvs name ty
  cases hl : lookup kvs name ty with
  | none =>
    rw [hl] at hs
    exact findKey_absent h name ty hs
  | some v =>
    rw [hl] at hs
    obtain ⟨h1, a, b, h2, h3⟩ := hs
    subst h2
    obtain ⟨j, h4, h5⟩ := findKey_present (kv := (name, v)) h (by simpa [h1] using h3)
    refine ⟨h1, j, _, ?_, h5⟩
    rw [h1] at h4; exact h4

theorem AtPos.int {mem : List UInt8} {objs : List Obj} {k pos n : Nat} (h : AtPos mem objs k (.int n) pos) :
    ∃ o, Verif.rd objs k = .ok o ∧ (n < 9223372036854775808 → getInt mem o = .ok (toInt32 n)) ∧
      (n < 18446744073709551616 → getBigInt mem o = .ok n) := by
  obtain ⟨pre, post, nx, t, rfl, rfl, hm⟩ := h
  simp only [BVal.flat, List.singleton_append]
  refine ⟨_, rd_mid _ _ _, ?_, ?_⟩
  · intro hn
    have hd := drop_one (c := chr 'i') (hm.trans (by simp [BVal.enc] : _ = chr 'i' :: (dec n ++ chr 'e' :: t)))
    unfold getInt
    simp only
    rw [hd, strtol_dec n (chr 'e') t (by decide) hn]
    rfl
  · intro hn
    exact getBigInt_dec mem _ n t (drop_one (c := chr 'i') (hm.trans (by simp [BVal.enc]))) hn

theorem AtPos.str {mem : List UInt8} {objs : List Obj} {k pos : Nat} {s : List UInt8} (h : AtPos mem objs k (.str s) pos) :
    ∃ o, Verif.rd objs k = .ok o ∧ o.type = .text ∧ o.bytes mem = s ∧ o.size = s.length ∧
      (mem.drop o.data).take s.length = s := by
  obtain ⟨pre, post, nx, t, rfl, rfl, hm⟩ := h
  simp only [BVal.flat, List.singleton_append]
  have hb := bytes_at nx .text (by simpa [BVal.enc] using hm : mem.drop pos = encStr s ++ t)
  refine ⟨_, rd_mid _ _ _, rfl, hb, rfl, ?_⟩
  unfold Obj.bytes at hb
  simpa using hb

theorem getIntKey_dict {mem : List UInt8} {objs : List Obj} {k pos : Nat} {kvs : List (List UInt8 × BVal)}
    (h : AtPos mem objs k (.dict kvs) pos) (name : List UInt8)
    (hn : ∀ n, lookup kvs name .number = some (.int n) → n < 9223372036854775808) :
    getIntKey mem objs k name = .ok (match lookup kvs name .number with | some (.int n) => toInt32 n | _ => 0) := by
  have hf := findKey_lookup h name .number
  unfold getIntKey
  cases hl : lookup kvs name .number with
  | none => rw [hl] at hf; rw [hf]; rfl
  | some v =>
    rw [hl] at hf
    obtain ⟨h1, j, pos', h2, h3⟩ := hf
    rw [h2]
    cases v with
    | int n =>
      obtain ⟨o, h4, h5, _⟩ := h3.int
      simp only [Res.bind_ok, h4]
      exact h5 (hn n hl)
    | str _ => cases h1
    | list _ => cases h1
    | dict _ => cases h1

theorem getBigIntKey_dict {mem : List UInt8} {objs : List Obj} {k pos : Nat} {kvs : List (List UInt8 × BVal)}
    (h : AtPos mem objs k (.dict kvs) pos) (name : List UInt8)
    (hn : ∀ n, lookup kvs name .number = some (.int n) → n < 18446744073709551616) :
    getBigIntKey mem objs k name = .ok (match lookup kvs name .number with | some (.int n) => n | _ => 0) := by
  have hf := findKey_lookup h name .number
  unfold getBigIntKey
  cases hl : lookup kvs name .number with
  | none => rw [hl] at hf; rw [hf]; rfl
  | some v =>
    rw [hl] at hf
    obtain ⟨h1, j, pos', h2, h3⟩ := hf
    rw [h2]
    cases v with
    | int n =>
      obtain ⟨o, h4, _, h5⟩ := h3.int
      simp only [Res.bind_ok, h4]
      exact h5 (hn n hl)
    | str _ => cases h1
    | list _ => cases h1
    | dict _ => cases h1

theorem getTxtItem_dict {mem : List UInt8} {objs : List Obj} {k pos : Nat} {kvs : List (List UInt8 × BVal)}
    (h : AtPos mem objs k (.dict kvs) pos) (name : List UInt8) :
    getTxtItem mem objs k name = .ok (match lookup kvs name .text with | some (.str s) => some s | _ => none) := by
  have hf := findKey_lookup h name .text
  unfold getTxtItem
  cases hl : lookup kvs name .text with
  | none => rw [hl] at hf; rw [hf]; rfl
  | some v =>
    rw [hl] at hf
    obtain ⟨h1, j, pos', h2, h3⟩ := hf
    rw [h2]
    cases v with
    | str s =>
      obtain ⟨o, h4, _, h5, _⟩ := h3.str
      simp only [Res.bind_ok, h4, h5]
      rfl
    | int _ => cases h1
    | list _ => cases h1
    | dict _ => cases h1

theorem getTxtKey_dict {mem : List UInt8} {objs : List Obj} {k pos : Nat} {kvs : List (List UInt8 × BVal)}
    (h : AtPos mem objs k (.dict kvs) pos) (name : List UInt8) :
    getTxtKey mem objs k name = .ok (match lookup kvs name .text with | some (.str s) => s | _ => []) := by
  unfold getTxtKey
  rw [getTxtItem_dict h]
  simp only [Res.bind_ok, Res.pure_eq]
  split <;> rfl

/-- The objects `js` are the values `vs`. -/
def AtAll (mem : List UInt8) (objs : List Obj) : List Nat → List BVal → Prop
  | [], [] => True
  | j :: js, v :: vs => (∃ pos, AtPos mem objs j v pos) ∧ AtAll mem objs js vs
  | _, _ => False

theorem itemsLoop_flat : (vs : List BVal) → (mem : List UInt8) → (pre post : List Obj) → (n pos : Nat) → (t : List UInt8) →
    mem.drop pos = encList vs ++ t → countList vs < n →
    ∃ js, itemsLoop (pre ++ (flatList vs pos ++ post)) n (if vs.isEmpty then none else some pre.length) = .ok js ∧
      AtAll mem (pre ++ (flatList vs pos ++ post)) js vs
  | [], mem, pre, post, n, pos, t, hm, hn => ⟨[], by simp [itemsLoop], trivial⟩
  | v :: vs, mem, pre, post, n, pos, t, hm, hn => by
    have hcnt : countList (v :: vs) = v.count + countList vs := by simp [countList]
    have hcp := count_pos v
    obtain ⟨n, rfl⟩ : ∃ m, n = m + 1 := ⟨n - 1, by omega⟩
    have hm' : mem.drop pos = v.enc ++ (encList vs ++ t) := by rw [hm]; simp [encList]
    simp only [List.isEmpty_cons, Bool.false_eq_true, if_false, flatList, List.append_assoc]
    generalize hnx : (if vs.isEmpty = true then 0 else v.count) = nx
    unfold itemsLoop
    rw [nextSibling_flat]
    simp only [Res.bind_ok]
    obtain ⟨js, h1, h2⟩ := itemsLoop_flat vs mem (pre ++ v.flat pos nx) post n (pos + v.enc.length) t (drop_add hm') (by omega)
    rw [List.append_assoc, List.length_append, flat_length] at h1
    have he : (if nx ≠ 0 then some (pre.length + nx) else none) =
        (if vs.isEmpty then none else some (pre.length + v.count)) := by
      subst hnx
      cases vs
      · simp
      · simp; omega
    rw [he, h1]
    rw [List.append_assoc] at h2
    exact ⟨pre.length :: js, rfl, ⟨pos, pre, _, nx, _, rfl, rfl, hm'⟩, h2⟩

theorem items_list {mem : List UInt8} {objs : List Obj} {k pos : Nat} {vs : List BVal}
    (h : AtPos mem objs k (.list vs) pos) : ∃ js, items objs k = .ok js ∧ AtAll mem objs js vs := by
  obtain ⟨pre, post, nx, t, rfl, rfl, hm⟩ := h
  simp only [BVal.flat, List.cons_append]
  obtain ⟨js, h1, h2⟩ := itemsLoop_flat vs mem (pre ++ [⟨0, vs.length, nx, .list⟩]) post
    ((pre ++ ⟨0, vs.length, nx, .list⟩ :: (flatList vs (pos + 1) ++ post)).length + 1) (pos + 1) (chr 'e' :: t)
    (drop_one (c := chr 'l') (hm.trans (by simp [BVal.enc]))) (by simp [flatList_length]; omega)
  simp only [List.append_assoc, List.singleton_append, List.length_append, List.length_cons, List.length_nil, Nat.zero_add] at h1 h2
  refine ⟨js, ?_, h2⟩
  unfold items firstItem
  rw [rd_mid]
  simp only [Res.bind_ok, Res.pure_eq, List.length_append, List.length_cons]
  have he : (if ((vs.length : Nat) : Int) ≠ 0 then some (pre.length + 1) else none) =
      (if vs.isEmpty then none else some (pre.length + 1)) := by cases vs <;> simp; omega
  rw [he]
  exact h1

theorem root_at {mem : List UInt8} {objs : List Obj} {v : BVal} {pos : Nat} (h : AtPos mem objs 0 v pos) :
    ∃ o, getRoot objs = some o ∧ o.type = v.ty := by
  obtain ⟨o, h1, h2⟩ := h.rd
  refine ⟨o, ?_, h2⟩
  unfold Verif.rd at h1
  unfold getRoot
  rw [List.head?_eq_getElem?]
  split at h1
  · rename_i a ha; cases h1; exact ha
  · cases h1

end Verif.Bencode
