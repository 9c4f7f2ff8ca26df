import Verif.Proof.Bencode
import Verif.Model.TorrentFile

namespace Verif.Bencode
open Verif

/-- The type a parser object of the value has. -/
def BVal.ty : BVal → Ty
  | .int _ => .number
  | .str _ => .text
  | .list _ => .list
  | .dict _ => .dictionary

/-- Object `j` is the value `v`, encoded at `pos`. -/
def AtPos (mem : List UInt8) (objs : List Obj) (j : Nat) (v : BVal) (pos : Nat) : Prop :=
  ∃ pre post nx t, objs = pre ++ (v.flat pos nx ++ post) ∧ j = pre.length ∧ mem.drop pos = v.enc ++ t

theorem flat_type (v : BVal) (pos nx : Nat) (o : Obj) (r : List Obj) (h : v.flat pos nx = o :: r) : o.type = v.ty := by
  cases v <;> simp only [BVal.flat, List.cons.injEq] at h <;> rw [← h.1] <;> rfl

theorem rd_flat (pre : List Obj) (v : BVal) (pos nx : Nat) (post : List Obj) :
    ∃ o, rd (pre ++ (v.flat pos nx ++ post)) pre.length = .ok o ∧ o.type = v.ty ∧ o.next = nx ∧ v.flat pos nx = o :: (v.flat pos nx).tail := by
  obtain ⟨o, r, h1, h2, _⟩ := flat_head v pos nx
  refine ⟨o, ?_, flat_type v pos nx o r h2, h1, by rw [h2]; rfl⟩
  rw [h2, List.cons_append, rd_mid]

theorem key_equals {mem : List UInt8} {pos : Nat} {s t : List UInt8} (nx : Nat) (ty : Ty) (name : List UInt8)
    (h : mem.drop pos = encStr s ++ t) :
    (⟨pos + (dec s.length).length + 1, s.length, nx, ty⟩ : Obj).equals mem name = decide (s = name) := by
  unfold Obj.equals
  rw [bytes_at nx ty h]
  by_cases hs : s = name
  · subst hs; simp
  · simp [hs]

theorem flat_text {mem : List UInt8} {v : BVal} {pos nx : Nat} {o : Obj} {r : List Obj} {name t : List UInt8}
    (h : v.flat pos nx = o :: r) (hm : mem.drop pos = v.enc ++ t) (ht : v.ty = .text) (he : o.equals mem name = true) :
    v = .str name := by
  cases v with
  | str s =>
    simp only [BVal.flat, List.cons.injEq] at h
    simp only [BVal.enc] at hm
    rw [← h.1, key_equals _ _ _ hm, decide_eq_true_eq] at he
    rw [he]
  | int _ => cases ht
  | list _ => cases ht
  | dict _ => cases ht

theorem nx_eq {α} (kvs : List α) (c k : Nat) (hc : 0 < c) :
    (if (if kvs.isEmpty = true then 0 else c) ≠ 0 then some (k + if kvs.isEmpty = true then 0 else c) else none) =
    (if kvs.isEmpty then none else some (k + c)) := by
  cases kvs
  · simp
  · simp; omega

theorem findLoop_absent (kvs : List (List UInt8 × BVal)) (mem : List UInt8) (name : List UInt8) (ty : Ty) (pre post : List Obj)
    (n pos : Nat) (t : List UInt8) (hm : mem.drop pos = encDict kvs ++ t) (hn : countDict kvs < n)
    (ha : ∀ kv ∈ kvs, ¬ (kv.1 = name ∧ kv.2.ty = ty)) :
    findLoop mem (pre ++ (flatDict kvs pos ++ post)) name ty n (if kvs.isEmpty then none else some pre.length) = .ok none := by
  induction kvs generalizing pre n pos with
  | nil => simp [findLoop]
  | cons kv kvs ih =>
    have hcnt : countDict (kv :: kvs) = 1 + kv.2.count + countDict kvs := by simp [countDict]
    have hcp := count_pos kv.2
    obtain ⟨n, rfl⟩ : ∃ m, n = m + 1 := ⟨n - 1, by omega⟩
    have hm' : mem.drop pos = encStr kv.1 ++ (kv.2.enc ++ (encDict kvs ++ t)) := by rw [hm]; simp [encDict]
    simp only [List.isEmpty_cons, Bool.false_eq_true, if_false, flatDict, List.append_assoc, List.cons_append]
    unfold findLoop
    rw [rd_mid, Res.bind_ok]
    generalize hnx : (if kvs.isEmpty = true then 0 else kv.2.count) = nx
    have hv := rd_flat (pre ++ [⟨pos + (dec kv.1.length).length + 1, kv.1.length, 1, .text⟩]) kv.2 (pos + (encStr kv.1).length) nx
      (flatDict kvs (pos + (encStr kv.1).length + kv.2.enc.length) ++ post)
    have hs := nextSibling_flat (pre ++ [⟨pos + (dec kv.1.length).length + 1, kv.1.length, 1, .text⟩]) kv.2
      (flatDict kvs (pos + (encStr kv.1).length + kv.2.enc.length) ++ post) (pos + (encStr kv.1).length) nx
    simp only [List.append_assoc, List.singleton_append, List.length_append, List.length_cons, List.length_nil, Nat.zero_add] at hv hs
    obtain ⟨o, ho, hty, _⟩ := hv
    rw [ho, Res.bind_ok, key_equals _ _ _ hm', if_neg (by
      rw [hty, decide_eq_true_eq]; exact ha kv (by simp)), hs, Res.bind_ok]
    have hi := ih (pre ++ ⟨pos + (dec kv.1.length).length + 1, kv.1.length, 1, .text⟩ :: kv.2.flat (pos + (encStr kv.1).length) nx)
      n (pos + (encStr kv.1).length + kv.2.enc.length) (drop_add (drop_add hm')) (by omega) (fun x hx => ha x (by simp [hx]))
    simp only [List.append_assoc, List.cons_append, List.length_append, List.length_cons, flat_length] at hi
    subst hnx
    rw [nx_eq _ _ _ hcp, show pre.length + 1 + kv.2.count = pre.length + (kv.2.count + 1) by omega]
    exact hi

theorem findLoop_present (a b : List (List UInt8 × BVal)) (kv : List UInt8 × BVal) (mem : List UInt8) (pre post : List Obj)
    (n pos : Nat) (t : List UInt8) (hm : mem.drop pos = encDict (a ++ kv :: b) ++ t) (hn : countDict (a ++ kv :: b) < n)
    (ha : ∀ x ∈ a, ¬ (x.1 = kv.1 ∧ x.2.ty = kv.2.ty)) :
    ∃ j, findLoop mem (pre ++ (flatDict (a ++ kv :: b) pos ++ post)) kv.1 kv.2.ty n (some pre.length) = .ok (some j) ∧
      AtPos mem (pre ++ (flatDict (a ++ kv :: b) pos ++ post)) j kv.2 (pos + (encDict a).length + (encStr kv.1).length) := by
  induction a generalizing pre n pos with
  | nil =>
    obtain ⟨n, rfl⟩ : ∃ m, n = m + 1 := ⟨n - 1, by omega⟩
    simp only [List.nil_append] at hm ⊢
    have hm' : mem.drop pos = encStr kv.1 ++ (kv.2.enc ++ (encDict b ++ t)) := by rw [hm]; simp [encDict]
    simp only [flatDict, List.append_assoc, List.cons_append]
    unfold findLoop
    rw [rd_mid, Res.bind_ok]
    generalize hnx : (if b.isEmpty = true then 0 else kv.2.count) = nx
    have hv := rd_flat (pre ++ [⟨pos + (dec kv.1.length).length + 1, kv.1.length, 1, .text⟩]) kv.2 (pos + (encStr kv.1).length) nx
      (flatDict b (pos + (encStr kv.1).length + kv.2.enc.length) ++ post)
    simp only [List.append_assoc, List.singleton_append, List.length_append, List.length_cons, List.length_nil, Nat.zero_add] at hv
    obtain ⟨o, ho, hty, _⟩ := hv
    rw [ho, Res.bind_ok, key_equals _ _ _ hm', if_pos (by rw [hty]; simp)]
    refine ⟨_, rfl, pre ++ [⟨pos + (dec kv.1.length).length + 1, kv.1.length, 1, .text⟩],
      flatDict b (pos + (encStr kv.1).length + kv.2.enc.length) ++ post, nx, encDict b ++ t, ?_, by simp, ?_⟩
    · simp [encDict]
    · simpa [encDict] using drop_add hm'
  | cons x a ih =>
    have hcnt : countDict (x :: a ++ kv :: b) = 1 + x.2.count + countDict (a ++ kv :: b) := by simp [countDict]
    have hcp := count_pos x.2
    obtain ⟨n, rfl⟩ : ∃ m, n = m + 1 := ⟨n - 1, by omega⟩
    have hm' : mem.drop pos = encStr x.1 ++ (x.2.enc ++ (encDict (a ++ kv :: b) ++ t)) := by rw [hm]; simp [encDict]
    simp only [List.cons_append, flatDict, List.append_assoc]
    unfold findLoop
    rw [rd_mid, Res.bind_ok]
    generalize hnx : (if (a ++ kv :: b).isEmpty = true then 0 else x.2.count) = nx
    have hnx' : nx = x.2.count := by rw [← hnx]; simp
    have hv := rd_flat (pre ++ [⟨pos + (dec x.1.length).length + 1, x.1.length, 1, .text⟩]) x.2 (pos + (encStr x.1).length) nx
      (flatDict (a ++ kv :: b) (pos + (encStr x.1).length + x.2.enc.length) ++ post)
    have hs := nextSibling_flat (pre ++ [⟨pos + (dec x.1.length).length + 1, x.1.length, 1, .text⟩]) x.2
      (flatDict (a ++ kv :: b) (pos + (encStr x.1).length + x.2.enc.length) ++ post) (pos + (encStr x.1).length) nx
    simp only [List.append_assoc, List.singleton_append, List.length_append, List.length_cons, List.length_nil, Nat.zero_add] at hv hs
    obtain ⟨o, ho, hty, _⟩ := hv
    rw [ho, Res.bind_ok, key_equals _ _ _ hm', if_neg (by
      rw [hty, decide_eq_true_eq]; exact ha x (by simp)), hs, Res.bind_ok]
    have hi := ih (pre ++ ⟨pos + (dec x.1.length).length + 1, x.1.length, 1, .text⟩ :: x.2.flat (pos + (encStr x.1).length) nx)
      n (pos + (encStr x.1).length + x.2.enc.length) (drop_add (drop_add hm')) (by omega) (fun y hy => ha y (by simp [hy]))
    simp only [List.append_assoc, List.cons_append, List.length_append, List.length_cons, flat_length] at hi
    subst hnx'
    rw [if_pos (by omega), show pre.length + 1 + x.2.count = pre.length + (x.2.count + 1) by omega]
    have hpos : pos + (encDict (x :: a)).length + (encStr kv.1).length =
        pos + (encStr x.1).length + x.2.enc.length + (encDict a).length + (encStr kv.1).length := by simp [encDict]; omega
    rw [hpos]
    exact hi

theorem countDict_flat (kvs : List (List UInt8 × BVal)) (pre post : List Obj) (pos : Nat) :
    countDict kvs < (pre ++ (flatDict kvs pos ++ post)).length + 1 := by simp [flatDict_length]; omega

theorem findKey_absent {mem : List UInt8} {objs : List Obj} {k pos : Nat} {kvs : List (List UInt8 × BVal)}
    (h : AtPos mem objs k (.dict kvs) pos) (name : List UInt8) (ty : Ty) (ha : ∀ kv ∈ kvs, ¬ (kv.1 = name ∧ kv.2.ty = ty)) :
    findKey mem objs k name ty = .ok none := by
  obtain ⟨pre, post, nx, t, rfl, rfl, hm⟩ := h
  unfold findKey firstItem
  simp only [BVal.flat, List.cons_append, rd_mid, Res.bind_ok, Res.pure_eq]
  have h1 := findLoop_absent kvs mem name ty (pre ++ [⟨0, kvs.length, nx, .dictionary⟩]) post
    ((pre ++ ⟨0, kvs.length, nx, .dictionary⟩ :: (flatDict kvs (pos + 1) ++ post)).length + 1) (pos + 1) (chr 'e' :: t)
    (drop_one (c := chr 'd') (hm.trans (by simp [BVal.enc]))) (by simp [flatDict_length]; omega) ha
  simp only [List.append_assoc, List.singleton_append, List.length_append, List.length_cons, List.length_nil, Nat.zero_add] at h1 ⊢
  have he : (if ((kvs.length : Nat) : Int) ≠ 0 then some (pre.length + 1) else none) =
      (if kvs.isEmpty then none else some (pre.length + 1)) := by cases kvs <;> simp; omega
  rw [he]
  exact h1

theorem findKey_present {mem : List UInt8} {objs : List Obj} {k pos : Nat} {a b : List (List UInt8 × BVal)} {kv : List UInt8 × BVal}
    (h : AtPos mem objs k (.dict (a ++ kv :: b)) pos) (ha : ∀ x ∈ a, ¬ (x.1 = kv.1 ∧ x.2.ty = kv.2.ty)) :
    ∃ j, findKey mem objs k kv.1 kv.2.ty = .ok (some j) ∧
      AtPos mem objs j kv.2 (pos + 1 + (encDict a).length + (encStr kv.1).length) := by
  obtain ⟨pre, post, nx, t, rfl, rfl, hm⟩ := h
  unfold findKey firstItem
  simp only [BVal.flat, List.cons_append, rd_mid, Res.bind_ok, Res.pure_eq]
  have h1 := findLoop_present a b kv mem (pre ++ [⟨0, (a ++ kv :: b).length, nx, .dictionary⟩]) post
    ((pre ++ ⟨0, (a ++ kv :: b).length, nx, .dictionary⟩ :: (flatDict (a ++ kv :: b) (pos + 1) ++ post)).length + 1) (pos + 1) (chr 'e' :: t)
    (drop_one (c := chr 'd') (hm.trans (by simp [BVal.enc]))) (by simp [flatDict_length]; omega) ha
  rw [if_pos (by simp; omega)]
  simp only [List.append_assoc, List.singleton_append, List.length_append, List.length_cons, List.length_nil, Nat.zero_add] at h1 ⊢
  exact h1

theorem AtPos.tree {mem : List UInt8} {objs : List Obj} {k pos : Nat} {v : BVal} (h : AtPos mem objs k v pos) (hf : v.fits) (n : Nat)
    (hn : 2 * v.count ≤ n) : tree mem objs n k = .ok v := by
  obtain ⟨pre, post, nx, t, rfl, rfl, hm⟩ := h
  exact tree_flat v mem pre post n pos nx t hm hf hn

theorem AtPos.rd {mem : List UInt8} {objs : List Obj} {k pos : Nat} {v : BVal} (h : AtPos mem objs k v pos) :
    ∃ o, rd objs k = .ok o ∧ o.type = v.ty := by
  obtain ⟨pre, post, nx, t, rfl, rfl, hm⟩ := h
  obtain ⟨o, h1, h2, _⟩ := rd_flat pre v pos nx post
  exact ⟨o, h1, h2⟩

/-- Parsing an encoded value. -/
theorem parseAt_enc (v : BVal) (fuel : Nat) (mem : List UInt8) (start length : Nat) (t : List UInt8)
    (hm : mem.drop start = v.enc ++ t) (ht : t ≠ []) (hl : v.enc.length ≤ length) (hf : v.fits) (hc : v.count < 65536)
    (hfuel : v.enc.length ≤ fuel) :
    ∃ p, parseAt fuel mem start length = .ok p ∧ p.bodyEnd = start + v.enc.length ∧ p.remaining = length - v.enc.length ∧
      p.objs.length = v.count ∧ AtPos mem p.objs 0 v start := by
  obtain ⟨nx, h⟩ := parse_enc v ⟨mem, start + length⟩ fuel start [] t hm ht (by simp only; omega) hf (by simpa using hc) hfuel
  unfold parseAt
  rw [h, Res.bind_ok]
  refine ⟨_, rfl, rfl, ?_, by simp [flat_length], [], [], nx, t, by simp, rfl, hm⟩
  simp only
  split <;> omega

theorem encDict_append (a b : List (List UInt8 × BVal)) : encDict (a ++ b) = encDict a ++ encDict b := by
  induction a with
  | nil => simp [encDict]
  | cons x a ih => simp [encDict, ih]

theorem countDict_append (a b : List (List UInt8 × BVal)) : countDict (a ++ b) = countDict a + countDict b := by
  induction a with
  | nil => simp [countDict]
  | cons x a ih => simp [countDict, ih]; omega

theorem fitsDict_append {a b : List (List UInt8 × BVal)} : fitsDict (a ++ b) ↔ fitsDict a ∧ fitsDict b := by
  induction a with
  | nil => simp [fitsDict]
  | cons x a ih => simp [fitsDict, ih, and_assoc]

end Verif.Bencode

namespace Verif.TorrentFile
open Verif Bencode

/-- The walk over keys and values reaches the `info` key. -/
theorem infoLoop_reach (fuel : Nat) (mem : List UInt8) (p : Parsed) (a b : List (List UInt8 × BVal)) (d : List (List UInt8 × BVal))
    (pre post : List Obj) (n pos : Nat) (t : List UInt8)
    (ho : p.objs = pre ++ (flatDict (a ++ (ascii "info", .dict d) :: b) pos ++ post))
    (hm : mem.drop pos = encDict (a ++ (ascii "info", .dict d) :: b) ++ t)
    (hn : countDict a < n)
    (ha : ∀ x ∈ a, x.1 ≠ ascii "info") (hav : ∀ x ∈ a, ∀ s, x.2 = .str s → s ≠ ascii "info") :
    ∃ j, AtPos mem p.objs j (.dict d) (pos + (encDict a).length + (encStr (ascii "info")).length) ∧
      infoLoop fuel mem p n (some pre.length) =
        (infoEnd fuel mem p j).map' fun e => e.map fun e => (pos + (encDict a).length + (encStr (ascii "info")).length, e) := by
  induction a generalizing pre n pos with
  | nil =>
    obtain ⟨n, rfl⟩ : ∃ m, n = m + 1 := ⟨n - 1, by omega⟩
    simp only [List.nil_append] at hm ho
    have hm' : mem.drop pos = encStr (ascii "info") ++ ((BVal.dict d).enc ++ (encDict b ++ t)) := by rw [hm]; simp [encDict]
    simp only [flatDict, List.append_assoc, List.cons_append] at ho
    generalize hnx : (if b.isEmpty = true then 0 else (BVal.dict d).count) = nx at ho
    have hv := rd_flat (pre ++ [⟨pos + (dec (ascii "info").length).length + 1, (ascii "info").length, 1, .text⟩]) (.dict d) (pos + (encStr (ascii "info")).length) nx
      (flatDict b (pos + (encStr (ascii "info")).length + (BVal.dict d).enc.length) ++ post)
    simp only [List.append_assoc, List.singleton_append, List.length_append, List.length_cons, List.length_nil, Nat.zero_add] at hv
    obtain ⟨o, hov, hty, _⟩ := hv
    unfold infoLoop
    rw [ho, rd_mid, Res.bind_ok, nextSibling_mid, Res.bind_ok, key_equals _ _ _ hm', if_pos (by simp)]
    simp only [ne_eq, Nat.succ_ne_zero, not_false_eq_true, if_true]
    rw [hov, Res.bind_ok, if_pos (by rw [hty]; rfl)]
    refine ⟨pre.length + 1, ⟨pre ++ [⟨pos + (dec (ascii "info").length).length + 1, (ascii "info").length, 1, .text⟩],
      flatDict b (pos + (encStr (ascii "info")).length + (BVal.dict d).enc.length) ++ post, nx, encDict b ++ t, ?_, by simp, ?_⟩, ?_⟩
    · simp [encDict]
    · simpa [encDict] using drop_add hm'
    · have : pos + (dec (ascii "info").length).length + 1 + 4 = pos + (encDict []).length + (encStr (ascii "info")).length := by
        have : (ascii "info").length = 4 := by decide
        simp only [encDict, encStr, List.length_append, List.length_cons, List.length_nil, this]; omega
      rw [← this]
      cases infoEnd fuel mem p (pre.length + 1) <;> rfl
  | cons x a ih =>
    have hcnt : countDict (x :: a) = 1 + x.2.count + countDict a := by simp [countDict]
    have hcp := count_pos x.2
    obtain ⟨n, rfl⟩ : ∃ m, n = m + 2 := ⟨n - 2, by omega⟩
    have hm' : mem.drop pos = encStr x.1 ++ (x.2.enc ++ (encDict (a ++ (ascii "info", .dict d) :: b) ++ t)) := by
      rw [hm]; simp [encDict]
    have ho0 := ho
    simp only [List.cons_append, flatDict, List.append_assoc] at ho
    have hnx : (if (a ++ (ascii "info", BVal.dict d) :: b).isEmpty = true then 0 else x.2.count) = x.2.count := by simp
    rw [hnx] at ho
    have hv := rd_flat (pre ++ [⟨pos + (dec x.1.length).length + 1, x.1.length, 1, .text⟩]) x.2 (pos + (encStr x.1).length) x.2.count
      (flatDict (a ++ (ascii "info", .dict d) :: b) (pos + (encStr x.1).length + x.2.enc.length) ++ post)
    have hs := nextSibling_flat (pre ++ [⟨pos + (dec x.1.length).length + 1, x.1.length, 1, .text⟩]) x.2
      (flatDict (a ++ (ascii "info", .dict d) :: b) (pos + (encStr x.1).length + x.2.enc.length) ++ post) (pos + (encStr x.1).length) x.2.count
    simp only [List.append_assoc, List.singleton_append, List.length_append, List.length_cons, List.length_nil, Nat.zero_add] at hv hs
    obtain ⟨o, hov, hty, hfl⟩ := hv
    have hobj : ¬ (o.type = .text ∧ o.equals mem (ascii "info") = true) := by
      rintro ⟨h1, h2⟩
      rw [hty] at h1
      exact hav x (by simp) _ (flat_text hfl.2 (drop_add hm') h1 h2) rfl
    have hi := ih (pre ++ ⟨pos + (dec x.1.length).length + 1, x.1.length, 1, .text⟩ :: x.2.flat (pos + (encStr x.1).length) x.2.count)
      n (pos + (encStr x.1).length + x.2.enc.length) (by rw [ho]; simp) (drop_add (drop_add hm')) (by omega)
      (fun y hy => ha y (by simp [hy])) (fun y hy => hav y (by simp [hy]))
    simp only [List.length_append, List.length_cons, flat_length] at hi
    unfold infoLoop
    rw [ho, rd_mid, Res.bind_ok, nextSibling_mid, Res.bind_ok, key_equals _ _ _ hm',
      if_neg (by simp; exact ha x (by simp))]
    simp only [ne_eq, Nat.succ_ne_zero, not_false_eq_true, if_true]
    unfold infoLoop
    rw [ho, hov, Res.bind_ok, hs, Res.bind_ok, if_neg hobj, if_pos (by omega),
      show pre.length + 1 + x.2.count = pre.length + (x.2.count + 1) by omega]
    have hpos : pos + (encDict (x :: a)).length + (encStr (ascii "info")).length =
        pos + (encStr x.1).length + x.2.enc.length + (encDict a).length + (encStr (ascii "info")).length := by simp [encDict]; omega
    rw [hpos, ← ho]
    exact hi

/-- The end of the info dictionary is found from its `pieces` entry. -/
theorem infoEnd_ok (fuel : Nat) (mem : List UInt8) (p : Parsed) (j pos : Nat) (a b : List (List UInt8 × BVal)) (s : List UInt8)
    (h : AtPos mem p.objs j (.dict (a ++ (ascii "pieces", .str s) :: b)) pos)
    (ha : ∀ x ∈ a, ¬ (x.1 = ascii "pieces" ∧ x.2.ty = .text))
    (hin : pos + (BVal.dict (a ++ (ascii "pieces", .str s) :: b)).enc.length < p.bodyEnd) (hbe : p.bodyEnd ≤ mem.length)
    (hf : fitsDict b) (hc : countDict b + 1 < 65536) (hfuel : mem.length ≤ fuel) :
    infoEnd fuel mem p j = .ok (some (pos + (BVal.dict (a ++ (ascii "pieces", .str s) :: b)).enc.length)) := by
  obtain ⟨k, hk, hat⟩ := findKey_present h ha
  obtain ⟨pre, post, nx, t, ho, hj, hm⟩ := h
  obtain ⟨preP, postP, nxP, tP, hoP, hjP, hmP⟩ := hat
  unfold infoEnd
  rw [show Ty.text = (BVal.str s).ty from rfl, hk, Res.bind_ok]
  simp only
  have hrd : rd p.objs k = .ok ⟨pos + 1 + (encDict a).length + (encStr (ascii "pieces")).length + (dec s.length).length + 1, s.length, nxP, .text⟩ := by
    rw [hoP, hjP]; simp only [BVal.flat, List.singleton_append]; exact rd_mid _ _ _
  rw [hrd, Res.bind_ok]
  simp only [Int.toNat_natCast]
  -- the position after the pieces
  have henc : (BVal.dict (a ++ (ascii "pieces", .str s) :: b)).enc =
      chr 'd' :: (encDict a ++ encStr (ascii "pieces") ++ encStr s) ++ (encDict b ++ [chr 'e']) := by
    simp [BVal.enc, encDict_append, encDict]
  generalize hX : chr 'd' :: (encDict a ++ encStr (ascii "pieces") ++ encStr s) = X at henc
  have hXl : pos + 1 + (encDict a).length + (encStr (ascii "pieces")).length + (dec s.length).length + 1 + s.length = pos + X.length := by
    rw [← hX]
    have : (encStr s).length = (dec s.length).length + 1 + s.length := by unfold encStr; simp; omega
    simp only [List.length_cons, List.length_append, this]; omega
  rw [hXl, henc, List.length_append, List.length_append, List.length_singleton]
  rw [henc, List.length_append, List.length_append, List.length_singleton] at hin
  have hm1 : mem.drop (pos + X.length) = encDict b ++ chr 'e' :: t := by
    apply drop_add; rw [hm, henc]; simp
  cases b with
  | nil =>
    simp only [encDict, List.nil_append, List.length_nil] at hm1 ⊢
    rw [rd_drop hm1, Res.bind_ok, if_neg (by simp)]
    rfl
  | cons y b =>
    obtain ⟨c, r, h1, h2⟩ := encStr_head y.1
    have hX0 : 0 < X.length := by rw [← hX]; simp
    have htne : t ≠ [] := by
      intro htn
      have := congrArg List.length hm1
      rw [htn] at this
      simp only [List.length_drop, List.length_append, List.length_cons, List.length_nil] at this
      omega
    rw [rd_drop (c := c) (t := r ++ y.2.enc ++ encDict b ++ chr 'e' :: t) (by rw [hm1]; simp [encDict, h1]), Res.bind_ok,
      if_pos (digit_facts h2).2.2.2.1]
    have hsub : (mem.set (pos + X.length - 1) (chr 'd')).drop (pos + X.length - 1) = (BVal.dict (y :: b)).enc ++ t := by
      have hlt : pos + X.length - 1 < mem.length := by omega
      rw [List.drop_set, if_neg (by omega), Nat.sub_self, List.drop_eq_getElem_cons hlt, List.set_cons_zero,
        show pos + X.length - 1 + 1 = pos + X.length by omega, hm1]
      simp [BVal.enc]
    obtain ⟨sp, e1, e2, e3, e4, e5⟩ := parseAt_enc (.dict (y :: b)) fuel (mem.set (pos + X.length - 1) (chr 'd')) (pos + X.length - 1)
      (p.bodyEnd - (pos + X.length - 1)) t hsub htne (by simp [BVal.enc]; omega) hf (by simp [BVal.count]; omega)
      (by simp [BVal.enc]; omega)
    rw [e1, Res.bind_ok]
    have : sp.objs ≠ [] := by
      intro h0; rw [h0] at e4; simp [BVal.count] at e4; omega
    rw [if_neg this, e2]
    simp only [BVal.enc, Res.pure_eq, List.length_append, List.length_cons, List.length_nil]
    rw [show pos + X.length - 1 + ((encDict (y :: b)).length + 1 + (0 + 1)) = pos + (X.length + ((encDict (y :: b)).length + 1)) by omega]

end Verif.TorrentFile
