import Verif.Spec.DhtResponse
import Verif.Proof.DhtResponder
namespace Verif.Dht
open Verif Net Bencode Spec

theorem rd_within {mem s : List UInt8} {d : Nat} (h : (mem.drop d).take s.length = s) {i : Nat} {x : UInt8} (hx : s[i]? = some x) :
    rd mem (d + i) = .ok x := by
  have hi : i < s.length := by
    rcases Nat.lt_or_ge i s.length with h | h
    · exact h
    · rw [List.getElem?_eq_none h] at hx; cases hx
  rw [← h, List.getElem?_take, if_pos hi, List.getElem?_drop] at hx
  unfold rd
  rw [hx]

theorem take_within {mem s : List UInt8} {d : Nat} (h : (mem.drop d).take s.length = s) (p n : Nat) (hp : p + n ≤ s.length) :
    ((mem.drop d).drop p).take n = (s.drop p).take n := by
  conv => rhs; rw [← h]
  rw [List.drop_take, List.take_take, Nat.min_eq_left (by omega)]

theorem len_within {mem s : List UInt8} {d : Nat} (h : (mem.drop d).take s.length = s) : s.length ≤ (mem.drop d).length := by
  have := congrArg List.length h
  rw [List.length_take] at this
  omega

/-- The view of a node. -/
def nodeView (n : NodeInfo) : Id × Endp := (n.id, endpointKey n.addr)

theorem addr_within (junk : List UInt8) {mem s : List UInt8} {d : Nat} (h : (mem.drop d).take s.length = s) (p : Nat) (v6 : Bool)
    (hp : p + (Addr.size v6 + 2) ≤ s.length) :
    ∃ a, Addr.parse ⟨junk, 0, false⟩ ((mem.drop d).drop p) v6 = .ok (2 + Addr.size v6, a) ∧
      endpointKey a = (v6, (s.drop p).take (Addr.size v6), beVal ((s.drop (p + Addr.size v6)).take 2)) := by
  have hl := len_within h
  unfold Addr.parse
  simp only
  rw [if_pos (by rw [List.length_drop]; omega)]
  refine ⟨_, rfl, ?_⟩
  have h1 := take_within h p (Addr.size v6) (by omega)
  have h2 := take_within h (p + Addr.size v6) 2 (by omega)
  have hlen : ((s.drop p).take (Addr.size v6)).length = Addr.size v6 := by
    rw [List.length_take, List.length_drop]; omega
  unfold endpointKey
  simp only [h1]
  rw [List.drop_drop, h2, List.take_append_of_le_length (by omega), List.take_of_length_le (by omega)]

theorem nodesLoop_chunks (junk : List UInt8) (v6 : Bool) {mem s : List UInt8} {d : Nat} (h : (mem.drop d).take s.length = s) :
    ∀ (m p fuel : Nat) (acc : List NodeInfo), p + m * compactSize v6 = s.length → m < fuel →
    ∃ out, nodesLoop junk (mem.drop d) v6 s.length fuel p acc = .ok out ∧
      out.map nodeView = firstOfEach (acc.map nodeView) (compactNodes v6 m (s.drop p))
  | 0, p, fuel, acc, hp, hf => by
    obtain ⟨f, rfl⟩ : ∃ f, fuel = f + 1 := ⟨fuel - 1, by omega⟩
    refine ⟨acc, ?_, rfl⟩
    unfold nodesLoop
    rw [if_neg (by omega)]
  | m + 1, p, fuel, acc, hp, hf => by
    obtain ⟨f, rfl⟩ : ∃ f, fuel = f + 1 := ⟨fuel - 1, by omega⟩
    have hsz : compactSize v6 = 20 + (2 + Addr.size v6) := by cases v6 <;> rfl
    have hmul : (m + 1) * compactSize v6 = m * compactSize v6 + compactSize v6 := Nat.succ_mul _ _
    have hl := len_within h
    obtain ⟨a, ha1, ha2⟩ := addr_within junk h (p + 20) v6 (by omega)
    unfold nodesLoop
    rw [if_pos (by omega)]
    have hparse : NodeInfo.parse junk ((mem.drop d).drop p) v6 = .ok (compactSize v6, ⟨(s.drop p).take 20, a⟩) := by
      unfold NodeInfo.parse
      rw [if_pos (by rw [List.length_drop]; omega), List.drop_drop (i := 20), ha1, take_within h p 20 (by omega), hsz]
      rfl
    rw [hparse]
    simp only [Res.bind_ok]
    obtain ⟨out, ho1, ho2⟩ := nodesLoop_chunks junk v6 h m (p + compactSize v6) f
      (if acc.any (·.same ⟨(s.drop p).take 20, a⟩) then acc else acc ++ [⟨(s.drop p).take 20, a⟩]) (by omega) (by omega)
    refine ⟨out, ho1, ?_⟩
    rw [ho2]
    have hv : nodeView ⟨(s.drop p).take 20, a⟩ = ((s.drop p).take 20, v6, ((s.drop p).drop 20).take (if v6 then 16 else 4),
        beVal (((s.drop p).drop (if v6 then 36 else 24)).take 2)) := by
      unfold nodeView
      rw [ha2]
      cases v6 <;> simp [Addr.size, List.drop_drop, Nat.add_assoc]
    have hany : (acc.any (·.same ⟨(s.drop p).take 20, a⟩) = true) ↔ (s.drop p).take 20 ∈ (acc.map nodeView).map (·.1) := by
      simp [NodeInfo.same, nodeView, List.any_eq_true]
    show _ = firstOfEach _ (_ :: _)
    rw [firstOfEach, ← hv, ← List.drop_drop (i := compactSize v6)]
    by_cases hc : acc.any (·.same ⟨(s.drop p).take 20, a⟩) = true
    · rw [if_pos hc, if_pos (by exact hany.mp hc)]
    · rw [if_neg hc, if_neg (by exact fun h => hc (hany.mpr h))]
      simp

theorem firstOfEach_append (acc : List (Id × Endp)) : ∀ (a b : List (Id × Endp)), firstOfEach acc (a ++ b) = firstOfEach (firstOfEach acc a) b
  | [], b => rfl
  | x :: a, b => by
    simp only [List.cons_append, firstOfEach]
    exact firstOfEach_append _ a b

theorem parseNodes_dict (junk : List UInt8) {mem : List UInt8} {objs : List Obj} {r pos : Nat} {kvs : List (List UInt8 × BVal)}
    (h : AtPos mem objs r (.dict kvs) pos) (name : List UInt8) (v6 : Bool) (acc : List NodeInfo)
    (hs : ∀ s, lookup kvs name .text = some (.str s) → s.length % compactSize v6 = 0) :
    ∃ out, parseNodes junk mem objs r name v6 acc = .ok out ∧ out.map nodeView = firstOfEach (acc.map nodeView)
      (match lookup kvs name .text with | some (.str s) => compactNodes v6 (s.length / compactSize v6) s | _ => []) := by
  unfold parseNodes
  cases hl : lookup kvs name .text with
  | none => rw [find_none h hl]; exact ⟨acc, rfl, rfl⟩
  | some v =>
    obtain ⟨hv, j, p, hj, hat⟩ := find_some h hl
    obtain ⟨s, rfl⟩ := ty_text hv
    rw [hj]
    simp only [Res.bind_ok]
    obtain ⟨o, h1, _, _, h4, h5⟩ := hat.str
    rw [h1]
    simp only [Res.bind_ok, h4]
    have hm := hs s hl
    have hd := Nat.div_add_mod s.length (compactSize v6)
    rw [hm, Nat.mul_comm] at hd
    have hlen := len_within h5
    rw [List.length_drop] at hlen
    have hpos : 0 < compactSize v6 := by cases v6 <;> simp [compactSize]
    have hle : s.length / compactSize v6 ≤ s.length := Nat.div_le_self _ _
    obtain ⟨out, ho1, ho2⟩ := nodesLoop_chunks junk v6 h5 (s.length / compactSize v6) 0 (mem.length + 1) acc (by omega) (by omega)
    exact ⟨out, ho1, ho2⟩

theorem valuesParse_all (junk : List UInt8) {mem : List UInt8} {objs : List Obj} : ∀ (js : List Nat) (vs : List BVal), AtAll mem objs js vs →
    (∀ s, .str s ∈ vs → 6 ≤ s.length) → ∃ out, valuesParse junk mem objs js = .ok out ∧ out.map endpointKey = compactPeers vs
  | [], [], _, _ => ⟨[], rfl, rfl⟩
  | [], _ :: _, h, _ => h.elim
  | _ :: _, [], h, _ => h.elim
  | j :: js, v :: vs, ⟨⟨pos, hj⟩, h⟩, hs => by
    obtain ⟨out, ho1, ho2⟩ := valuesParse_all junk js vs h fun s hm => hs s (List.mem_cons_of_mem _ hm)
    unfold valuesParse
    cases v with
    | str s =>
      obtain ⟨o, h1, h2, _, h4, h5⟩ := hj.str
      have h6 := hs s List.mem_cons_self
      rw [h1]
      simp only [Res.bind_ok, h2, if_true, h4]
      by_cases hc : 18 ≤ s.length
      · obtain ⟨a, ha1, ha2⟩ := addr_within junk h5 0 true (by simp only [Addr.size, if_true]; omega)
        rw [List.drop_zero] at ha1
        rw [decide_eq_true (by omega), ha1]
        simp only [Res.bind_ok, Res.pure_eq]
        rw [ho1]
        refine ⟨a :: out, rfl, ?_⟩
        rw [List.map_cons, ha2, ho2]
        simp [compactPeers, hc, Addr.size]
      · obtain ⟨a, ha1, ha2⟩ := addr_within junk h5 0 false (by simp only [Addr.size, Bool.false_eq_true, if_false]; omega)
        rw [List.drop_zero] at ha1
        rw [decide_eq_false (by omega), ha1]
        simp only [Res.bind_ok, Res.pure_eq]
        rw [ho1]
        refine ⟨a :: out, rfl, ?_⟩
        rw [List.map_cons, ha2, ho2]
        simp [compactPeers, hc, Addr.size]
    | _ =>
      obtain ⟨o, h1, h2⟩ := hj.rd
      rw [h1]
      simp only [Res.bind_ok, h2, BVal.ty, reduceCtorEq, if_false, Res.pure_eq]
      rw [ho1]
      exact ⟨out, rfl, by simpa [compactPeers] using ho2⟩

theorem ty_list {v : BVal} (h : v.ty = .list) : ∃ s, v = .list s := by cases v <;> simp_all [BVal.ty]

theorem parseValues_dict (junk : List UInt8) {mem : List UInt8} {objs : List Obj} {r pos : Nat} {kvs : List (List UInt8 × BVal)}
    (h : AtPos mem objs r (.dict kvs) pos) (hs : ∀ vs s, lookup kvs (ascii "values") .list = some (.list vs) → .str s ∈ vs → 6 ≤ s.length) :
    ∃ out, parseValues junk mem objs r = .ok out ∧
      out.map endpointKey = (match lookup kvs (ascii "values") .list with | some (.list vs) => compactPeers vs | _ => []) := by
  unfold parseValues
  cases hl : lookup kvs (ascii "values") .list with
  | none => rw [find_none h hl]; exact ⟨[], rfl, rfl⟩
  | some v =>
    obtain ⟨hv, j, p, hj, hat⟩ := find_some h hl
    obtain ⟨vs, rfl⟩ := ty_list hv
    rw [hj]
    simp only [Res.bind_ok]
    obtain ⟨js, h1, h2⟩ := items_list hat
    rw [h1]
    exact valuesParse_all junk js vs h2 fun s => hs vs s hl

theorem parseToken_dict {mem : List UInt8} {objs : List Obj} {r pos : Nat} {kvs : List (List UInt8 × BVal)}
    (h : AtPos mem objs r (.dict kvs) pos) :
    parseToken mem objs r = .ok (match lookup kvs (ascii "token") .text with | some (.str s) => s | _ => []) := by
  unfold parseToken
  cases hl : lookup kvs (ascii "token") .text with
  | none => rw [find_none h hl]; rfl
  | some v =>
    obtain ⟨hv, j, p, hj, hat⟩ := find_some h hl
    obtain ⟨s, rfl⟩ := ty_text hv
    rw [hj]
    simp only [Res.bind_ok]
    obtain ⟨o, h1, h2⟩ := copyText_str hat
    rw [h1]
    exact h2

theorem typeIsReply_dict {mem : List UInt8} {objs : List Obj} {pos : Nat} {kvs : List (List UInt8 × BVal)}
    (h : AtPos mem objs 0 (.dict kvs) pos) (hy : lookup kvs (ascii "y") .text ≠ some (.str [])) :
    typeIsReply mem objs = .ok (isReply kvs) := by
  unfold typeIsReply isReply
  cases hl : lookup kvs (ascii "y") .text with
  | none => rw [find_none h hl]; rfl
  | some v =>
    obtain ⟨hv, j, p, hj, hat⟩ := find_some h hl
    obtain ⟨s, rfl⟩ := ty_text hv
    rw [hj]
    simp only [Res.bind_ok]
    obtain ⟨o, h1, _, _, _, h5⟩ := hat.str
    rw [h1]
    simp only [Res.bind_ok]
    cases s with
    | nil => exact absurd hl hy
    | cons c s =>
      have := rd_within h5 (i := 0) (x := c) rfl
      rw [Nat.add_zero] at this
      rw [this]
      simp [Bool.beq_eq_decide_eq]

theorem transactionOf_dict {mem : List UInt8} {objs : List Obj} {pos : Nat} {kvs : List (List UInt8 × BVal)}
    (h : AtPos mem objs 0 (.dict kvs) pos) (ht : ∀ s, lookup kvs (ascii "t") .text = some (.str s) → s.length ≠ 1) :
    transactionOf mem objs = .ok (transactionIn kvs) := by
  unfold transactionOf transactionIn
  cases hl : lookup kvs (ascii "t") .text with
  | none => rw [find_none h hl]; rfl
  | some v =>
    obtain ⟨hv, j, p, hj, hat⟩ := find_some h hl
    obtain ⟨s, rfl⟩ := ty_text hv
    have hlen := ht s hl
    rw [hj]
    simp only [Res.bind_ok]
    obtain ⟨o, h1, _, _, h4, h5⟩ := hat.str
    rw [h1]
    simp only [Res.bind_ok, h4]
    match s, hlen, h5 with
    | [], _, _ => rfl
    | [_], hlen, _ => exact absurd rfl hlen
    | a :: b :: s, _, h5 =>
      have e0 := rd_within h5 (i := 0) (x := a) rfl
      rw [Nat.add_zero] at e0
      rw [if_pos (by simp; omega), e0, rd_within h5 (i := 1) (x := b) rfl]
      simp [leVal]

theorem first_at {mem : List UInt8} {objs : List Obj} {k pos : Nat} {v : BVal} {vs : List BVal} (h : AtPos mem objs k (.list (v :: vs)) pos) :
    ∃ pos', firstItem objs k = .ok (some (k + 1)) ∧ AtPos mem objs (k + 1) v pos' := by
  obtain ⟨pre, post, nx, t, rfl, rfl, hm⟩ := h
  have hm' : mem.drop (pos + 1) = v.enc ++ (encList vs ++ (chr 'e' :: t)) :=
    drop_one (c := chr 'l') (hm.trans (by simp [BVal.enc, encList]))
  refine ⟨pos + 1, ?_, pre ++ [⟨0, (v :: vs).length, nx, .list⟩], flatList vs (pos + 1 + v.enc.length) ++ post, if vs.isEmpty then 0 else v.count, _, ?_, ?_, hm'⟩
  · simp only [BVal.flat, List.cons_append]
    unfold firstItem
    rw [rd_mid]
    simp
    omega
  · simp only [BVal.flat, flatList, List.cons_append, List.append_assoc, List.singleton_append, List.nil_append]
  · simp

theorem parseError_dict {mem : List UInt8} {objs : List Obj} {pos : Nat} {kvs : List (List UInt8 × BVal)}
    (h : AtPos mem objs 0 (.dict kvs) pos)
    (he : ∀ vs, lookup kvs (ascii "e") .list = some (.list vs) → vs = [] ∨ ∃ n tl, vs = .int n :: tl ∧ n < 9223372036854775808) :
    parseError mem objs = .ok (errorIn kvs) := by
  unfold parseError errorIn
  cases hl : lookup kvs (ascii "e") .list with
  | none => rw [find_none h hl]; rfl
  | some v =>
    obtain ⟨hv, j, p, hj, hat⟩ := find_some h hl
    obtain ⟨vs, rfl⟩ := ty_list hv
    rw [hj]
    simp only [Res.bind_ok]
    rcases he vs hl with rfl | ⟨n, tl, rfl, hn⟩
    · obtain ⟨pre, post, nx, t, rfl, rfl, hm⟩ := hat
      simp only [BVal.flat, List.cons_append]
      unfold firstItem
      rw [rd_mid]
      rfl
    · obtain ⟨pos', hf, hat'⟩ := first_at hat
      rw [hf]
      simp only [Res.bind_ok]
      obtain ⟨o, h1, h2, _⟩ := hat'.int
      obtain ⟨o', h1', h3⟩ := hat'.rd
      rw [h1] at h1'
      cases h1'
      rw [h1]
      simp only [Res.bind_ok, h3, BVal.ty, reduceCtorEq, or_self, if_false]
      exact h2 hn

theorem parseBody_dict (asked : Asked) (junk uninit : List UInt8) {mem : List UInt8} {objs : List Obj} {pos : Nat} {kvs : List (List UInt8 × BVal)}
    (h : AtPos mem objs 0 (.dict kvs) pos) (hw : WellSized kvs) (t : Nat) :
    ∃ out, parseBody asked junk mem objs { id := uninit, transaction := t } = .ok out ∧ Says uninit out { bodyOf asked kvs with transaction := t } := by
  unfold parseBody bodyOf
  cases hl : lookup kvs (ascii "r") .dictionary with
  | none =>
    rw [find_none h hl]
    exact ⟨_, rfl, ⟨rfl, rfl, rfl, rfl, rfl, rfl⟩⟩
  | some v =>
    obtain ⟨hv, j, p, hj, hat⟩ := find_some h hl
    obtain ⟨r, rfl⟩ := ty_dict hv
    rw [hj]
    simp only [Res.bind_ok]
    have hid : ∀ x : Id, (match (match lookup r (ascii "id") .text with | some (.str s) => some s | _ => none) with
        | some id => if id.length = 20 then id else x | none => x) =
        (match lookup r (ascii "id") .text with | some (.str s) => if s.length = 20 then some s else none | _ => none).getD x := by
      intro x
      cases hi : lookup r (ascii "id") .text with
      | none => rfl
      | some w =>
        obtain ⟨s, rfl⟩ := ty_text (find_some hat hi).1
        simp only
        by_cases hs : s.length = 20 <;> simp [hs]
    obtain ⟨n4, h4, e4⟩ := parseNodes_dict junk hat (ascii "nodes") false [] fun s hs => hw.nodes r s hl hs
    obtain ⟨n6, h6, e6⟩ := parseNodes_dict junk hat (ascii "nodes6") true n4 fun s hs => hw.nodes6 r s hl hs
    obtain ⟨vs, hvs, ev⟩ := parseValues_dict junk hat fun vs s => hw.values r vs s hl
    have hn : n6.map nodeView = nodesOf r := by
      refine e6.trans ?_
      rw [e4, ← firstOfEach_append]
      rfl
    cases asked with
    | peers =>
      simp only [reduceCtorEq, if_false, if_true]
      rw [h4]
      simp only [Res.bind_ok]
      rw [h6]
      simp only [Res.bind_ok]
      rw [hvs]
      simp only [Res.bind_ok]
      rw [parseToken_dict hat]
      simp only [Res.bind_ok]
      rw [getTxtItem_dict hat]
      simp only [Res.bind_ok, Res.pure_eq]
      exact ⟨_, rfl, ⟨rfl, hid uninit, rfl, hn, ev, rfl⟩⟩
    | nodes =>
      simp only [reduceCtorEq, if_false]
      rw [h4]
      simp only [Res.bind_ok]
      rw [h6]
      simp only [Res.bind_ok, Res.pure_eq]
      rw [getTxtItem_dict hat]
      simp only [Res.bind_ok, Res.pure_eq]
      exact ⟨_, rfl, ⟨rfl, hid uninit, rfl, hn, rfl, rfl⟩⟩
    | ping =>
      simp only [reduceCtorEq, if_false, if_true, Res.pure_eq, Res.bind_ok]
      rw [getTxtItem_dict hat]
      simp only [Res.bind_ok]
      exact ⟨_, rfl, ⟨rfl, hid uninit, rfl, rfl, rfl, rfl⟩⟩

theorem parseResponse_at (asked : Asked) (junk uninit : List UInt8) {mem : List UInt8} {objs : List Obj} {pos : Nat} {kvs : List (List UInt8 × BVal)}
    (h : AtPos mem objs 0 (.dict kvs) pos) (hw : WellSized kvs) :
    ∃ resp, parseResponseObjs asked junk uninit mem objs = .ok resp ∧ Says uninit resp (replyOf asked kvs) := by
  obtain ⟨o, h1, h2⟩ := root_at h
  unfold parseResponseObjs
  simp only [h1]
  rw [if_neg (by rw [h2]; simp [BVal.ty]), typeIsReply_dict h hw.y]
  simp only [Res.bind_ok]
  unfold replyOf
  cases isReply kvs with
  | false => exact ⟨_, rfl, ⟨rfl, rfl, rfl, rfl, rfl, rfl⟩⟩
  | true =>
    simp only [Bool.true_eq_false, if_false, if_true]
    rw [transactionOf_dict h hw.t]
    simp only [Res.bind_ok]
    obtain ⟨out, hb, hs⟩ := parseBody_dict asked junk uninit h hw (transactionIn kvs)
    rw [hb]
    simp only [Res.bind_ok]
    rw [parseError_dict h hw.e]
    simp only [Res.bind_ok, Res.pure_eq]
    exact ⟨_, rfl, ⟨hs.1, hs.2, hs.3, hs.4, hs.5, rfl⟩⟩

theorem parseResponse_enc (asked : Asked) (junk uninit : List UInt8) (kvs : List (List UInt8 × BVal)) (hf : (BVal.dict kvs).fits) (hc : (BVal.dict kvs).count < 65536)
    (hw : WellSized kvs) (extra after : List UInt8) (ha : extra ++ after ≠ []) (fuel : Nat) (hfuel : (BVal.dict kvs).enc.length ≤ fuel) :
    ∃ resp, parseResponse asked junk uninit fuel ((BVal.dict kvs).enc ++ extra) after = .ok resp ∧ Says uninit resp (replyOf asked kvs) := by
  obtain ⟨p, h1, _, _, _, h2⟩ := parseAt_enc (.dict kvs) fuel ((BVal.dict kvs).enc ++ extra ++ after) 0 ((BVal.dict kvs).enc ++ extra).length
    (extra ++ after) (by simp) ha (by simp) hf hc hfuel
  unfold parseResponse parse
  rw [h1]
  exact parseResponse_at asked junk uninit h2 hw

end Verif.Dht
