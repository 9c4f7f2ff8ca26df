import Verif.Spec.DhtResponder
import Verif.Proof.Addr

namespace Verif.Dht
open Verif Net Bencode Spec

theorem encDict_append (a b : List (List UInt8 × BVal)) : encDict (a ++ b) = encDict a ++ encDict b := by
  induction a with
  | nil => simp [encDict]
  | cons x a ih => simp [encDict, ih]

theorem encDict_one (k : List UInt8) (v : BVal) : encDict [(k, v)] = encStr k ++ v.enc := by simp [encDict]

theorem reply_enc (me t : List UInt8) (rest : List (List UInt8 × BVal)) (hm : me.length = 20) :
    replyText me t (encDict rest) = (replyValue me t rest).enc := by
  have h1 : encStr (ascii "t") = ascii "1:t" := by decide +kernel
  have h2 : encStr (ascii "y") = ascii "1:y" := by decide +kernel
  have h3 : encStr (ascii "r") = ascii "1:r" := by decide +kernel
  have h4 : encStr (ascii "id") = ascii "2:id" := by decide +kernel
  have h5 : dec 20 = ascii "20" := by decide +kernel
  have h6 : ascii "d1:t" = chr 'd' :: ascii "1:t" := by decide +kernel
  have h7 : ascii "1:y1:r" = ascii "1:y" ++ ascii "1:r" := by decide +kernel
  have h8 : ascii "1:rd2:id20:" = ascii "1:r" ++ chr 'd' :: (ascii "2:id" ++ (ascii "20" ++ [chr ':'])) := by decide +kernel
  have h9 : ascii "ee" = [chr 'e', chr 'e'] := by decide +kernel
  have h10 : ascii ":" = [chr ':'] := by decide +kernel
  unfold replyText replyValue
  simp only [BVal.enc, encDict, h1, h2, h3, h4]
  simp [encStr, hm, h5, h6, h7, h8, h9, h10]

theorem nodes_enc (found : List NodeInfo) (w : Bool × Bool) :
    (if found.isEmpty then [] else nodesText w.1 w.2 found) = encDict (nodesEntry found w) := by
  unfold nodesEntry
  split
  · rfl
  · have h1 : encStr (ascii "nodes") = ascii "5:nodes" := by decide +kernel
    have h10 : ascii ":" = [chr ':'] := by decide +kernel
    have hc : ∀ l : List NodeInfo, l.flatMap compactNode = l.flatMap fun n => n.id ++ n.addr.toData := by
      intro l; congr 1; funext n; simp [compactNode, Addr.toData]
    rw [encDict_one, h1]
    unfold nodesText
    simp only [BVal.enc, encStr, hc, h10]
    simp

theorem valuesLoop_spec (v6 : Bool) (m : Nat) : ∀ (vals : List Stored) (c : Nat), (∀ s ∈ vals, s.addr.bytes.length = 16) →
    valuesLoop v6 m vals c =
      (encList ((((vals.map (·.addr)).filter (·.ipv6 == v6)).take (m - c)).map fun a => .str a.toData),
        c + ((((vals.map (·.addr)).filter (·.ipv6 == v6)).take (m - c)).length))
  | [], c, _ => by simp [valuesLoop, encList]
  | s :: vals, c, h => by
    have ih := valuesLoop_spec v6 m vals
    unfold valuesLoop
    by_cases hf : s.addr.ipv6 = v6
    · by_cases hc : c < m
      · rw [if_pos ⟨hc, hf⟩, ih (c + 1) (fun x hx => h x (List.mem_cons_of_mem _ hx))]
        obtain ⟨d, hd⟩ : ∃ d, m - c = d + 1 := ⟨m - c - 1, by omega⟩
        have hd' : m - (c + 1) = d := by omega
        have hl : s.addr.toData.length = Addr.size v6 + 2 := by
          unfold Addr.toData
          rw [List.length_append, take_len _ _ (h s List.mem_cons_self), be16_length, hf]
        have hp : (if v6 = true then ascii "18:" else ascii "6:") = dec (Addr.size v6 + 2) ++ [chr ':'] := by
          cases v6 <;> decide +kernel
        simp only [List.map_cons, List.filter_cons, hf, beq_self_eq_true, if_true, hd, hd', List.take_succ_cons, encList, BVal.enc, encStr, hl,
          List.length_cons, Prod.mk.injEq, hp]
        refine ⟨?_, by omega⟩
        simp [Addr.toData, hf]
      · rw [if_neg (fun hh => hc hh.1), ih c (fun x hx => h x (List.mem_cons_of_mem _ hx))]
        have : m - c = 0 := by omega
        simp [this]
    · rw [if_neg (fun hh => hf hh.2), ih c (fun x hx => h x (List.mem_cons_of_mem _ hx))]
      have : (s.addr.ipv6 == v6) = false := by simpa using hf
      simp only [List.map_cons, List.filter_cons, this]
      simp

theorem values_enc (r : Responder) (hr : WellFormed r) (ih : Id) (e : Endpoint) :
    r.writeValues ih e = encDict (valuesEntry (answeredPeers ((peersOf r ih).getD []) e.addr.ipv6)) := by
  unfold Responder.writeValues
  cases hp : peersOf r ih with
  | none => simp [answeredPeers, valuesEntry, encDict]
  | some vals =>
    have hv : ∀ s ∈ vals, s.addr.bytes.length = 16 := by
      unfold peersOf at hp
      cases hf : r.values.find? (·.1 == ih) with
      | none => simp [hf] at hp
      | some kv => rw [hf] at hp; cases hp; exact hr kv (List.mem_of_find?_eq_some hf)
    have hm : (if e.addr.ipv6 = true then maxPeerValuesResponse / 3 else maxPeerValuesResponse) = (if e.addr.ipv6 = true then 10 else 32) := by
      simp [maxPeerValuesResponse]
    simp only [hm, Option.getD_some]
    rw [valuesLoop_spec _ _ _ _ hv]
    simp only [Nat.sub_zero, Nat.zero_add]
    unfold valuesEntry
    have ha : answeredPeers vals e.addr.ipv6 = List.take (if e.addr.ipv6 = true then 10 else 32) (List.filter (fun x => x.ipv6 == e.addr.ipv6) (List.map (fun x => x.addr) vals)) := rfl
    rw [← ha]
    generalize answeredPeers vals e.addr.ipv6 = l
    cases l with
    | nil => simp [encDict]
    | cons a l =>
      have h1 : encStr (ascii "values") = ascii "6:values" := by decide +kernel
      have h2 : ascii "6:valuesl" = ascii "6:values" ++ [chr 'l'] := by decide +kernel
      have h3 : ascii "e" = [chr 'e'] := by decide +kernel
      simp [encDict, BVal.enc, h1, h2, h3]

theorem token_enc (n : Nat) : ascii "5:token4:" ++ le32 n = encDict [(ascii "token", .str (le32 n))] := by
  have h1 : encStr (ascii "token") = ascii "5:token" := by decide +kernel
  have h2 : ascii "5:token4:" = ascii "5:token" ++ (dec 4 ++ [chr ':']) := by decide +kernel
  have h3 : (le32 n).length = 4 := rfl
  rw [encDict_one, h1, h2]
  simp [BVal.enc, h3, encStr]

theorem wantLoop_flat : (vs : List BVal) → (mem : List UInt8) → (pre post : List Obj) → (n pos : Nat) → (t : List UInt8) → (w4 w6 : Bool) →
    mem.drop pos = encList vs ++ t → countList vs < n →
    wantLoop mem (pre ++ (flatList vs pos ++ post)) n (if vs.isEmpty then none else some pre.length) w4 w6 = .ok (wanted vs w4 w6)
  | [], mem, pre, post, n, pos, t, w4, w6, hm, hn => by cases n <;> simp [wantLoop, wanted]
  | v :: vs, mem, pre, post, n, pos, t, w4, w6, hm, hn => by
    have hcnt : countList (v :: vs) = v.count + countList vs := by simp [countList]
    have hcp := count_pos v
    obtain ⟨n, rfl⟩ : ∃ m, n = m + 1 := ⟨n - 1, by omega⟩
    have hm' : mem.drop pos = v.enc ++ (encList vs ++ t) := by rw [hm]; simp [encList]
    simp only [List.isEmpty_cons, Bool.false_eq_true, if_false, flatList, List.append_assoc]
    generalize hnx : (if vs.isEmpty = true then 0 else v.count) = nx
    have hat : AtPos mem (pre ++ (v.flat pos nx ++ (flatList vs (pos + v.enc.length) ++ post))) pre.length v pos :=
      ⟨pre, _, nx, _, rfl, rfl, hm'⟩
    have he : (if nx ≠ 0 then some (pre.length + nx) else none) =
        (if vs.isEmpty then none else some (pre.length + v.count)) := by
      subst hnx
      cases vs
      · simp
      · simp; omega
    unfold wantLoop
    cases v with
    | str s =>
      obtain ⟨o, h1, h2, h3, _, _⟩ := hat.str
      rw [h1]
      simp only [Res.bind_ok, h2, if_true, h3]
      rw [nextSibling_flat, he]
      simp only [Res.bind_ok]
      have ih := wantLoop_flat vs mem (pre ++ (BVal.str s).flat pos nx) post n (pos + (BVal.str s).enc.length) t
        (w4 || s == ascii "n4") (w6 || s == ascii "n6") (drop_add hm') (by omega)
      rw [List.append_assoc, List.length_append, flat_length] at ih
      rw [wanted, ← ih]
      have hne : ascii "n4" ≠ ascii "n6" := by decide +kernel
      by_cases e4 : s = ascii "n4"
      · subst e4
        have : (ascii "n4" == ascii "n6") = false := by decide +kernel
        simp [this]
      · by_cases e6 : s = ascii "n6"
        · subst e6
          have : (ascii "n6" == ascii "n4") = false := by decide +kernel
          simp [this, Ne.symm hne]
        · have h4 : (s == ascii "n4") = false := by simpa using e4
          have h6 : (s == ascii "n6") = false := by simpa using e6
          simp [e4, e6, h4, h6]
    | _ =>
      obtain ⟨o, h1, h2⟩ := hat.rd
      rw [h1]
      simp [h2, BVal.ty, wanted]

theorem wantLoop_list {mem : List UInt8} {objs : List Obj} {k pos : Nat} {vs : List BVal} (h : AtPos mem objs k (.list vs) pos) (w4 w6 : Bool) :
    (do let f ← firstItem objs k
        wantLoop mem objs (objs.length + 1) f w4 w6) = .ok (wanted vs w4 w6) := by
  obtain ⟨pre, post, nx, t, rfl, rfl, hm⟩ := h
  simp only [BVal.flat, List.cons_append]
  have h1 := wantLoop_flat vs mem (pre ++ [⟨0, vs.length, nx, .list⟩]) post
    ((pre ++ ⟨0, vs.length, nx, .list⟩ :: (flatList vs (pos + 1) ++ post)).length + 1) (pos + 1) (chr 'e' :: t) w4 w6
    (drop_one (c := chr 'l') (hm.trans (by simp [BVal.enc]))) (by simp [flatList_length]; omega)
  simp only [List.append_assoc, List.singleton_append, List.length_append, List.length_cons, List.length_nil, Nat.zero_add] at h1
  unfold firstItem
  rw [rd_mid]
  simp only [Res.bind_ok, Res.pure_eq, List.length_append, List.length_cons]
  have he : (if ((vs.length : Nat) : Int) ≠ 0 then some (pre.length + 1) else none) =
      (if vs.isEmpty then none else some (pre.length + 1)) := by cases vs <;> simp; omega
  rw [he]
  exact h1

theorem writeNodes_dict (r : Responder) (me hash : Id) (e : Endpoint) {mem : List UInt8} {objs : List Obj} {a pos : Nat}
    {args : List (List UInt8 × BVal)} (h : AtPos mem objs a (.dict args) pos) :
    r.writeNodes me hash e mem objs a = .ok (encDict (nodesEntry (getClosestNodes me r.table hash) (wantedBy args e.addr.ipv6))) := by
  have hf := findKey_lookup h (ascii "want") .list
  unfold Responder.writeNodes
  rw [← nodes_enc]
  unfold wantedBy
  cases hl : lookup args (ascii "want") .list with
  | none => rw [hl] at hf; rw [hf]; simp only [Res.bind_ok, Res.pure_eq]; split <;> rfl
  | some v =>
    rw [hl] at hf
    obtain ⟨h1, j, pos', h2, h3⟩ := hf
    rw [h2]
    cases v with
    | list vs =>
      have hw := wantLoop_list h3 (!e.addr.ipv6) e.addr.ipv6
      simp only [Res.bind_ok, Res.pure_eq]
      cases hfi : firstItem objs j with
      | ok f =>
        rw [hfi] at hw
        simp only [Res.bind_ok] at hw ⊢
        rw [hw]
        simp only [Res.bind_ok]
        split <;> rfl
      | _ => rw [hfi] at hw; cases hw
    | _ => simp [BVal.ty] at h1

theorem answer_dict (r : Responder) (hr : WellFormed r) (me : Id) (now : Nat) (e : Endpoint) {mem : List UInt8} {objs : List Obj} {a pos : Nat}
    {args : List (List UInt8 × BVal)} (h : AtPos mem objs a (.dict args) pos) (q : List UInt8)
    (hn : ∀ k n, lookup args k .number = some (.int n) → n < 9223372036854775808) :
    r.answer me now e mem objs a q = .ok ((answerSpec r me now e args q).map fun x => (encDict x.1, x.2)) := by
  unfold Responder.answer answerSpec
  by_cases h1 : q = ascii "find_node"
  · simp only [h1, if_true]
    rw [getTxtItem_dict h]
    cases lookup args (ascii "target") .text with
    | none => rfl
    | some v =>
      cases v with
      | str s =>
        simp only [Res.bind_ok]
        by_cases hs : s.length ≠ 20
        · simp [hs]
        · rw [if_neg hs, if_neg hs, writeNodes_dict r me s e h]; rfl
      | _ => rfl
  · simp only [h1, if_false]
    by_cases h2 : q = ascii "get_peers"
    · simp only [h2, if_true]
      rw [getTxtItem_dict h]
      cases lookup args (ascii "info_hash") .text with
      | none => rfl
      | some v =>
        cases v with
        | str s =>
          simp only [Res.bind_ok]
          by_cases hs : s.length ≠ 20
          · simp [hs]
          · rw [if_neg hs, if_neg hs, writeNodes_dict r me s e h]
            simp only [Res.bind_ok, Res.pure_eq, Option.map_some, encDict_append, ← values_enc r hr, ← token_enc, List.append_assoc]
        | _ => rfl
    · simp only [h2, if_false]
      by_cases h3 : q = ascii "announce_peer"
      · simp only [h3, if_true]
        rw [getTxtItem_dict h, getTxtItem_dict h]
        simp only [Res.bind_ok]
        cases hi : lookup args (ascii "info_hash") .text with
        | none => rfl
        | some v =>
          cases v with
          | str s =>
            cases ht : lookup args (ascii "token") .text with
            | none => rfl
            | some w =>
              cases w with
              | str tok =>
                simp only
                by_cases hs : s.length ≠ 20 ∨ tok.length ≠ 4 ∨ r.isValidToken (leVal tok) e = false
                · rw [if_pos hs, if_pos hs]; rfl
                · rw [if_neg hs, if_neg hs, getIntKey_dict h _ (hn _), getIntKey_dict h _ (hn _)]
                  rfl
              | _ => rfl
          | _ => rfl
      · simp only [h3, if_false]
        rfl

end Verif.Dht
