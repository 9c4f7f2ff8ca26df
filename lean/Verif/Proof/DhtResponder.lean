import Verif.Proof.DhtReply

namespace Verif.Dht
open Verif Net Bencode Spec

theorem copyText_str {mem : List UInt8} {objs : List Obj} {k pos : Nat} {s : List UInt8} (h : AtPos mem objs k (.str s) pos) :
    ∃ o, rd objs k = .ok o ∧ copyText mem o = .ok s := by
  obtain ⟨o, h1, _, h3, h4, _⟩ := h.str
  refine ⟨o, h1, ?_⟩
  obtain ⟨pre, post, nx, t, rfl, rfl, hm⟩ := h
  simp only [BVal.flat, List.singleton_append] at h1
  rw [rd_mid] at h1
  cases h1
  simp only at h3 h4
  unfold copyText
  rw [if_neg, h3]
  have hl := congrArg List.length hm
  simp only [BVal.enc, encStr, List.length_drop, List.length_append, List.length_cons] at hl
  simp only [not_or]
  constructor <;> omega

theorem getTxt_some {mem : List UInt8} {objs : List Obj} {k pos : Nat} {kvs : List (List UInt8 × BVal)}
    (h : AtPos mem objs k (.dict kvs) pos) (name s : List UInt8) (hl : lookup kvs name .text = some (.str s)) :
    getTxtItem mem objs k name = .ok (some s) := by rw [getTxtItem_dict h, hl]

theorem getTxt_none {mem : List UInt8} {objs : List Obj} {k pos : Nat} {kvs : List (List UInt8 × BVal)}
    (h : AtPos mem objs k (.dict kvs) pos) (name : List UInt8) (hl : ∀ s, lookup kvs name .text ≠ some (.str s)) :
    getTxtItem mem objs k name = .ok none := by
  rw [getTxtItem_dict h]
  cases hh : lookup kvs name .text with
  | none => rfl
  | some v => cases v with
    | str s => exact absurd hh (hl s)
    | _ => rfl

theorem find_some {mem : List UInt8} {objs : List Obj} {k pos : Nat} {kvs : List (List UInt8 × BVal)}
    (h : AtPos mem objs k (.dict kvs) pos) {name : List UInt8} {ty : Ty} {v : BVal} (hl : lookup kvs name ty = some v) :
    v.ty = ty ∧ ∃ j pos', findKey mem objs k name ty = .ok (some j) ∧ AtPos mem objs j v pos' := by
  have := findKey_lookup h name ty
  rw [hl] at this; exact this

theorem find_none {mem : List UInt8} {objs : List Obj} {k pos : Nat} {kvs : List (List UInt8 × BVal)}
    (h : AtPos mem objs k (.dict kvs) pos) {name : List UInt8} {ty : Ty} (hl : lookup kvs name ty = none) :
    findKey mem objs k name ty = .ok none := by
  have := findKey_lookup h name ty
  rw [hl] at this; exact this

theorem ty_text {v : BVal} (h : v.ty = .text) : ∃ s, v = .str s := by cases v <;> simp_all [BVal.ty]
theorem ty_dict {v : BVal} (h : v.ty = .dictionary) : ∃ s, v = .dict s := by cases v <;> simp_all [BVal.ty]

theorem handleParsed_at (r : Responder) (hr : WellFormed r) (me : Id) (hme : me.length = 20) (now : Nat) (e : Endpoint)
    {mem : List UInt8} {objs : List Obj} {pos : Nat} {v : BVal} (h : AtPos mem objs 0 v pos) (hn : SmallNumbers v) :
    r.handleParsed me now e mem objs = .ok ((respond r me now e v).1.map BVal.enc, (respond r me now e v).2) := by
  obtain ⟨o, h1, h2⟩ := root_at h
  unfold Responder.handleParsed
  simp only [h1]
  cases v with
  | dict kvs =>
    rw [if_neg (by rw [h2]; simp [BVal.ty])]
    unfold respond queryParts
    simp only
    cases hy : lookup kvs (ascii "y") .text with
    | none => rw [getTxt_none h _ (by simp [hy])]; simp
    | some y =>
      obtain ⟨y, rfl⟩ := ty_text (find_some h hy).1
      rw [getTxt_some h _ _ hy]
      simp only [Res.bind_ok, Option.some.injEq, ne_eq]
      by_cases hq : y = ascii "q"
      · simp only [hq, not_true_eq_false, if_false, if_true]
        cases ht : lookup kvs (ascii "t") .text with
        | none =>
          rw [find_none h ht]
          simp only [Res.bind_ok]
          rw [getTxtItem_dict h]
          simp only [Res.bind_ok]
          cases ha : lookup kvs (ascii "a") .dictionary with
          | none => rw [find_none h ha]; simp
          | some a => obtain ⟨_, j, p, hj, _⟩ := find_some h ha; rw [hj]; simp
        | some t =>
          obtain ⟨ht', jt, pt, hjt, hat⟩ := find_some h ht
          obtain ⟨t, rfl⟩ := ty_text ht'
          rw [hjt]
          simp only [Res.bind_ok]
          cases hqq : lookup kvs (ascii "q") .text with
          | none =>
            rw [getTxt_none h _ (by simp [hqq])]
            simp only [Res.bind_ok]
            cases ha : lookup kvs (ascii "a") .dictionary with
            | none => rw [find_none h ha]; simp
            | some a => obtain ⟨_, j, p, hj, _⟩ := find_some h ha; rw [hj]; simp
          | some q =>
            obtain ⟨q, rfl⟩ := ty_text (find_some h hqq).1
            rw [getTxt_some h _ _ hqq]
            simp only [Res.bind_ok]
            cases ha : lookup kvs (ascii "a") .dictionary with
            | none => rw [find_none h ha]; simp
            | some a =>
              obtain ⟨ha', ja, pa, hja, haa⟩ := find_some h ha
              obtain ⟨args, rfl⟩ := ty_dict ha'
              rw [hja]
              simp only [Res.bind_ok]
              cases hid : lookup args (ascii "id") .text with
              | none => rw [getTxt_none haa _ (by simp [hid])]; simp
              | some id =>
                obtain ⟨id, rfl⟩ := ty_text (find_some haa hid).1
                rw [getTxt_some haa _ _ hid]
                simp only [Res.bind_ok]
                by_cases hl : id.length = 20
                · simp only [hl, not_true_eq_false, if_false, if_true]
                  obtain ⟨o', ho, hc⟩ := copyText_str hat
                  rw [ho]
                  simp only [Res.bind_ok]
                  rw [hc]
                  simp only [Res.bind_ok]
                  rw [answer_dict r hr me now e haa q (hn kvs args rfl ha)]
                  cases hs : answerSpec r me now e args q with
                  | none => simp
                  | some x => simp [← reply_enc me t x.1 hme]
                · simp [hl]
      · simp [hq]
  | _ => rw [if_pos (by rw [h2]; simp [BVal.ty])]; simp [respond]

theorem handlePacket_enc (r : Responder) (hr : WellFormed r) (me : Id) (hme : me.length = 20) (now : Nat) (e : Endpoint) (v : BVal)
    (hf : v.fits) (hc : v.count < 65536) (hn : SmallNumbers v) (extra after : List UInt8) (ha : extra ++ after ≠ []) (fuel : Nat)
    (hfuel : v.enc.length ≤ fuel) :
    r.handlePacket me now e fuel (v.enc ++ extra) after =
      .ok ((respond r me now e v).1.map BVal.enc, (respond r me now e v).2) := by
  obtain ⟨p, h1, _, _, _, h2⟩ := parseAt_enc v fuel (v.enc ++ extra ++ after) 0 (v.enc ++ extra).length (extra ++ after)
    (by simp) ha (by simp) hf hc hfuel
  have hne : v.enc ++ extra ≠ [] := by
    cases v with
    | int n => simp [BVal.enc]
    | str s => simp [BVal.enc, encStr]
    | list l => simp [BVal.enc]
    | dict l => simp [BVal.enc]
  unfold Responder.handlePacket
  rw [if_neg (by simpa using hne)]
  unfold parse
  rw [h1]
  exact handleParsed_at r hr me hme now e h2 hn

/-! ### Any packet -/

theorem writeNodes_any {r : Responder} {me hash : Id} {e : Endpoint} {mem : List UInt8} {objs : List Obj} {a : Nat} {b : List UInt8}
    (h : r.writeNodes me hash e mem objs a = .ok b) : ∃ w, b = encDict (nodesEntry (getClosestNodes me r.table hash) w) := by
  unfold Responder.writeNodes at h
  have fin : ∀ w : Bool × Bool, (if (getClosestNodes me r.table hash).isEmpty = true then Res.ok [] else
      Res.ok (nodesText w.1 w.2 (getClosestNodes me r.table hash))) = Res.ok b →
      ∃ w, b = encDict (nodesEntry (getClosestNodes me r.table hash) w) := by
    intro w hw
    refine ⟨w, ?_⟩
    rw [← nodes_enc]
    split at hw <;> rename_i hc <;> cases hw <;> simp [hc]
  cases h1 : findKey mem objs a (ascii "want") .list with
  | ok l =>
    rw [h1] at h
    simp only [Res.bind_ok, Res.pure_eq] at h
    cases l with
    | none => exact fin (!e.addr.ipv6, e.addr.ipv6) h
    | some l =>
      simp only at h
      cases h2 : firstItem objs l with
      | ok f =>
        rw [h2] at h
        simp only [Res.bind_ok] at h
        cases h3 : wantLoop mem objs (objs.length + 1) f (!e.addr.ipv6) e.addr.ipv6 with
        | ok w => rw [h3] at h; exact fin w h
        | _ => rw [h3] at h; cases h
      | _ => rw [h2] at h; cases h
  | _ => rw [h1] at h; cases h

/-- What an accepted query does to the stored peers. -/
def Announces (r : Responder) (e : Endpoint) (now : Nat) (r' : Responder) : Prop :=
  r' = r ∨ ∃ info tok port, info.length = 20 ∧ tok.length = 4 ∧ r.isValidToken (leVal tok) e = true ∧
    r' = r.announcedPeer info { e.addr with port := port } now

theorem bind_eq_ok {α β} {x : Res α} {f : α → Res β} {b : β} (h : (x >>= f) = .ok b) : ∃ a, x = .ok a ∧ f a = .ok b := by
  cases x with
  | ok a => exact ⟨a, rfl, h⟩
  | _ => cases h

theorem answer_any {r : Responder} (hr : WellFormed r) {me : Id} {now : Nat} {e : Endpoint} {mem : List UInt8} {objs : List Obj} {a : Nat}
    {q body : List UInt8} {r' : Responder} (h : r.answer me now e mem objs a q = .ok (some (body, r'))) :
    (∃ rest, body = encDict rest ∧ ∀ kv ∈ rest, kv.1 = ascii "nodes" ∨ kv.1 = ascii "values" ∨ kv.1 = ascii "token") ∧
    Announces r e now r' := by
  have hnodes : ∀ l w, ∀ kv ∈ nodesEntry l w, kv.1 = ascii "nodes" := by
    intro l w kv hkv; unfold nodesEntry at hkv; split at hkv <;> simp_all
  have hvals : ∀ l, ∀ kv ∈ valuesEntry l, kv.1 = ascii "values" := by
    intro l kv hkv; unfold valuesEntry at hkv; split at hkv <;> simp_all
  unfold Responder.answer at h
  by_cases h1 : q = ascii "find_node"
  · simp only [h1, if_true] at h
    obtain ⟨t, ht, h⟩ := bind_eq_ok h
    cases t with
    | none => cases h
    | some t =>
      simp only at h
      by_cases hl : t.length ≠ 20
      · rw [if_pos hl] at h; cases h
      · rw [if_neg hl] at h
        obtain ⟨ns, hns, h⟩ := bind_eq_ok h
        obtain ⟨w, hw⟩ := writeNodes_any hns
        cases h
        exact ⟨⟨_, hw, fun kv hkv => .inl (hnodes _ _ _ hkv)⟩, .inl rfl⟩
  · simp only [h1, if_false] at h
    by_cases h2 : q = ascii "get_peers"
    · simp only [h2, if_true] at h
      obtain ⟨t, ht, h⟩ := bind_eq_ok h
      cases t with
      | none => cases h
      | some t =>
        simp only at h
        by_cases hl : t.length ≠ 20
        · rw [if_pos hl] at h; cases h
        · rw [if_neg hl] at h
          obtain ⟨ns, hns, h⟩ := bind_eq_ok h
          obtain ⟨w, hw⟩ := writeNodes_any hns
          cases h
          refine ⟨⟨nodesEntry (getClosestNodes me r.table t) w ++
            (valuesEntry (answeredPeers ((peersOf r t).getD []) e.addr.ipv6) ++ [(ascii "token", .str (le32 (r.issueToken e)))]), ?_, ?_⟩, .inl rfl⟩
          · rw [encDict_append, encDict_append, ← values_enc r hr, ← token_enc, hw]; simp
          · intro kv hkv
            rcases List.mem_append.mp hkv with hkv | hkv
            · exact .inl (hnodes _ _ _ hkv)
            · rcases List.mem_append.mp hkv with hkv | hkv
              · exact .inr (.inl (hvals _ _ hkv))
              · simp at hkv; exact .inr (.inr (by rw [hkv]))
    · simp only [h2, if_false] at h
      by_cases h3 : q = ascii "announce_peer"
      · simp only [h3, if_true] at h
        obtain ⟨i, _, h⟩ := bind_eq_ok h
        obtain ⟨t, _, h⟩ := bind_eq_ok h
        cases i with
        | none => cases h
        | some i =>
          cases t with
          | none => cases h
          | some t =>
            simp only at h
            by_cases hl : i.length ≠ 20 ∨ t.length ≠ 4 ∨ r.isValidToken (leVal t) e = false
            · rw [if_pos hl] at h; cases h
            · rw [if_neg hl] at h
              obtain ⟨p, _, h⟩ := bind_eq_ok h
              obtain ⟨ip, _, h⟩ := bind_eq_ok h
              simp only [not_or, ne_eq, Decidable.not_not, Bool.not_eq_false] at hl
              cases h
              exact ⟨⟨[], by simp [encDict], by simp⟩, .inr ⟨i, t, _, hl.1, hl.2.1, hl.2.2, rfl⟩⟩
      · simp only [h3, if_false] at h
        cases h
        exact ⟨⟨[], by simp [encDict], by simp⟩, .inl rfl⟩

theorem handleParsed_any {r : Responder} (hr : WellFormed r) {me : Id} (hme : me.length = 20) {now : Nat} {e : Endpoint} {mem : List UInt8}
    {objs : List Obj} {x : Option (List UInt8)} {r' : Responder} (h : r.handleParsed me now e mem objs = .ok (x, r')) :
    (x = none ∧ r' = r) ∨ ∃ t rest id r1, x = some (replyValue me t rest).enc ∧ id.length = 20 ∧
      (∀ kv ∈ rest, kv.1 = ascii "nodes" ∨ kv.1 = ascii "values" ∨ kv.1 = ascii "token") ∧
      Announces r e now r1 ∧ r' = { r1 with table := nodeResponded me now ⟨id, e.addr⟩ r1.table } := by
  unfold Responder.handleParsed at h
  cases hroot : getRoot objs with
  | none => rw [hroot] at h; cases h; exact .inl ⟨rfl, rfl⟩
  | some root =>
    rw [hroot] at h
    simp only at h
    by_cases hd : root.type ≠ .dictionary
    · rw [if_pos hd] at h; cases h; exact .inl ⟨rfl, rfl⟩
    · rw [if_neg hd] at h
      obtain ⟨y, _, h⟩ := bind_eq_ok h
      by_cases hy : y ≠ some (ascii "q")
      · rw [if_pos hy] at h; cases h; exact .inl ⟨rfl, rfl⟩
      · rw [if_neg hy] at h
        obtain ⟨t, _, h⟩ := bind_eq_ok h
        obtain ⟨q, _, h⟩ := bind_eq_ok h
        obtain ⟨a, _, h⟩ := bind_eq_ok h
        cases t with
        | none => cases h; exact .inl ⟨rfl, rfl⟩
        | some t =>
          cases q with
          | none => cases h; exact .inl ⟨rfl, rfl⟩
          | some q =>
            cases a with
            | none => cases h; exact .inl ⟨rfl, rfl⟩
            | some a =>
              simp only at h
              obtain ⟨id, _, h⟩ := bind_eq_ok h
              cases id with
              | none => cases h; exact .inl ⟨rfl, rfl⟩
              | some id =>
                simp only at h
                by_cases hl : id.length ≠ 20
                · rw [if_pos hl] at h; cases h; exact .inl ⟨rfl, rfl⟩
                · rw [if_neg hl] at h
                  obtain ⟨o, _, h⟩ := bind_eq_ok h
                  obtain ⟨tt, _, h⟩ := bind_eq_ok h
                  obtain ⟨ans, ha, h⟩ := bind_eq_ok h
                  cases ans with
                  | none => cases h; exact .inl ⟨rfl, rfl⟩
                  | some ans =>
                    obtain ⟨body, r1⟩ := ans
                    obtain ⟨⟨rest, hb, hk⟩, hA⟩ := answer_any hr ha
                    cases h
                    exact .inr ⟨tt, rest, id, r1, by rw [hb, reply_enc _ _ _ hme], by simpa using hl, hk, hA, rfl⟩

theorem handlePacket_any {r : Responder} (hr : WellFormed r) {me : Id} (hme : me.length = 20) {now : Nat} {e : Endpoint} {fuel : Nat}
    {data after : List UInt8} {x : Option (List UInt8)} {r' : Responder} (h : r.handlePacket me now e fuel data after = .ok (x, r')) :
    (x = none ∧ r' = r) ∨ ∃ t rest id r1, x = some (replyValue me t rest).enc ∧ id.length = 20 ∧
      (∀ kv ∈ rest, kv.1 = ascii "nodes" ∨ kv.1 = ascii "values" ∨ kv.1 = ascii "token") ∧
      Announces r e now r1 ∧ r' = { r1 with table := nodeResponded me now ⟨id, e.addr⟩ r1.table } := by
  unfold Responder.handlePacket at h
  split at h
  · cases h; exact .inl ⟨rfl, rfl⟩
  · obtain ⟨p, _, h⟩ := bind_eq_ok h
    exact handleParsed_any hr hme h

end Verif.Dht
