import Verif.Spec.DhtExchange
import Verif.Proof.DhtResponse
import Verif.Props.DhtTable
namespace Verif.Dht
open Verif Net Bencode Spec

theorem ascii_append (a b : String) : ascii a ++ ascii b = ascii (a ++ b) := by
  simp [ascii]

theorem encStr_len {s : List UInt8} {n : Nat} (h : s.length = n) : encStr s = dec n ++ [chr ':'] ++ s := by
  unfold encStr; rw [h]; simp

theorem le16b_length (n : Nat) : (le16b n).length = 2 := rfl

theorem getPeers_enc (me hash name : List UInt8) (t : Nat) (hm : me.length = 20) (hh : hash.length = 20) (hn : name.length = 4) :
    getPeersRequest me hash name t = (getPeersValue me hash name (le16b t)).enc := by
  have e1 : ascii "d1:ad2:id20:" = chr 'd' :: (encStr (ascii "a") ++ (chr 'd' :: (encStr (ascii "id") ++ (dec 20 ++ [chr ':'])))) := by decide +kernel
  have e2 : ascii "9:info_hash20:" = encStr (ascii "info_hash") ++ (dec 20 ++ [chr ':']) := by decide +kernel
  have e3 : ascii "4:wantl2:n42:n6e" = encStr (ascii "want") ++ (BVal.list [.str (ascii "n4"), .str (ascii "n6")]).enc := by decide +kernel
  have e4 : ascii "e1:q9:get_peers1:v4:" = chr 'e' :: (encStr (ascii "q") ++ (encStr (ascii "get_peers") ++ (encStr (ascii "v") ++ (dec 4 ++ [chr ':'])))) := by decide +kernel
  have e5 : ascii "1:t2:" = encStr (ascii "t") ++ (dec 2 ++ [chr ':']) := by decide +kernel
  have e6 : ascii "1:y1:qe" = encStr (ascii "y") ++ (encStr (ascii "q") ++ [chr 'e']) := by decide +kernel
  unfold getPeersRequest getPeersValue
  rw [e1, e2, e3, e4, e5, e6]
  simp only [BVal.enc, encDict, encStr_len hm, encStr_len hh, encStr_len hn, encStr_len (le16b_length t), List.append_assoc, List.cons_append,
    List.nil_append, List.append_nil]

theorem findNode_enc (me hash : List UInt8) (t : Nat) (hm : me.length = 20) (hh : hash.length = 20) :
    findNodeRequest me hash t = (findNodeValue me hash (le16b t)).enc := by
  have e1 : ascii "d1:ad2:id20:" = chr 'd' :: (encStr (ascii "a") ++ (chr 'd' :: (encStr (ascii "id") ++ (dec 20 ++ [chr ':'])))) := by decide +kernel
  have e2 : ascii "6:target20:" = encStr (ascii "target") ++ (dec 20 ++ [chr ':']) := by decide +kernel
  have e3 : ascii "4:wantl2:n42:n6e" = encStr (ascii "want") ++ (BVal.list [.str (ascii "n4"), .str (ascii "n6")]).enc := by decide +kernel
  have e4 : ascii "e1:q9:find_node" = chr 'e' :: (encStr (ascii "q") ++ encStr (ascii "find_node")) := by decide +kernel
  have e5 : ascii "1:t2:" = encStr (ascii "t") ++ (dec 2 ++ [chr ':']) := by decide +kernel
  have e6 : ascii "1:y1:qe" = encStr (ascii "y") ++ (encStr (ascii "q") ++ [chr 'e']) := by decide +kernel
  unfold findNodeRequest findNodeValue
  rw [e1, e2, e3, e4, e5, e6]
  simp only [BVal.enc, encDict, encStr_len hm, encStr_len hh, encStr_len (le16b_length t), List.append_assoc, List.cons_append,
    List.nil_append, List.append_nil]

theorem ping_enc (me : List UInt8) (t : Nat) (hm : me.length = 20) : pingRequest me t = (pingValue me (le16b t)).enc := by
  have e1 : ascii "d1:ad2:id20:" = chr 'd' :: (encStr (ascii "a") ++ (chr 'd' :: (encStr (ascii "id") ++ (dec 20 ++ [chr ':'])))) := by decide +kernel
  have e4 : ascii "e1:q4:ping1:t2:" = chr 'e' :: (encStr (ascii "q") ++ (encStr (ascii "ping") ++ (encStr (ascii "t") ++ (dec 2 ++ [chr ':'])))) := by decide +kernel
  have e6 : ascii "1:y1:qe" = encStr (ascii "y") ++ (encStr (ascii "q") ++ [chr 'e']) := by decide +kernel
  unfold pingRequest pingValue
  rw [e1, e4, e6]
  simp only [BVal.enc, encDict, encStr_len hm, encStr_len (le16b_length t), List.append_assoc, List.cons_append,
    List.nil_append, List.append_nil]

theorem announce_enc (me hash token : List UInt8) (tcp udp t : Nat) (hm : me.length = 20) (hh : hash.length = 20) :
    announceRequest me hash token tcp udp t = (announceValue me hash token (le16b t) udp (decide (tcp = udp))).enc := by
  have e1 : ascii "d1:ad2:id20:" = chr 'd' :: (encStr (ascii "a") ++ (chr 'd' :: (encStr (ascii "id") ++ (dec 20 ++ [chr ':'])))) := by decide +kernel
  have e2 : ascii "9:info_hash20:" = encStr (ascii "info_hash") ++ (dec 20 ++ [chr ':']) := by decide +kernel
  have e3 : ascii "12:implied_porti1e" = encStr (ascii "implied_port") ++ (BVal.int 1).enc := by decide +kernel
  have e4 : ascii "e1:q13:announce_peer1:t2:" = chr 'e' :: (encStr (ascii "q") ++ (encStr (ascii "announce_peer") ++ (encStr (ascii "t") ++ (dec 2 ++ [chr ':'])))) := by decide +kernel
  have e5 : ascii "4:porti" = encStr (ascii "port") ++ [chr 'i'] := by decide +kernel
  have e6 : ascii "1:y1:qe" = encStr (ascii "y") ++ (encStr (ascii "q") ++ [chr 'e']) := by decide +kernel
  have e7 : ascii "5:token" = encStr (ascii "token") := by decide +kernel
  have e8 : ascii ":" = [chr ':'] := by decide +kernel
  have e9 : ascii "e" = [chr 'e'] := by decide +kernel
  unfold announceRequest announceValue
  rw [e1, e2, e3, e4, e5, e6, e7, e8, e9]
  by_cases hp : tcp = udp
  · simp only [hp, if_true, decide_true, BVal.enc, encDict, encStr_len hm, encStr_len hh, encStr_len (le16b_length t), encStr_len (rfl : token.length = _),
      List.append_assoc, List.cons_append, List.nil_append, List.append_nil]
  · simp only [hp, if_false, decide_false, Bool.false_eq_true, BVal.enc, encDict, encStr_len hm, encStr_len hh, encStr_len (le16b_length t),
      encStr_len (rfl : token.length = _), List.append_assoc, List.cons_append, List.nil_append, List.append_nil]

/-! ### What the responder does with them -/

theorem queryParts_getPeers (me hash name t : List UInt8) (hm : me.length = 20) (kvs : List (List UInt8 × BVal))
    (h : getPeersValue me hash name t = .dict kvs) :
    queryParts kvs = some (t, ascii "get_peers", [(ascii "id", .str me), (ascii "info_hash", .str hash),
      (ascii "want", .list [.str (ascii "n4"), .str (ascii "n6")])], me) := by
  unfold getPeersValue at h
  cases h
  have h1 : ∀ x : Nat, x = 20 → (if x = 20 then some (t, ascii "get_peers", [(ascii "id", BVal.str me), (ascii "info_hash", .str hash),
      (ascii "want", .list [.str (ascii "n4"), .str (ascii "n6")])], me) else none) = some (t, ascii "get_peers", [(ascii "id", .str me), (ascii "info_hash", .str hash),
      (ascii "want", .list [.str (ascii "n4"), .str (ascii "n6")])], me) := fun x hx => if_pos hx
  exact h1 _ hm

theorem answer_getPeers (r : Responder) (srv : Id) (now : Nat) (e : Endpoint) (me hash : List UInt8) (hh : hash.length = 20) :
    answerSpec r srv now e [(ascii "id", .str me), (ascii "info_hash", .str hash), (ascii "want", .list [.str (ascii "n4"), .str (ascii "n6")])]
      (ascii "get_peers") = some (nodesEntry (getClosestNodes srv r.table hash) (true, true) ++
        valuesEntry (answeredPeers ((peersOf r hash).getD []) e.addr.ipv6) ++ [(ascii "token", .str (le32 (r.issueToken e)))], r) := by
  have hw : ∀ b, wantedBy [(ascii "id", .str me), (ascii "info_hash", .str hash), (ascii "want", .list [.str (ascii "n4"), .str (ascii "n6")])] b = (true, true) := by
    intro b; cases b <;> rfl
  have hl : lookup [(ascii "id", .str me), (ascii "info_hash", .str hash), (ascii "want", .list [.str (ascii "n4"), .str (ascii "n6")])]
      (ascii "info_hash") .text = some (.str hash) := rfl
  unfold answerSpec
  rw [if_neg (by decide +kernel), if_pos rfl, hl]
  simp only [hh, ne_eq, not_true_eq_false, if_false]
  rw [hw]

theorem respond_getPeers (r : Responder) (srv : Id) (now : Nat) (e : Endpoint) (me hash name t : List UInt8) (hm : me.length = 20) (hh : hash.length = 20) :
    respond r srv now e (getPeersValue me hash name t) = (some (replyValue srv t (nodesEntry (getClosestNodes srv r.table hash) (true, true) ++
        valuesEntry (answeredPeers ((peersOf r hash).getD []) e.addr.ipv6) ++ [(ascii "token", .str (le32 (r.issueToken e)))])),
      { r with table := nodeResponded srv now ⟨me, e.addr⟩ r.table }) := by
  have hq := queryParts_getPeers me hash name t hm _ rfl
  unfold respond
  unfold getPeersValue at hq ⊢
  simp only
  rw [hq]
  simp only
  rw [answer_getPeers r srv now e me hash hh]

theorem respond_findNode (r : Responder) (srv : Id) (now : Nat) (e : Endpoint) (me hash t : List UInt8) (hm : me.length = 20) (hh : hash.length = 20) :
    respond r srv now e (findNodeValue me hash t) = (some (replyValue srv t (nodesEntry (getClosestNodes srv r.table hash) (true, true))),
      { r with table := nodeResponded srv now ⟨me, e.addr⟩ r.table }) := by
  have hq : queryParts [(ascii "a", BVal.dict [(ascii "id", .str me), (ascii "target", .str hash), (ascii "want", .list [.str (ascii "n4"), .str (ascii "n6")])]),
      (ascii "q", .str (ascii "find_node")), (ascii "t", .str t), (ascii "y", .str (ascii "q"))] =
      some (t, ascii "find_node", [(ascii "id", .str me), (ascii "target", .str hash), (ascii "want", .list [.str (ascii "n4"), .str (ascii "n6")])], me) := by
    have h1 : ∀ x : Nat, x = 20 → (if x = 20 then some (t, ascii "find_node", [(ascii "id", BVal.str me), (ascii "target", .str hash),
        (ascii "want", .list [.str (ascii "n4"), .str (ascii "n6")])], me) else none) = some (t, ascii "find_node", [(ascii "id", .str me), (ascii "target", .str hash),
        (ascii "want", .list [.str (ascii "n4"), .str (ascii "n6")])], me) := fun x hx => if_pos hx
    exact h1 _ hm
  have hw : ∀ b, wantedBy [(ascii "id", .str me), (ascii "target", .str hash), (ascii "want", .list [.str (ascii "n4"), .str (ascii "n6")])] b = (true, true) := by
    intro b; cases b <;> rfl
  have hl : lookup [(ascii "id", .str me), (ascii "target", .str hash), (ascii "want", .list [.str (ascii "n4"), .str (ascii "n6")])]
      (ascii "target") .text = some (.str hash) := rfl
  unfold respond findNodeValue
  simp only
  rw [hq]
  simp only
  unfold answerSpec
  rw [if_pos rfl, hl]
  simp only [hh, ne_eq, not_true_eq_false, if_false]
  rw [hw]

theorem respond_ping (r : Responder) (srv : Id) (now : Nat) (e : Endpoint) (me t : List UInt8) (hm : me.length = 20) :
    respond r srv now e (pingValue me t) = (some (replyValue srv t []), { r with table := nodeResponded srv now ⟨me, e.addr⟩ r.table }) := by
  have hq : queryParts [(ascii "a", BVal.dict [(ascii "id", .str me)]), (ascii "q", .str (ascii "ping")), (ascii "t", .str t), (ascii "y", .str (ascii "q"))] =
      some (t, ascii "ping", [(ascii "id", .str me)], me) := by
    have h1 : ∀ x : Nat, x = 20 → (if x = 20 then some (t, ascii "ping", [(ascii "id", BVal.str me)], me) else none) =
        some (t, ascii "ping", [(ascii "id", .str me)], me) := fun x hx => if_pos hx
    exact h1 _ hm
  unfold respond pingValue
  simp only
  rw [hq]
  simp only
  unfold answerSpec
  rw [if_neg (by decide +kernel), if_neg (by decide +kernel), if_neg (by decide +kernel)]

/-! ### What the other side reads -/

theorem toData_length {a : Addr} (h : a.bytes.length = 16) : a.toData.length = (if a.ipv6 then 18 else 6) := by
  unfold Addr.toData
  rw [List.length_append, List.length_take, be16_length, h]
  cases a.ipv6 <;> rfl

theorem compact_flat : ∀ (ns : List NodeInfo) (v6 : Bool) (rest : List UInt8), (∀ n ∈ ns, n.id.length = 20 ∧ GoodAddr n.addr ∧ n.addr.ipv6 = v6) →
    compactNodes v6 ns.length (ns.flatMap (fun n => n.id ++ n.addr.toData) ++ rest) = ns.map nodeView
  | [], _, _, _ => rfl
  | n :: ns, v6, rest, h => by
    obtain ⟨h1, ⟨h2, h3⟩, h4⟩ := h n List.mem_cons_self
    have ih := compact_flat ns v6 rest fun x hx => h x (List.mem_cons_of_mem _ hx)
    have hlen : (n.addr.bytes.take (Addr.size v6)).length = Addr.size v6 := by
      rw [List.length_take, h2]; cases v6 <;> rfl
    have hflat : ((n :: ns).flatMap (fun n => n.id ++ n.addr.toData) ++ rest) =
        n.id ++ (n.addr.bytes.take (Addr.size v6) ++ (be16 n.addr.port ++ (ns.flatMap (fun n => n.id ++ n.addr.toData) ++ rest))) := by
      simp [Addr.toData, h4]
    rw [hflat]
    simp only [List.length_cons, compactNodes, List.map_cons]
    have hs : (if v6 then 36 else 24) = 20 + Addr.size v6 := by cases v6 <;> rfl
    have hz : (if v6 = true then 16 else 4) = Addr.size v6 := rfl
    have hc : compactSize v6 = 20 + (Addr.size v6 + 2) := by cases v6 <;> rfl
    rw [hs, hz, hc]
    have d20 : ∀ (x : List UInt8) (k : Nat), (n.id ++ x).drop (20 + k) = x.drop k := by
      intro x k; rw [← h1, List.drop_append]; simp
    have dsz : ∀ (x : List UInt8) (k : Nat), (n.addr.bytes.take (Addr.size v6) ++ x).drop (Addr.size v6 + k) = x.drop k := by
      intro x k
      conv => lhs; rw [← hlen]
      rw [List.drop_append]; simp [hlen]
    have e1 := d20 (n.addr.bytes.take (Addr.size v6) ++ (be16 n.addr.port ++ (ns.flatMap (fun n => n.id ++ n.addr.toData) ++ rest))) 0
    rw [Nat.add_zero, List.drop_zero] at e1
    have e2 := dsz (be16 n.addr.port ++ (ns.flatMap (fun n => n.id ++ n.addr.toData) ++ rest)) 0
    rw [Nat.add_zero, List.drop_zero] at e2
    have e3 := dsz (be16 n.addr.port ++ (ns.flatMap (fun n => n.id ++ n.addr.toData) ++ rest)) 2
    have e4 : (be16 n.addr.port ++ (ns.flatMap (fun n => n.id ++ n.addr.toData) ++ rest)).drop 2 = ns.flatMap (fun n => n.id ++ n.addr.toData) ++ rest := by
      rw [← be16_length n.addr.port, List.drop_left]
    have e5 : (be16 n.addr.port ++ (ns.flatMap (fun n => n.id ++ n.addr.toData) ++ rest)).take 2 = be16 n.addr.port := by
      rw [← be16_length n.addr.port, List.take_left]
    have e6 : ∀ x : List UInt8, (n.id ++ x).take 20 = n.id := by intro x; rw [← h1, List.take_left]
    have e7 : ∀ x : List UInt8, (n.addr.bytes.take (Addr.size v6) ++ x).take (Addr.size v6) = n.addr.bytes.take (Addr.size v6) := by
      intro x; conv => lhs; arg 1; rw [← hlen]
      rw [List.take_left]
    rw [e1, d20, d20, e2, e3, e4, e5, e6, e7, beVal_be16 _ h3, ih]
    simp [nodeView, endpointKey, h4]

theorem flat_len : ∀ (ns : List NodeInfo) (v6 : Bool), (∀ n ∈ ns, n.id.length = 20 ∧ GoodAddr n.addr ∧ n.addr.ipv6 = v6) →
    (ns.flatMap (fun n => n.id ++ n.addr.toData)).length = ns.length * compactSize v6
  | [], _, _ => by simp
  | n :: ns, v6, h => by
    obtain ⟨h1, ⟨h2, _⟩, h4⟩ := h n List.mem_cons_self
    rw [List.flatMap_cons, List.length_append, flat_len ns v6 fun x hx => h x (List.mem_cons_of_mem _ hx), List.length_append, h1, toData_length h2, h4,
      List.length_cons, Nat.succ_mul]
    cases v6 <;> simp [compactSize] <;> omega

theorem firstOfEach_nodup : ∀ (l acc : List (Id × Endp)), ((acc ++ l).map (·.1)).Nodup → firstOfEach acc l = acc ++ l
  | [], acc, _ => by simp [firstOfEach]
  | x :: l, acc, h => by
    unfold firstOfEach
    have hx : x.1 ∉ acc.map (·.1) := by
      rw [List.map_append, List.nodup_append] at h
      intro hm
      exact h.2.2 _ hm _ (by simp) rfl
    rw [if_neg hx, firstOfEach_nodup l _ (by simpa using h)]
    simp

theorem compactPeers_map : ∀ (ps : List Addr), (∀ a ∈ ps, GoodAddr a) → compactPeers (ps.map fun a => .str a.toData) = ps.map endpointKey
  | [], _ => rfl
  | a :: ps, h => by
    obtain ⟨h1, h2⟩ := h a List.mem_cons_self
    rw [List.map_cons, compactPeers, compactPeers_map ps fun x hx => h x (List.mem_cons_of_mem _ hx), toData_length h1, List.map_cons]
    congr 1
    have hlen : ∀ v6, (a.bytes.take (Addr.size v6)).length = Addr.size v6 := by
      intro v6; rw [List.length_take, h1]; cases v6 <;> rfl
    have h4 : (a.bytes.take 4).length = 4 := hlen false
    have h16 : (a.bytes.take 16).length = 16 := hlen true
    have hb : (be16 a.port).take 2 = be16 a.port := by rw [← be16_length a.port, List.take_length]
    cases hv : a.ipv6 with
    | false =>
      have e1 : (a.bytes.take 4 ++ be16 a.port).take 4 = a.bytes.take 4 := by rw [List.take_append_of_le_length (by omega), List.take_of_length_le (by omega)]
      have e2 : (a.bytes.take 4 ++ be16 a.port).drop 4 = be16 a.port := by rw [List.drop_append, h4]; simp [List.drop_of_length_le, h4]
      simp [Addr.toData, hv, Addr.size, endpointKey, e1, e2, hb, beVal_be16 _ h2]
    | true =>
      have e1 : (a.bytes.take 16 ++ be16 a.port).take 16 = a.bytes.take 16 := by rw [List.take_append_of_le_length (by omega), List.take_of_length_le (by omega)]
      have e2 : (a.bytes.take 16 ++ be16 a.port).drop 16 = be16 a.port := by rw [List.drop_append, h16]; simp [List.drop_of_length_le, h16]
      simp [Addr.toData, hv, Addr.size, endpointKey, e1, e2, hb, beVal_be16 _ h2]

theorem leVal_le16b (t : Nat) (h : t < 65536) : leVal (le16b t) = t := by
  simp only [leVal, le16b, List.foldr, UInt8.toNat_ofNat']
  omega

/-- The body of an answer. -/
def bodyEntries (ns : List NodeInfo) (ps : List Addr) (tok : Option (List UInt8)) : List (List UInt8 × BVal) :=
  nodesEntry ns (true, true) ++ valuesEntry ps ++ (match tok with | some tok => [(ascii "token", .str tok)] | none => [])

theorem nodesEntry_v4 (ns : List NodeInfo) (h : ∀ n ∈ ns, n.addr.ipv6 = false) :
    nodesEntry ns (true, true) = if ns.isEmpty then [] else [(ascii "nodes", .str (ns.flatMap fun n => n.id ++ n.addr.toData))] := by
  unfold nodesEntry
  have h1 : ns.filter (fun n => !n.addr.ipv6 && true) = ns := List.filter_eq_self.mpr fun n hn => by simp [h n hn]
  have h2 : ns.filter (fun n => n.addr.ipv6 && true) = [] := List.filter_eq_nil_iff.mpr fun n hn => by simp [h n hn]
  rw [h1, h2]
  simp

theorem body_lookups (srv : Id) (ns : List NodeInfo) (h : ∀ n ∈ ns, n.addr.ipv6 = false) (ps : List Addr) (tok : Option (List UInt8)) :
    lookup ((ascii "id", .str srv) :: bodyEntries ns ps tok) (ascii "id") .text = some (.str srv) ∧
    lookup ((ascii "id", .str srv) :: bodyEntries ns ps tok) (ascii "nodes") .text =
      (if ns.isEmpty then none else some (.str (ns.flatMap fun n => n.id ++ n.addr.toData))) ∧
    lookup ((ascii "id", .str srv) :: bodyEntries ns ps tok) (ascii "nodes6") .text = none ∧
    lookup ((ascii "id", .str srv) :: bodyEntries ns ps tok) (ascii "values") .list =
      (if ps.isEmpty then none else some (.list (ps.map fun a => .str a.toData))) ∧
    lookup ((ascii "id", .str srv) :: bodyEntries ns ps tok) (ascii "token") .text = tok.map .str := by
  unfold bodyEntries
  rw [nodesEntry_v4 ns h]
  unfold valuesEntry
  cases tok <;> cases ns.isEmpty <;> cases ps.isEmpty <;> exact ⟨rfl, rfl, rfl, rfl, rfl⟩

theorem reply_lookups (srv t : List UInt8) (rest : List (List UInt8 × BVal)) (kvs : List (List UInt8 × BVal)) (h : replyValue srv t rest = .dict kvs) :
    lookup kvs (ascii "y") .text = some (.str (ascii "r")) ∧ lookup kvs (ascii "t") .text = some (.str t) ∧
    lookup kvs (ascii "r") .dictionary = some (.dict ((ascii "id", .str srv) :: rest)) ∧ lookup kvs (ascii "e") .list = none := by
  unfold replyValue at h
  cases h
  exact ⟨rfl, rfl, rfl, rfl⟩

theorem reply_read (asked : Asked) (srv : Id) (hs : srv.length = 20) (t : Nat) (ht : t < 65536) (ns : List NodeInfo) (ps : List Addr) (tok : Option (List UInt8))
    (hn : ∀ n ∈ ns, n.id.length = 20 ∧ GoodAddr n.addr ∧ n.addr.ipv6 = false) (hd : (ns.map (·.id)).Nodup) (hp : ∀ a ∈ ps, GoodAddr a)
    (kvs : List (List UInt8 × BVal)) (hk : replyValue srv (le16b t) (bodyEntries ns ps tok) = .dict kvs) :
    WellSized kvs ∧ replyOf asked kvs =
      { transaction := t, id := some srv, token := if asked = .peers then tok.getD [] else [], nodes := if asked = .ping then [] else ns.map nodeView,
        values := if asked = .peers then ps.map endpointKey else [], result := 0 } := by
  obtain ⟨l1, l2, l3, l4⟩ := reply_lookups srv (le16b t) _ kvs hk
  obtain ⟨b1, b2, b3, b4, b5⟩ := body_lookups srv ns (fun n h => (hn n h).2.2) ps tok
  have hlen := flat_len ns false hn
  constructor
  · refine ⟨by rw [l1]; simp [ascii], ?_, ?_, ?_, ?_, ?_⟩
    · intro s h; rw [l2] at h; cases h; simp [le16b]
    · intro r s h1 h2
      rw [l3] at h1
      cases h1
      rw [b2] at h2
      split at h2
      · cases h2
      · cases h2
        rw [hlen]
        exact Nat.mul_mod_left _ _
    · intro r s h1 h2
      rw [l3] at h1
      cases h1
      rw [b3] at h2
      cases h2
    · intro r vs s h1 h2 h3
      rw [l3] at h1
      cases h1
      rw [b4] at h2
      split at h2
      · cases h2
      · cases h2
        obtain ⟨a, ha, he⟩ := List.mem_map.mp h3
        cases he
        rw [toData_length (hp a ha).1]
        split <;> omega
    · intro vs h; rw [l4] at h; cases h
  · unfold replyOf
    have hr : isReply kvs = true := by unfold isReply; rw [l1]; rfl
    have hnodes : nodesOf ((ascii "id", .str srv) :: bodyEntries ns ps tok) = ns.map nodeView := by
      unfold nodesOf
      rw [b2, b3]
      simp only [List.append_nil]
      cases hne : ns.isEmpty with
      | true => rw [List.isEmpty_iff.mp hne]; rfl
      | false =>
        simp only [Bool.false_eq_true, if_false]
        rw [hlen]
        have : ns.length * compactSize false / 26 = ns.length := Nat.mul_div_cancel _ (by decide)
        rw [this]
        have := compact_flat ns false [] hn
        rw [List.append_nil] at this
        rw [this, firstOfEach_nodup _ [] (by simpa [nodeView, Function.comp_def] using hd)]
        simp
    have hvals : (match (if ps.isEmpty then none else some (BVal.list (ps.map fun a => .str a.toData)) : Option BVal) with
        | some (.list vs) => compactPeers vs | _ => []) = ps.map endpointKey := by
      cases hpe : ps.isEmpty with
      | true => rw [List.isEmpty_iff.mp hpe]; rfl
      | false => exact compactPeers_map ps hp
    have htok : (match (tok.map BVal.str : Option BVal) with | some (.str s) => s | _ => []) = tok.getD [] := by cases tok <;> rfl
    have hb : bodyOf asked kvs =
        { nodes := if asked = .ping then [] else ns.map nodeView, values := if asked = .peers then ps.map endpointKey else [],
          token := if asked = .peers then tok.getD [] else [], id := some srv } := by
      unfold bodyOf
      rw [l3]
      simp only [b1, b4, b5, hs, if_true, hnodes]
      rw [← hvals, ← htok]
      rfl
    have ht' : transactionIn kvs = t := by
      unfold transactionIn
      rw [l2]
      exact leVal_le16b t ht
    have he : errorIn kvs = 0 := by unfold errorIn; rw [l4]
    rw [hr, hb, ht', he]
    rfl

/-! ### Sizes -/

theorem lookup_number {kvs : List (List UInt8 × BVal)} {k : List UInt8} {n : Nat} (h : lookup kvs k .number = some (.int n)) : (k, BVal.int n) ∈ kvs := by
  have := lookup_split kvs k .number
  rw [h] at this
  obtain ⟨_, a, b, he, _⟩ := this
  rw [he]; simp

theorem getPeers_sizes (me hash name t : List UInt8) (hm : me.length = 20) (hh : hash.length = 20) (hn : name.length = 4) (ht : t.length = 2) :
    (getPeersValue me hash name t).fits ∧ (getPeersValue me hash name t).count < 65536 ∧ SmallNumbers (getPeersValue me hash name t) := by
  refine ⟨?_, ?_, ?_⟩
  · simp [getPeersValue, BVal.fits, fitsDict, fitsList, hm, hh, hn, ht, ascii]
  · simp [getPeersValue, BVal.count, countDict, countList]
  · intro kvs args h1 h2 k n h3
    cases h1
    have h4 : lookup [(ascii "a", BVal.dict [(ascii "id", .str me), (ascii "info_hash", .str hash), (ascii "want", .list [.str (ascii "n4"), .str (ascii "n6")])]),
        (ascii "q", .str (ascii "get_peers")), (ascii "v", .str name), (ascii "t", .str t), (ascii "y", .str (ascii "q"))] (ascii "a") .dictionary =
        some (.dict [(ascii "id", .str me), (ascii "info_hash", .str hash), (ascii "want", .list [.str (ascii "n4"), .str (ascii "n6")])]) := rfl
    rw [h4] at h2
    cases h2
    have := lookup_number h3
    simp at this

theorem findNode_sizes (me hash t : List UInt8) (hm : me.length = 20) (hh : hash.length = 20) (ht : t.length = 2) :
    (findNodeValue me hash t).fits ∧ (findNodeValue me hash t).count < 65536 ∧ SmallNumbers (findNodeValue me hash t) := by
  refine ⟨?_, ?_, ?_⟩
  · simp [findNodeValue, BVal.fits, fitsDict, fitsList, hm, hh, ht, ascii]
  · simp [findNodeValue, BVal.count, countDict, countList]
  · intro kvs args h1 h2 k n h3
    cases h1
    have h4 : ∀ x : List (List UInt8 × BVal), lookup [(ascii "a", BVal.dict x),
        (ascii "q", .str (ascii "find_node")), (ascii "t", .str t), (ascii "y", .str (ascii "q"))] (ascii "a") .dictionary = some (.dict x) := fun _ => rfl
    rw [h4] at h2
    cases h2
    have := lookup_number h3
    simp at this

theorem ping_sizes (me t : List UInt8) (hm : me.length = 20) (ht : t.length = 2) :
    (pingValue me t).fits ∧ (pingValue me t).count < 65536 ∧ SmallNumbers (pingValue me t) := by
  refine ⟨?_, ?_, ?_⟩
  · simp [pingValue, BVal.fits, fitsDict, hm, ht, ascii]
  · simp [pingValue, BVal.count, countDict]
  · intro kvs args h1 h2 k n h3
    cases h1
    have h4 : ∀ x : List (List UInt8 × BVal), lookup [(ascii "a", BVal.dict x),
        (ascii "q", .str (ascii "ping")), (ascii "t", .str t), (ascii "y", .str (ascii "q"))] (ascii "a") .dictionary = some (.dict x) := fun _ => rfl
    rw [h4] at h2
    cases h2
    have := lookup_number h3
    simp at this

theorem announce_sizes (me hash token t : List UInt8) (port : Nat) (implied : Bool) (hm : me.length = 20) (hh : hash.length = 20) (htok : token.length = 4)
    (ht : t.length = 2) (hp : port < 65536) :
    (announceValue me hash token t port implied).fits ∧ (announceValue me hash token t port implied).count < 65536 ∧
      SmallNumbers (announceValue me hash token t port implied) := by
  refine ⟨?_, ?_, ?_⟩
  · cases implied <;> simp [announceValue, BVal.fits, fitsDict, hm, hh, htok, ht, ascii] <;> omega
  · cases implied <;> simp [announceValue, BVal.count, countDict]
  · intro kvs args h1 h2 k n h3
    cases h1
    have h4 : ∀ x : List (List UInt8 × BVal), lookup [(ascii "a", BVal.dict x),
        (ascii "q", .str (ascii "announce_peer")), (ascii "t", .str t), (ascii "y", .str (ascii "q"))] (ascii "a") .dictionary = some (.dict x) := fun _ => rfl
    rw [h4] at h2
    cases h2
    have := lookup_number h3
    cases implied <;> simp at this <;> omega

theorem fits_map : ∀ ps : List Addr, (∀ a ∈ ps, GoodAddr a) → fitsList (ps.map fun a => .str a.toData) ∧ countList (ps.map fun a => .str a.toData) = ps.length
  | [], _ => ⟨trivial, rfl⟩
  | a :: ps, h => by
    obtain ⟨h1, h2⟩ := fits_map ps fun x hx => h x (List.mem_cons_of_mem _ hx)
    have h3 := toData_length (h a List.mem_cons_self).1
    simp only [List.map_cons, fitsList, countList, BVal.fits, BVal.count, h2, List.length_cons]
    refine ⟨⟨by rw [h3]; split <;> omega, h1⟩, by omega⟩

theorem reply_sizes (srv t : List UInt8) (hs : srv.length = 20) (ht : t.length = 2) (ns : List NodeInfo) (ps : List Addr) (tok : Option (List UInt8))
    (hn : ∀ n ∈ ns, n.id.length = 20 ∧ GoodAddr n.addr ∧ n.addr.ipv6 = false) (hp : ∀ a ∈ ps, GoodAddr a) (h16 : ns.length ≤ 16) (h32 : ps.length ≤ 32)
    (htok : ∀ x ∈ tok, x.length = 4) :
    (replyValue srv t (bodyEntries ns ps tok)).fits ∧ (replyValue srv t (bodyEntries ns ps tok)).count < 65536 := by
  have hlen := flat_len ns false hn
  have hl : (ns.flatMap fun n => n.id ++ n.addr.toData).length < 2147483648 := by rw [hlen]; simp [compactSize]; omega
  generalize hg : (ns.flatMap fun n => n.id ++ n.addr.toData) = g at hl
  obtain ⟨h1, h2⟩ := fits_map ps hp
  unfold bodyEntries
  rw [nodesEntry_v4 ns (fun n h => (hn n h).2.2), hg]
  unfold valuesEntry replyValue
  cases tok with
  | none =>
    cases ns.isEmpty <;> cases ps.isEmpty <;>
      simp only [BVal.fits, fitsDict, BVal.count, countDict, Bool.false_eq_true, if_true, if_false, List.nil_append, List.append_nil, List.cons_append, hs, ht, h2] <;>
      refine ⟨by simp [ascii, hl, h1], by omega⟩
  | some tok =>
    have htok := htok tok rfl
    cases ns.isEmpty <;> cases ps.isEmpty <;>
      simp only [BVal.fits, fitsDict, BVal.count, countDict, Bool.false_eq_true, if_true, if_false, List.nil_append, List.cons_append, hs, ht, htok, h2] <;>
      refine ⟨by simp [ascii, hl, h1], by omega⟩

theorem leVal_le32 (n : Nat) (h : n < 4294967296) : leVal (le32 n) = n := by
  simp only [leVal, le32, List.foldr, UInt8.toNat_ofNat']
  omega

/-! ### Announcing -/

theorem respond_announce (r : Responder) (srv : Id) (now : Nat) (e : Endpoint) (me hash token t : List UInt8) (port : Nat) (implied : Bool)
    (hm : me.length = 20) (hh : hash.length = 20) (htok : token.length = 4) (hv : r.isValidToken (leVal token) e = true) (hp : port < 65536) :
    respond r srv now e (announceValue me hash token t port implied) = (some (replyValue srv t []),
      { r.announcedPeer hash { e.addr with port := if implied = true ∨ port = 0 then e.addr.port else port } now with
        table := nodeResponded srv now ⟨me, e.addr⟩ r.table }) := by
  have hq : ∀ args, lookup args (ascii "id") .text = some (.str me) →
      queryParts [(ascii "a", BVal.dict args), (ascii "q", .str (ascii "announce_peer")), (ascii "t", .str t), (ascii "y", .str (ascii "q"))] =
        some (t, ascii "announce_peer", args, me) := by
    intro args h
    have h1 : queryParts [(ascii "a", BVal.dict args), (ascii "q", .str (ascii "announce_peer")), (ascii "t", .str t), (ascii "y", .str (ascii "q"))] =
        match lookup args (ascii "id") .text with
        | some (.str id) => if id.length = 20 then some (t, ascii "announce_peer", args, id) else none
        | _ => none := rfl
    rw [h1, h]
    simp only [hm, if_true]
  have hport : toInt32 port = port := by
    unfold toInt32
    omega
  have hans : ∀ args, lookup args (ascii "info_hash") .text = some (.str hash) → lookup args (ascii "token") .text = some (.str token) →
      lookup args (ascii "port") .number = some (.int port) →
      lookup args (ascii "implied_port") .number = (if implied then some (.int 1) else none) →
      answerSpec r srv now e args (ascii "announce_peer") =
        some ([], r.announcedPeer hash { e.addr with port := if implied = true ∨ port = 0 then e.addr.port else port } now) := by
    intro args a1 a2 a3 a4
    unfold answerSpec
    rw [if_neg (by decide +kernel), if_neg (by decide +kernel), if_pos rfl, a1, a2]
    simp only [hh, htok, hv, ne_eq, not_true_eq_false, Bool.true_eq_false, or_self, if_false]
    rw [a3, a4]
    have h1 : toInt32 1 = 1 := by decide
    have h2 : ((port : Int) % 65536).toNat = port := by omega
    cases implied <;> simp [hport, h1, h2]
  unfold respond announceValue
  simp only
  rw [hq _ rfl]
  simp only
  rw [hans _ (by cases implied <;> rfl) (by cases implied <;> rfl) (by cases implied <;> rfl) (by cases implied <;> rfl)]
  rfl

end Verif.Dht
