import Verif.Proof.DhtExchange
import Verif.Proof.DhtPeers
/-! C56, C57, C60: DHT queries of our own, their answers and the announces after them. -/

namespace Verif
open Verif Net Dht Bencode Spec

/-! ## C57 -/

/-- C57, messages in which everything of fixed size has its size: the response is read without leaving the
message, and what is found is what the message says. Missing: all other messages, see the theorems below. -/
theorem C57_reads_partial (asked : Asked) (junk uninit : List UInt8) (kvs : List (List UInt8 × BVal)) (hf : (BVal.dict kvs).fits) (hc : (BVal.dict kvs).count < 65536)
    (hw : WellSized kvs) (extra after : List UInt8) (ha : extra ++ after ≠ []) (fuel : Nat) (hfuel : (BVal.dict kvs).enc.length ≤ fuel) :
    ∃ resp, parseResponse asked junk uninit fuel ((BVal.dict kvs).enc ++ extra) after = .ok resp ∧ Says uninit resp (replyOf asked kvs) :=
  parseResponse_enc asked junk uninit kvs hf hc hw extra after ha fuel hfuel

private def exJunk : List UInt8 := List.replicate 16 0
private def exUninit : Id := List.replicate 20 238
private def exReply : List (List UInt8 × BVal) :=
  [(ascii "r", .dict [(ascii "id", .str (List.replicate 20 5)), (ascii "nodes", .str (List.replicate 20 6 ++ [1, 2, 3, 4, 26, 225])),
      (ascii "values", .list [.str [9, 8, 7, 6, 0, 80], .int 3, .str (List.replicate 16 7 ++ [1, 0])]), (ascii "token", .str (ascii "tok"))]),
    (ascii "t", .str [2, 1]), (ascii "y", .str (ascii "r"))]

example : replyOf .peers exReply =
    { transaction := 258, id := some (List.replicate 20 5), token := (ascii "tok"),
      nodes := [(List.replicate 20 6, false, [1, 2, 3, 4], 6881)], values := [(false, [9, 8, 7, 6], 80), (true, List.replicate 16 7, 256)], result := (0 : Int) } ∧
    (BVal.dict exReply).count < 65536 ∧
    ∃ resp, parseResponse .peers exJunk exUninit 1000 (BVal.dict exReply).enc [0] = .ok resp ∧ resp.nodes.length = 1 ∧ resp.values.length = 2 ∧ resp.transaction = 258 := by
  refine ⟨by decide +kernel, by decide +kernel, ?_⟩
  refine Res.exists_ok ?_
  decide +kernel

/-- C57 is false for a string of nodes whose length is no multiple of 26: nodes are read beyond it and beyond
the message. -/
theorem C57_nodes_violated (asked : Asked) (h : asked ≠ .ping) : parseResponse asked exJunk exUninit 1000 (ascii "d1:rd5:nodes1:xee") [0] = .ub := by
  cases asked with
  | ping => exact absurd rfl h
  | _ => decide +kernel

/-- C57 is false for short entries of `values`: six bytes are always read. -/
theorem C57_values_violated : parseResponse .peers exJunk exUninit 1000 (ascii "d1:rd6:valuesl1:xeee") [0] = .ub := by decide +kernel

/-- C57 is false for a token with the length 4294967295, which becomes -1. -/
theorem C57_token_violated : parseResponse .peers exJunk exUninit 1000 (ascii "d1:rd5:token4294967295:ee") [0] = .ub := by decide +kernel

/-- C57 is false for an error whose first element is a list: its text is a null pointer. -/
theorem C57_error_violated (asked : Asked) : parseResponse asked exJunk exUninit 1000 (ascii "d1:elleee") [0] = .ub := by cases asked <;> decide +kernel

/-- C57 is false for messages ending in a short entry of `values`: the peers found depend on what is left behind the message in the
receive buffer, here the port of the peer. -/
theorem C57_memory_violated (a b : UInt8) (hab : a ≠ b) : ∃ x y,
    parseResponse .peers exJunk exUninit 1000 (ascii "d1:rd6:valuesl1:xeee") [1, a, 0] = .ok x ∧
    parseResponse .peers exJunk exUninit 1000 (ascii "d1:rd6:valuesl1:xeee") [1, b, 0] = .ok y ∧ x.values ≠ y.values := by
  have h : ∀ c : UInt8, parseResponse .peers exJunk exUninit 1000 (ascii "d1:rd6:valuesl1:xeee") [1, c, 0] =
      .ok { id := exUninit, values := [⟨ascii "xeee" ++ List.replicate 12 0, 256 + c.toNat, false⟩] } := by
    apply forall_u8
    decide +kernel
  refine ⟨_, _, h a, h b, ?_⟩
  simp only [ne_eq, List.cons.injEq, Addr.mk.injEq, and_true, true_and]
  intro he
  exact hab (UInt8.toNat_inj.mp (by omega))

/-- C57 is false for answers without an id: the id compared with the one of the queried node is then memory
that was never written. -/
theorem C57_uninitialised_violated (asked : Asked) (uninit : Id) : ∃ resp, parseResponse asked exJunk uninit 1000 (ascii "d1:rde1:t2:ab1:y1:re") [0] = .ok resp ∧
    resp.id = uninit ∧ resp.transaction = 25185 := by
  obtain ⟨resp, h1, h2⟩ := C57_reads_partial asked exJunk uninit [(ascii "r", .dict []), (ascii "t", .str (ascii "ab")), (ascii "y", .str (ascii "r"))]
    (by simp [BVal.fits, fitsDict, ascii]) (by decide +kernel)
    ⟨(by intro h; cases h), (by intro s h; cases h; decide), (by intro r s h1 h2; cases h1; cases h2), (by intro r s h1 h2; cases h1; cases h2),
      (by intro r vs s h1 h2; cases h1; cases h2), (by intro vs h; cases h)⟩ [] [0] (by simp) 1000 (by decide +kernel)
  refine ⟨resp, ?_, ?_, ?_⟩
  · rw [← h1]
    have : (BVal.dict [(ascii "r", .dict []), (ascii "t", .str (ascii "ab")), (ascii "y", .str (ascii "r"))]).enc ++ [] = ascii "d1:rde1:t2:ab1:y1:re" := by
      decide +kernel
    rw [this]
  · rw [h2.id]; cases asked <;> rfl
  · rw [h2.transaction]; cases asked <;> decide +kernel

/-! ## C60 -/

private theorem closest_good (r : Responder) (srv : Id) (hr : GoodResponder srv r) (hash : Id)
    (h4 : ∀ n ∈ getClosestNodes srv r.table hash, n.addr.ipv6 = false) :
    ∀ n ∈ getClosestNodes srv r.table hash, n.id.length = 20 ∧ GoodAddr n.addr ∧ n.addr.ipv6 = false := by
  intro n hn'
  obtain ⟨b, hb, x, hx, he, _⟩ := (C59_bounded srv r.table hr.table hash).2.2.2 n hn'
  obtain ⟨g1, g2⟩ := hr.nodes b hb x hx
  rw [he] at g1 g2
  exact ⟨g1, g2, h4 n hn'⟩

/-- C60, closest nodes that are all IPv4: one of these clients asks another for peers, and finds in the answer
its own transaction, the id and token of the other, the nodes closest to the target and the stored peers.
Missing: IPv6 nodes, see `C60_ipv6_violated`. -/
theorem C60_get_peers_partial (r : Responder) (srv : Id) (hs : srv.length = 20) (hr : GoodResponder srv r) (hsec : r.secret0 < 4294967296)
    (now : Nat) (e : Endpoint) (me hash name : List UInt8) (hm : me.length = 20) (hh : hash.length = 20) (hn : name.length = 4) (t : Nat) (ht : t < 65536)
    (h4 : ∀ n ∈ getClosestNodes srv r.table hash, n.addr.ipv6 = false) (after : List UInt8) (ha : after ≠ []) (fuel : Nat)
    (hfuel : (getPeersRequest me hash name t).length ≤ fuel) :
    ∃ reply, r.handlePacket srv now e fuel (getPeersRequest me hash name t) after =
        .ok (some reply, { r with table := nodeResponded srv now ⟨me, e.addr⟩ r.table }) ∧
      ∀ (junk uninit after' : List UInt8) (fuel' : Nat), after' ≠ [] → reply.length ≤ fuel' → ∃ resp,
        parseResponse .peers junk uninit fuel' reply after' = .ok resp ∧ resp.transaction = t ∧ resp.id = srv ∧ leVal resp.token = r.issueToken e ∧
        resp.nodes.map (fun n => (n.id, endpointOf n.addr)) = (getClosestNodes srv r.table hash).map (fun n => (n.id, endpointOf n.addr)) ∧
        resp.values.map endpointOf = (answeredPeers ((peersOf r hash).getD []) e.addr.ipv6).map endpointOf ∧ resp.result = 0 := by
  have hwf : WellFormed r := fun kv hkv s hs => (hr.peers kv hkv s hs).1
  obtain ⟨f1, f2, f3⟩ := getPeers_sizes me hash name (le16b t) hm hh hn rfl
  obtain ⟨c1, _, c3, _⟩ := C59_bounded srv r.table hr.table hash
  have hns := closest_good r srv hr hash h4
  have hps : ∀ a ∈ answeredPeers ((peersOf r hash).getD []) e.addr.ipv6, GoodAddr a := by
    intro a ha'
    have h1 := List.mem_of_mem_take ha'
    obtain ⟨s, hs', rfl⟩ := List.mem_map.mp (List.mem_filter.mp h1).1
    unfold peersOf at hs'
    cases hfi : r.values.find? (·.1 == hash) with
    | none => rw [hfi] at hs'; simp at hs'
    | some kv =>
      rw [hfi] at hs'
      exact hr.peers kv (List.mem_of_find?_eq_some hfi) s (by simpa using hs')
  have h32 : (answeredPeers ((peersOf r hash).getD []) e.addr.ipv6).length ≤ 32 := by
    unfold answeredPeers
    rw [List.length_take]
    split <;> omega
  obtain ⟨s1, s2⟩ := reply_sizes srv (le16b t) hs rfl _ _ (some (le32 (r.issueToken e))) hns hps c1 h32 (by intro x hx; cases hx; rfl)
  refine ⟨(replyValue srv (le16b t) (bodyEntries (getClosestNodes srv r.table hash) (answeredPeers ((peersOf r hash).getD []) e.addr.ipv6)
    (some (le32 (r.issueToken e))))).enc, ?_, ?_⟩
  · rw [getPeers_enc me hash name t hm hh hn] at hfuel ⊢
    have := handlePacket_enc r hwf srv hs now e _ f1 f2 f3 [] after (by simpa using ha) fuel hfuel
    rw [List.append_nil] at this
    rw [this, respond_getPeers r srv now e me hash name _ hm hh]
    rfl
  · intro junk uninit after' fuel' ha' hfuel'
    obtain ⟨w, hrep⟩ := reply_read .peers srv hs t ht _ _ (some (le32 (r.issueToken e))) hns c3 hps _ rfl
    obtain ⟨resp, p1, p2⟩ := parseResponse_enc .peers junk uninit _ s1 s2 w [] after' (by simpa using ha') fuel' hfuel'
    rw [List.append_nil] at p1
    rw [hrep] at p2
    refine ⟨resp, p1, p2.transaction, p2.id, ?_, p2.nodes, p2.values, p2.result⟩
    rw [p2.token]
    apply leVal_le32
    unfold Responder.issueToken
    rw [token_sum _ _ hsec]
    omega

/-- C60 for `find_node`, with the same restriction. -/
theorem C60_find_node_partial (r : Responder) (srv : Id) (hs : srv.length = 20) (hr : GoodResponder srv r)
    (now : Nat) (e : Endpoint) (me target : List UInt8) (hm : me.length = 20) (hh : target.length = 20) (t : Nat) (ht : t < 65536)
    (h4 : ∀ n ∈ getClosestNodes srv r.table target, n.addr.ipv6 = false) (after : List UInt8) (ha : after ≠ []) (fuel : Nat)
    (hfuel : (findNodeRequest me target t).length ≤ fuel) :
    ∃ reply, r.handlePacket srv now e fuel (findNodeRequest me target t) after =
        .ok (some reply, { r with table := nodeResponded srv now ⟨me, e.addr⟩ r.table }) ∧
      ∀ (junk uninit after' : List UInt8) (fuel' : Nat), after' ≠ [] → reply.length ≤ fuel' → ∃ resp,
        parseResponse .nodes junk uninit fuel' reply after' = .ok resp ∧ resp.transaction = t ∧ resp.id = srv ∧
        resp.nodes.map (fun n => (n.id, endpointOf n.addr)) = (getClosestNodes srv r.table target).map (fun n => (n.id, endpointOf n.addr)) ∧
        resp.result = 0 := by
  have hwf : WellFormed r := fun kv hkv s hs => (hr.peers kv hkv s hs).1
  obtain ⟨f1, f2, f3⟩ := findNode_sizes me target (le16b t) hm hh rfl
  obtain ⟨c1, _, c3, _⟩ := C59_bounded srv r.table hr.table target
  have hns := closest_good r srv hr target h4
  obtain ⟨s1, s2⟩ := reply_sizes srv (le16b t) hs rfl _ [] none hns (by simp) c1 (by simp) (by simp)
  refine ⟨(replyValue srv (le16b t) (bodyEntries (getClosestNodes srv r.table target) [] none)).enc, ?_, ?_⟩
  · rw [findNode_enc me target t hm hh] at hfuel ⊢
    have := handlePacket_enc r hwf srv hs now e _ f1 f2 f3 [] after (by simpa using ha) fuel hfuel
    rw [List.append_nil] at this
    rw [this, respond_findNode r srv now e me target _ hm hh]
    simp [bodyEntries, valuesEntry]
  · intro junk uninit after' fuel' ha' hfuel'
    obtain ⟨w, hrep⟩ := reply_read .nodes srv hs t ht _ [] none hns c3 (by simp) _ rfl
    obtain ⟨resp, p1, p2⟩ := parseResponse_enc .nodes junk uninit _ s1 s2 w [] after' (by simpa using ha') fuel' hfuel'
    rw [List.append_nil] at p1
    rw [hrep] at p2
    exact ⟨resp, p1, p2.transaction, p2.id, p2.nodes, p2.result⟩

/-- C60 for `ping`: the id and transaction come back. -/
theorem C60_ping (r : Responder) (srv : Id) (hs : srv.length = 20) (hr : WellFormed r)
    (now : Nat) (e : Endpoint) (me : List UInt8) (hm : me.length = 20) (t : Nat) (ht : t < 65536) (after : List UInt8) (ha : after ≠ []) (fuel : Nat)
    (hfuel : (pingRequest me t).length ≤ fuel) :
    ∃ reply, r.handlePacket srv now e fuel (pingRequest me t) after =
        .ok (some reply, { r with table := nodeResponded srv now ⟨me, e.addr⟩ r.table }) ∧
      ∀ (junk uninit after' : List UInt8) (fuel' : Nat), after' ≠ [] → reply.length ≤ fuel' → ∃ resp,
        parseResponse .ping junk uninit fuel' reply after' = .ok resp ∧ resp.transaction = t ∧ resp.id = srv ∧ resp.result = 0 := by
  obtain ⟨f1, f2, f3⟩ := ping_sizes me (le16b t) hm rfl
  obtain ⟨s1, s2⟩ := reply_sizes srv (le16b t) hs rfl [] [] none (by simp) (by simp) (by simp) (by simp) (by simp)
  refine ⟨(replyValue srv (le16b t) (bodyEntries [] [] none)).enc, ?_, ?_⟩
  · rw [ping_enc me t hm] at hfuel ⊢
    have := handlePacket_enc r hr srv hs now e _ f1 f2 f3 [] after (by simpa using ha) fuel hfuel
    rw [List.append_nil] at this
    rw [this, respond_ping r srv now e me _ hm]
    rfl
  · intro junk uninit after' fuel' ha' hfuel'
    obtain ⟨w, hrep⟩ := reply_read .ping srv hs t ht [] [] none (by simp) (by simp) (by simp) _ rfl
    obtain ⟨resp, p1, p2⟩ := parseResponse_enc .ping junk uninit _ s1 s2 w [] after' (by simpa using ha') fuel' hfuel'
    rw [List.append_nil] at p1
    rw [hrep] at p2
    exact ⟨resp, p1, p2.transaction, p2.id, p2.result⟩

private def exSrv : Id := List.replicate 20 1
private def exMe : Id := List.replicate 20 2
private def exHash : Id := List.replicate 20 3
private def exFrom : Endpoint := ⟨⟨[10, 0, 0, 7] ++ List.replicate 12 0, 6881, false⟩, ascii "10.0.0.7"⟩
private def exNode (v6 : Bool) : NodeInfo := ⟨List.replicate 20 200, ⟨List.replicate 16 9, 6881, v6⟩⟩
private def exState (v6 : Bool) : Responder :=
  { secret0 := 1000, secret1 := 1000, table := nodeResponded exSrv 1 (exNode v6) Table.empty
    values := [(exHash, [⟨⟨[1, 2, 3, 4] ++ List.replicate 12 0, 80, false⟩, 5⟩])] }

private def exchanged (r : Responder) : Res (Option Response) := do
  let x ← r.handlePacket exSrv 7 exFrom 1000 (getPeersRequest exMe exHash (ascii "mt02") 513) [0]
  match x.1 with
  | some reply => do
    let resp ← parseResponse .peers exJunk exUninit 1000 reply (List.replicate 60 0)
    pure (some resp)
  | none => pure none

example : (∀ n ∈ getClosestNodes exSrv (exState false).table exHash, n.addr.ipv6 = false) ∧
    (match exchanged (exState false) with
      | .ok (some resp) => resp.transaction == 513 && resp.nodes.map (·.id) == [(exNode false).id] && resp.values.map (·.port) == [80] && leVal resp.token == 1386
      | _ => false) = true := by decide +kernel

/-- The same node pings and asks for nodes. -/
example : (do
    let x ← (exState false).handlePacket exSrv 7 exFrom 1000 (findNodeRequest exMe exHash 3) [0]
    let a ← parseResponse .nodes exJunk exUninit 1000 (x.1.getD []) [0]
    let y ← x.2.handlePacket exSrv 8 exFrom 1000 (pingRequest exMe 4) [0]
    let b ← parseResponse .ping exJunk exUninit 1000 (y.1.getD []) [0]
    pure (a.nodes.map (fun (n : NodeInfo) => n.id), a.transaction, b.transaction, b.id)) = .ok ([(exNode false).id], 3, 4, exSrv) := by decide +kernel

/-- C60 is false with an IPv6 node among the closest: it is put into `nodes`, where the other side expects
IPv4 nodes, so two nodes are found where there is one, none of them the right one. -/
theorem C60_ipv6_violated :
    getClosestNodes exSrv (exState true).table exHash = [exNode true] ∧
    (match exchanged (exState true) with
      | .ok (some resp) => resp.nodes.map (fun n => (n.id, endpointOf n.addr)) == [((exNode true).id, false, [9, 9, 9, 9], 2313),
          (List.replicate 10 9 ++ [26, 225] ++ ascii "6:values", false, ascii "l6:\x01", 515)]
      | _ => false) = true := by decide +kernel

/-! ## C56 -/

/-- C56 as far as it holds: an announce with a token from the receiver stores the sender's address under the
announced hash, with the given port or, if it is implied or 0, that of the packet. Missing: that clients
announce the hash they looked up, see `C56_announces_node_id_violated`. -/
theorem C56_announce_partial (r : Responder) (srv : Id) (hs : srv.length = 20) (hr : WellFormed r) (hsec : r.secret0 < 4294967296)
    (now : Nat) (e : Endpoint) (me hash : List UInt8) (hm : me.length = 20) (hh : hash.length = 20) (tcp udp t : Nat) (hu : udp < 65536)
    (after : List UInt8) (ha : after ≠ []) (fuel : Nat)
    (hfuel : (announceRequest me hash (le32 (r.issueToken e)) tcp udp t).length ≤ fuel) :
    ∃ r', r.handlePacket srv now e fuel (announceRequest me hash (le32 (r.issueToken e)) tcp udp t) after =
        .ok (some (replyValue srv (le16b t) []).enc, r') ∧
      stored r' hash = storePeer ⟨{ e.addr with port := if tcp = udp ∨ udp = 0 then e.addr.port else udp }, now⟩ (stored r hash) ∧
      ∀ h', h' ≠ hash → stored r' h' = stored r h' := by
  obtain ⟨f1, f2, f3⟩ := announce_sizes me hash (le32 (r.issueToken e)) (le16b t) udp (decide (tcp = udp)) hm hh rfl rfl hu
  have hv : r.isValidToken (leVal (le32 (r.issueToken e))) e = true := by
    rw [leVal_le32]
    · unfold Responder.isValidToken Responder.issueToken; simp
    · unfold Responder.issueToken; rw [token_sum _ _ hsec]; omega
  rw [announce_enc me hash _ tcp udp t hm hh] at hfuel ⊢
  have := handlePacket_enc r hr srv hs now e _ f1 f2 f3 [] after (by simpa using ha) fuel hfuel
  rw [List.append_nil] at this
  rw [this, respond_announce r srv now e me hash _ _ udp _ hm hh rfl hv hu]
  refine ⟨_, rfl, ?_, ?_⟩
  · have h1 := stored_announce r hash hash { e.addr with port := (if decide (tcp = udp) = true ∨ udp = 0 then e.addr.port else udp) } now
    rw [if_pos rfl] at h1
    simp only [decide_eq_true_eq] at h1 ⊢
    exact h1
  · intro h' hne
    have h1 := stored_announce r hash h' { e.addr with port := (if decide (tcp = udp) = true ∨ udp = 0 then e.addr.port else udp) } now
    rw [if_neg (fun he : hash = h' => hne he.symm)] at h1
    exact h1

example : (match (exState false).handlePacket exSrv 7 exFrom 1000 (announceRequest exMe exHash (le32 ((exState false).issueToken exFrom)) 51413 51414 9) [0] with
    | .ok (_, r') => (stored r' exHash).map (fun s => (endpointOf s.addr, s.timestamp)) == [((false, [1, 2, 3, 4], 80), 5), ((false, [10, 0, 0, 7], 51414), 7)]
    | _ => false) = true := by decide +kernel

/-- C56 is false for what is announced: after an answer with a token the id of the answering node is announced
in place of the hash that was looked up, which is a different message unless the two are the same. -/
theorem C56_announces_node_id_violated (me : Id) (node : NodeInfo) (transaction : Nat) (resp : Response) (tcp udp next : Nat) (target : Id)
    (ht : target.length = 20) (hn : node.id.length = 20) (hne : target ≠ node.id) (h1 : resp.transaction = transaction) (h2 : resp.id = node.id)
    (h3 : resp.token ≠ []) :
    announceAfter me node transaction resp tcp udp next = some (announceRequest me node.id resp.token tcp udp next) ∧
    announceAfter me node transaction resp tcp udp next ≠ some (announceRequest me target resp.token tcp udp next) := by
  have h : announceAfter me node transaction resp tcp udp next = some (announceRequest me node.id resp.token tcp udp next) := by
    unfold announceAfter
    rw [if_pos ⟨h1, h2.symm, h3⟩, h2]
  refine ⟨h, ?_⟩
  rw [h]
  intro he
  have he := Option.some.inj he
  unfold announceRequest at he
  simp only [List.append_assoc, List.append_cancel_left_eq] at he
  exact hne ((List.append_inj he (by rw [hn, ht])).1).symm

/-- Two of these clients: one looks up a hash at the other, gets a token and announces. The other has then stored it
under its own id and still has the one peer it had for the hash. -/
theorem C56_not_found_violated :
    (do let x ← (exState false).handlePacket exSrv 7 exFrom 1000 (getPeersRequest exMe exHash (ascii "mt02") 513) [0]
        let resp ← parseResponse .peers exJunk exUninit 1000 (x.1.getD []) [0]
        let y ← x.2.handlePacket exSrv 8 exFrom 1000 ((announceAfter exMe ⟨exSrv, exFrom.addr⟩ 513 resp 51413 51414 514).getD []) [0]
        pure (y.1.isSome, (stored y.2 exHash).map (fun (s : Stored) => s.addr.port), (stored y.2 exSrv).map (fun (s : Stored) => s.addr.port))) = .ok (true, [80], [51414]) := by decide +kernel

end Verif
