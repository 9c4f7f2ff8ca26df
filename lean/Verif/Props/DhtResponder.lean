import Verif.Proof.DhtPeers

namespace Verif
open Net Dht Bencode Spec

/-! ## C58 -/

/-- C58: the exact answer to every message that is the encoding of some value: queries with all their parts
are answered as specified by `respond`, in a reply that is again an encoding, and everything else is
ignored. -/
theorem C58_answers (r : Responder) (hr : WellFormed r) (me : Id) (hme : me.length = 20) (now : Nat) (e : Endpoint) (v : BVal)
    (hf : v.fits) (hc : v.count < 65536) (hn : SmallNumbers v) (extra after : List UInt8) (ha : extra ++ after ≠ []) (fuel : Nat)
    (hfuel : v.enc.length ≤ fuel) :
    r.handlePacket me now e fuel (v.enc ++ extra) after =
      .ok ((respond r me now e v).1.map BVal.enc, (respond r me now e v).2) :=
  handlePacket_enc r hr me hme now e v hf hc hn extra after ha fuel hfuel

/-- C58: whatever the packet, if something is sent it is the encoding of a reply with our id and, besides
it, only nodes, values and a token; and only a reply makes the sender a known node. -/
theorem C58_reply_wellformed (r : Responder) (hr : WellFormed r) (me : Id) (hme : me.length = 20) (now : Nat) (e : Endpoint) (fuel : Nat)
    (data after : List UInt8) (x : Option (List UInt8)) (r' : Responder) (h : r.handlePacket me now e fuel data after = .ok (x, r')) :
    (x = none ∧ r' = r) ∨ ∃ t rest id, x = some (replyValue me t rest).enc ∧ id.length = 20 ∧
      (∀ kv ∈ rest, kv.1 = ascii "nodes" ∨ kv.1 = ascii "values" ∨ kv.1 = ascii "token") ∧
      r'.table = nodeResponded me now ⟨id, e.addr⟩ r.table := by
  rcases handlePacket_any hr hme h with h | ⟨t, rest, id, r1, h1, h2, h3, h4, h5⟩
  · exact .inl h
  · refine .inr ⟨t, rest, id, h1, h2, h3, ?_⟩
    rw [h5]
    rcases h4 with rfl | ⟨_, _, _, _, _, _, rfl⟩ <;> rfl

private def exMe : Id := List.replicate 20 1
private def exFrom : Endpoint := ⟨⟨[10, 0, 0, 7] ++ List.replicate 12 0, 6881, false⟩, ascii "10.0.0.7"⟩
private def exQuery (q : String) (args : List (List UInt8 × BVal)) : BVal :=
  .dict [(ascii "a", .dict ((ascii "id", .str (List.replicate 20 2)) :: args)), (ascii "q", .str (ascii q)), (ascii "t", .str (ascii "aa")),
    (ascii "y", .str (ascii "q"))]
private def exGet : BVal := exQuery "get_peers" [(ascii "info_hash", .str (List.replicate 20 3))]
private def exState : Responder :=
  { secret0 := 1000, secret1 := 1000
    values := [(List.replicate 20 3, [⟨⟨[1, 2, 3, 4] ++ List.replicate 12 0, 80, false⟩, 5⟩])] }

example : WellFormed exState ∧ exGet.count < 65536 ∧ exMe.length = 20 ∧
    exState.handlePacket exMe 7 exFrom 1000 exGet.enc [0] =
      .ok (some (replyValue exMe (ascii "aa") [(ascii "values", .list [.str [1, 2, 3, 4, 0, 80]]), (ascii "token", .str [106, 5, 0, 0])]).enc,
        { exState with table := nodeResponded exMe 7 ⟨List.replicate 20 2, exFrom.addr⟩ exState.table }) := by
  refine ⟨?_, by decide +kernel, by decide, by decide +kernel⟩
  intro kv hkv s hs
  simp only [exState, List.mem_singleton] at hkv
  subst hkv
  simp only [List.mem_singleton] at hs
  subst hs
  decide

private def badObjs : List Obj :=
  [⟨0, 5, 0, .dictionary⟩, ⟨3, 1, 1, .text⟩, ⟨0, 1, 3, .dictionary⟩, ⟨7, 2, 1, .text⟩, ⟨12, 20, 0, .text⟩, ⟨35, 1, 1, .text⟩, ⟨38, 4, 1, .text⟩,
    ⟨44, 1, 1, .text⟩, ⟨47, 1, 1, .text⟩, ⟨50, 1, 1, .text⟩, ⟨62, -1, 1, .text⟩, ⟨62, 0, 1, .text⟩, ⟨64, 1, 0, .text⟩]

/-- C58 does not hold for all packets: one with a transaction id of announced length 4294967295, which
becomes -1, makes the node copy a range of negative length. A single datagram does this, whatever the
state of the node. -/
theorem C58_negative_size_violated (r : Responder) (me : Id) (now : Nat) (e : Endpoint) :
    let packet := ascii "d1:ad2:id20:aaaaaaaaaaaaaaaaaaaae1:q4:ping1:y1:q1:t4294967295:1:xe"
    r.handlePacket me now e 1000 packet [0] = .ub ∧ ∃ p, parse 1000 packet [0] = .ok p := by
  have h : ∃ p, parse 1000 (ascii "d1:ad2:id20:aaaaaaaaaaaaaaaaaaaae1:q4:ping1:y1:q1:t4294967295:1:xe") [0] = .ok p ∧
      p.objs = badObjs := by
    refine Res.exists_ok ?_
    decide +kernel
  obtain ⟨p, h1, h2⟩ := h
  refine ⟨?_, p, h1⟩
  unfold Responder.handlePacket
  rw [if_neg (by decide +kernel), h1]
  simp only [Res.bind_ok, h2]
  rfl

/-! ## C35 -/

/-- C35 as far as it holds, for every history: a token is accepted from an address exactly if it is one of
the last two secrets plus the sum of the characters of that address, modulo 2^32. Missing: that nobody
else can come by that number, which is false. -/
theorem C35_accepted_partial (s : Nat) (hs : s < 4294967296) (ops : List ROp) (hops : ∀ now x, ROp.refresh now x ∈ ops → x < 4294967296)
    (e : Endpoint) (token : Nat) :
    (runPeers { secret0 := s, secret1 := s } ops).isValidToken token e = true ↔
      ∃ x ∈ (drawn ops [s, s]).take 2, token = (x + (e.text.map UInt8.toNat).sum) % 4294967296 := by
  obtain ⟨h0, h1⟩ := secrets_run ops { secret0 := s, secret1 := s } [] (by simpa using hs) (by simpa using hs) hops
  exact valid_iff _ h0.1 h0.2 h1 e token

/-- C35: the token in an answer is accepted from the same address until the second refresh after it, and
then no more (unless a later secret happens to be the same). -/
theorem C35_lifetime (r : Responder) (hr : r.secret0 < 4294967296) (hr1 : r.secret1 < 4294967296) (ops : List ROp)
    (hops : ∀ now x, ROp.refresh now x ∈ ops → x < 4294967296) (e : Endpoint) :
    (runPeers r ops).isValidToken (r.issueToken e) e = true ↔ r.secret0 ∈ (drawn ops [r.secret0, r.secret1]).take 2 := by
  obtain ⟨h0, h1⟩ := secrets_run ops r [] hr hr1 hops
  rw [valid_iff _ h0.1 h0.2 h1 e]
  have hd := drawn_lt ops [r.secret0, r.secret1] (by simp [hr, hr1]) hops
  unfold Responder.issueToken
  rw [token_sum _ _ hr]
  constructor
  · rintro ⟨x, hx, hh⟩
    have hlt := hd x (List.mem_of_mem_take hx)
    have hx' : x = r.secret0 := by omega
    rw [← hx']; rw [← hx'] at hx; exact hx
  · intro h; exact ⟨_, h, rfl⟩

/-- C35: no packet at all changes the stored peers unless it carries a token that is accepted from its
sender, and then it stores the sender's own address. -/
theorem C35_needs_token (r : Responder) (hr : WellFormed r) (me : Id) (hme : me.length = 20) (now : Nat) (e : Endpoint) (fuel : Nat)
    (data after : List UInt8) (x : Option (List UInt8)) (r' : Responder) (h : r.handlePacket me now e fuel data after = .ok (x, r')) :
    r'.secret0 = r.secret0 ∧ r'.secret1 = r.secret1 ∧
    (r'.values = r.values ∨ ∃ info tok port, info.length = 20 ∧ tok.length = 4 ∧ r.isValidToken (leVal tok) e = true ∧
      r'.values = (r.announcedPeer info { e.addr with port := port } now).values) := by
  rcases handlePacket_any hr hme h with ⟨_, rfl⟩ | ⟨t, rest, id, r1, h1, h2, h3, h4, h5⟩
  · exact ⟨rfl, rfl, .inl rfl⟩
  · subst h5
    rcases h4 with rfl | ⟨info, tok, port, h6, h7, h8, rfl⟩
    · exact ⟨rfl, rfl, .inl rfl⟩
    · exact ⟨rfl, rfl, .inr ⟨info, tok, port, h6, h7, h8, rfl⟩⟩

private def exAnnounce (tok : List UInt8) : BVal :=
  exQuery "announce_peer" [(ascii "info_hash", .str (List.replicate 20 3)), (ascii "port", .int 51413), (ascii "token", .str tok)]

/-- The token of the answer above, sent back after one refresh, and a wrong one. -/
example : let r := exState.refresh 2000 77
    (match r.handlePacket exMe 2012 exFrom 1000 (exAnnounce [106, 5, 0, 0]).enc [0] with
      | .ok x => x.1.isSome && (x.2.values.flatMap (·.2)).map (fun s => (s.addr.port, s.timestamp)) == [(51413, 2012)] | _ => false) = true ∧
    r.handlePacket exMe 2012 exFrom 1000 (exAnnounce [107, 5, 0, 0]).enc [0] = .ok (none, r) := by decide +kernel

/-- C35 is false: whoever got a token for one address can compute the token of every other address from it,
since the secret is only added to the sum of the characters. -/
theorem C35_forgery_violated (r : Responder) (hr : r.secret0 < 4294967296) (x y : Endpoint) :
    r.isValidToken ((r.issueToken x + (4294967296 - (x.text.map UInt8.toNat).sum % 4294967296) + (y.text.map UInt8.toNat).sum) % 4294967296) y = true := by
  unfold Responder.isValidToken Responder.issueToken
  rw [token_sum _ _ hr, token_sum _ _ hr]
  simp only [Bool.or_eq_true, beq_iff_eq]
  left; omega

/-- C35 is false even for tokens as they were issued: the token of 1.2.3.4 is that of 4.3.2.1. -/
theorem C35_same_sum_violated (r : Responder) (x y : Endpoint) (hx : x.text = ascii "1.2.3.4") (hy : y.text = ascii "4.3.2.1") :
    r.isValidToken (r.issueToken x) y = true := by
  have h : ∀ s, announceToken (ascii "1.2.3.4") s = announceToken (ascii "4.3.2.1") s := by
    intro s; simp [announceToken, ascii]
  unfold Responder.isValidToken Responder.issueToken
  rw [hx, hy, h]; simp

/-- C35 is false for the rotation: the refresh timer does not schedule itself again. From the moment it
fires, no history without a restart of the DHT changes the secrets, so tokens stay valid for ever. -/
theorem C35_no_rotation_violated (me : Id) (hme : me.length = 20) (d d1 : DNode) (hw : WellFormed d.responder) (now secret : Nat)
    (hf : d.step me now (.timer secret) = .ok d1)
    (es : List (Nat × DEv)) (hs : ∀ t s, (t, DEv.start s) ∉ es) (he : ∀ t e f a b, (t, DEv.packet e f a b) ∈ es → e.addr.bytes.length = 16)
    (d' : DNode) (h : d1.run me es = .ok d') (e : Endpoint) :
    d'.responder.isValidToken (d1.responder.issueToken e) e = true := by
  obtain ⟨hd, hw1, _⟩ := fired me d d1 hw now secret hf
  obtain ⟨h1, h2, _, _⟩ := run_disarmed me hme es d1 d' hd hw1 hs he h
  unfold Responder.isValidToken Responder.issueToken
  rw [h1]; simp

/-! ## C36 -/

private theorem empty_stored (ih : Id) : stored {} ih = [] := rfl

/-- C36, histories in which at most 32 different addresses are announced for the info hash and no IPv4
address is taken for an IPv6 one: the stored peers are exactly those announced, each once and with the
time of its last announce, except those that a refresh found older than half an hour. Missing: mixed
families, where it is false, and the regular refresh it relies on. -/
theorem C36_stored_partial (ops : List ROp) (ih : Id) (hclash : NoClash (announcedFor ih ops))
    (U : List (Bool × List UInt8 × Nat)) (hU : U.length ≤ 32) (hin : ∀ a ∈ announcedFor ih ops, endpointOf a ∈ U)
    (ht : ∀ now s, ROp.refresh now s ∈ ops → 1800 ≤ now ∧ now < 18446744073709551616) :
    ((stored (runPeers {} ops) ih).map fun s => endpointOf s.addr).Nodup ∧
    ∀ x t, (∃ s ∈ stored (runPeers {} ops) ih, endpointOf s.addr = x ∧ s.timestamp = t) ↔ lastAnnounced ih x ops none = some t := by
  have h := holds_run hclash hU hin ih ops {} (fun _ => none) (by simp [UniqueKeys]) (fun a ha => ha) ht
    (by rw [empty_stored]; exact ⟨by simp, by simp, by simp⟩)
  exact ⟨h.nodup, h.map⟩

/-- C36, the same with times that do not go back, just after a refresh: a peer is stored if and only if it
was announced within the last half hour. -/
theorem C36_expiry_partial (ops : List ROp) (ih : Id) (hclash : NoClash (announcedFor ih ops))
    (U : List (Bool × List UInt8 × Nat)) (hU : U.length ≤ 32) (hin : ∀ a ∈ announcedFor ih ops, endpointOf a ∈ U)
    (ht : ∀ now s, ROp.refresh now s ∈ ops → 1800 ≤ now ∧ now < 18446744073709551616)
    (hmono : (ops.map ROp.time).Pairwise (· ≤ ·)) (now s : Nat) (hnow : 1800 ≤ now) (hnow2 : now < 18446744073709551616)
    (hlast : ∀ op ∈ ops, op.time ≤ now) (x : Bool × List UInt8 × Nat) :
    (∃ s' ∈ stored (runPeers {} (ops ++ [.refresh now s])) ih, endpointOf s'.addr = x) ↔
      ∃ a T, ROp.announce ih a T ∈ ops ∧ endpointOf a = x ∧ now ≤ T + 1800 := by
  have hann : ∀ l : List ROp, announcedFor ih (l ++ [.refresh now s]) = announcedFor ih l := by
    intro l
    induction l with
    | nil => rfl
    | cons op l ih => cases op <;> simp [announcedFor, ih]
  have hla : ∀ (l : List ROp) (t : Option Nat), lastAnnounced ih x (l ++ [.refresh now s]) t =
      (lastAnnounced ih x l t).filter fun t => decide (now ≤ t + 1800) := by
    intro l
    induction l with
    | nil => intro t; rfl
    | cons op l ih => intro t; cases op <;> simp only [List.cons_append, lastAnnounced, ih]
  obtain ⟨_, h⟩ := C36_stored_partial (ops ++ [.refresh now s]) ih (by rw [hann]; exact hclash) U hU (by rw [hann]; exact hin) (by
    intro n s' hm
    rcases List.mem_append.mp hm with hm | hm
    · exact ht n s' hm
    · simp at hm; rw [hm.1]; exact ⟨hnow, hnow2⟩)
  have hr := last_recent ih x now ops none hmono hlast (by simp)
  simp only [Option.filter_none, Option.isSome_none, Bool.false_eq_true, false_or] at hr
  rw [← hr, ← hla, Option.isSome_iff_exists]
  constructor
  · rintro ⟨s', hs, hx⟩; exact ⟨s'.timestamp, (h x _).mp ⟨s', hs, hx, rfl⟩⟩
  · rintro ⟨t, hh⟩
    obtain ⟨s', hs, hx, _⟩ := (h x t).mpr hh
    exact ⟨s', hs, hx⟩

/-- C36 for every history whatever: at most 32 peers are stored, and every one of them was announced for
that info hash, at the time kept with it. -/
theorem C36_sound (ops : List ROp) (ih : Id) :
    (stored (runPeers {} ops) ih).length ≤ 32 ∧
    ∀ s ∈ stored (runPeers {} ops) ih, ROp.announce ih s.addr s.timestamp ∈ ops := by
  obtain ⟨h1, h2⟩ := stored_sound ih ops {} (by simp [UniqueKeys]) (by rw [empty_stored]; simp)
  exact ⟨h1, fun s hs => (h2 s hs).resolve_left (by rw [empty_stored]; simp)⟩

private def exPeer (k : UInt8) : Addr := ⟨[k, 2, 3, 4] ++ List.replicate 12 0, 80, false⟩
private def exHistory : List ROp :=
  [.announce [1] (exPeer 1) 2000, .announce [1] (exPeer 2) 2100, .announce [2] (exPeer 1) 2200, .refresh 3000 5, .announce [1] (exPeer 1) 3500,
    .announce [1] (exPeer 3) 3500]

example : NoClash (announcedFor [1] exHistory) ∧ ((announcedFor [1] exHistory).map endpointOf).length ≤ 32 ∧
    (exHistory.map ROp.time).Pairwise (· ≤ ·) ∧
    stored (runPeers {} (exHistory ++ [.refresh 4000 6])) [1] = [⟨exPeer 1, 3500⟩, ⟨exPeer 3, 3500⟩] := by
  refine ⟨?_, by decide +kernel, by decide +kernel, by decide +kernel⟩
  unfold NoClash
  decide +kernel

/-- C36 is false with both families: an IPv6 peer whose address starts with the four bytes of a stored IPv4
peer takes its place, and a peer can get stored twice. -/
theorem C36_family_violated :
    let v4 : Addr := ⟨[1, 2, 3, 4] ++ List.replicate 12 0, 80, false⟩
    let v6 : Addr := ⟨[1, 2, 3, 4] ++ List.replicate 12 9, 80, true⟩
    let z6 : Addr := ⟨[1, 2, 3, 4] ++ List.replicate 12 0, 80, true⟩
    stored (runPeers {} [.announce [1] v4 5, .announce [1] v6 6]) [1] = [⟨v6, 6⟩] ∧
    stored (runPeers {} [.announce [1] z6 5, .announce [1] v6 6, .announce [1] v4 7, .announce [1] v6 8]) [1] = [⟨v6, 8⟩, ⟨v6, 6⟩] := by
  decide +kernel

/-- C36 is false for the expiry: the refresh timer does not schedule itself again. From the moment it fires,
no history without a restart of the DHT lowers the number of peers stored for an info hash, however long it
lasts. -/
theorem C36_never_expires_violated (me : Id) (hme : me.length = 20) (d d1 : DNode) (hw : WellFormed d.responder) (now secret : Nat)
    (hf : d.step me now (.timer secret) = .ok d1)
    (es : List (Nat × DEv)) (hs : ∀ t s, (t, DEv.start s) ∉ es) (he : ∀ t e f a b, (t, DEv.packet e f a b) ∈ es → e.addr.bytes.length = 16)
    (d' : DNode) (h : d1.run me es = .ok d') (ih : Id) :
    (stored d1.responder ih).length ≤ (stored d'.responder ih).length := by
  obtain ⟨hd, hw1, _⟩ := fired me d d1 hw now secret hf
  exact (run_disarmed me hme es d1 d' hd hw1 hs he h).2.2.1 ih

/-- A node started, its timer fired, a peer announced: a year later it is still stored. -/
example : (match DNode.run exMe { responder := {} } [(2000, .start 5), (2305, .timer 1000),
      (2400, .packet exFrom 1000 (exAnnounce [106, 5, 0, 0]).enc [0]), (2610, .timer 9), (31538400, .timer 10)] with
    | .ok d => (stored d.responder (List.replicate 20 3)).map (·.timestamp) == [2400] && !d.armed | _ => false) = true := by decide +kernel

end Verif
