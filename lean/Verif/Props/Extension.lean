import Verif.Proof.Extension
/-! C71 and C72: the extended handshake, hole punching. -/

namespace Verif
open Verif Ext Bencode Net Spec.Ext

/-! ### C72 -/

/-- Any handshake that is a bencoded dictionary with numbers for the extensions is read as BEP 10 says: the ids named in it
(the others stay as they were), the name of the client, the size of the metadata (modulo 2^32) and an address of four bytes.
The first handshake is answered with the own one. Missing: other values than numbers in "m" (`C72_list_violated`,
`C72_text_violated`); bytes that are not the encoding of a value; and that this client sends its own that way
(`C72_address_violated`). The parser reads one byte behind the message, hence `after`. -/
theorem C72_read_partial (kvs : List (List UInt8 × BVal)) (hfits : fitsDict kvs) (hcnt : 1 + countDict kvs < 65536)
    (hn : Numbers kvs) (hs : ∀ n, numberOf kvs "metadata_size" = some n → n < 2 ^ 63) (e : Exts) (own : List UInt8) (fuel : Nat)
    (after : List UInt8) (hfuel : (BVal.dict kvs).enc.length ≤ fuel) (hafter : after ≠ []) :
    ∃ h, handle fuel e own 0 (BVal.dict kvs).enc after = .ok
        (⟨.enabled,
          match idOf kvs "ut_pex" with | some n => ⟨n, true⟩ | none => e.pex,
          match idOf kvs "ut_metadata" with | some n => ⟨n, true⟩ | none => e.utm,
          match idOf kvs "ut_holepunch" with | some n => ⟨n, true⟩ | none => e.holepunch⟩,
        if e.state = .disabled then [own] else [], .handshake h) ∧
      h.client = (Spec.Ext.textOf kvs "v").getD [] ∧ h.metadataSize = (numberOf kvs "metadata_size").getD 0 % 2 ^ 32 ∧
      h.yourIp = match Spec.Ext.textOf kvs "yourip" with
        | some s => if s.length = 4 then s else [0, 0, 0, 0]
        | none => [0, 0, 0, 0] := by
  have hr := readHandshake_dict hfits hcnt hn hs fuel after hfuel hafter
  refine ⟨{ ids := ((dictOf kvs "m").getD []).map fun kv => (kv.1, toInt32 (num kv.2))
            client := (Spec.Ext.textOf kvs "v").getD []
            yourIp := ipOf (Spec.Ext.textOf kvs "yourip")
            metadataSize := ((numberOf kvs "metadata_size").getD 0) % 2 ^ 32 }, ?_, rfl, rfl, rfl⟩
  unfold handle
  rw [if_pos rfl, hr, Res.bind_ok]
  simp only [Res.pure_eq]
  rw [init_dict e.pex hn "ut_pex" rfl, init_dict e.utm hn "ut_metadata" rfl, init_dict e.holepunch hn "ut_holepunch" rfl]
  rfl

/-- Only one of the extensions is named; what was known of the others stays. -/
example : (handle 200 ⟨.handshake, ⟨7, true⟩, {}, ⟨9, true⟩⟩ [] 0 (ascii "d1:md6:ut_pexi0e11:ut_metadatai258ee6:yourip4:abcde") [0]).map' (·.1) =
    .ok ⟨.enabled, ⟨0, true⟩, ⟨2, true⟩, ⟨9, true⟩⟩ := by decide +kernel

/-- Numbers and texts that are no dictionary leave the ids as they were. Missing: as before. -/
theorem C72_other_partial (v : BVal) (hv : ∀ kvs, v ≠ .dict kvs) (hfits : v.fits) (hcnt : v.count < 65536) (e : Exts)
    (own : List UInt8) (fuel : Nat) (after : List UInt8) (hfuel : v.enc.length ≤ fuel) (hafter : after ≠ []) :
    handle fuel e own 0 v.enc after =
      .ok ({ e with state := .enabled }, if e.state = .disabled then [own] else [], .handshake {}) := by
  obtain ⟨p, h1, _, _, _, h5⟩ := parseAt_enc v fuel (v.enc ++ after) 0 v.enc.length after
    (by simp) hafter (by simp) hfits hcnt hfuel
  obtain ⟨o, h6, h7⟩ := root_at h5
  have hr : readHandshake fuel v.enc after = .ok (some {}) := by
    unfold readHandshake
    rw [show parse fuel v.enc after = .ok p from h1]
    simp only [Res.bind_ok, h6]
    rw [if_pos]
    · rfl
    · rw [h7]
      cases v <;> simp [BVal.ty]
      exact hv _ rfl
  unfold handle
  rw [if_pos rfl, hr]
  rfl

/-- The entries of the handshake of this client. -/
def Ext.ownKvs (ip : List UInt8) (size port : Nat) : List (List UInt8 × BVal) :=
  (ascii "m", .dict [(ascii "ut_metadata", .int 2), (ascii "ut_pex", .int 1), (ascii "ut_holepunch", .int 3)]) ::
    ((if size ≠ 0 then [(ascii "metadata_size", .int size)] else []) ++
      [(ascii "p", .int port), (ascii "v", .str (ascii "mtTorrent 0.9")), (ascii "yourip", .str ip)])

theorem Ext.createHandshake_eq (ip : List UInt8) (size port : Nat)
    (hl : (BVal.dict (ownKvs ip size port)).enc.length < 2 ^ 31) :
    Ext.createHandshake ip size port = framed 0 (BVal.dict (ownKvs ip size port)).enc := by
  have e1 : ascii "1:m" = encStr (ascii "m") := by decide +kernel
  have e2 : ascii "11:ut_metadata" = encStr (ascii "ut_metadata") := by decide +kernel
  have e3 : ascii "6:ut_pex" = encStr (ascii "ut_pex") := by decide +kernel
  have e4 : ascii "12:ut_holepunch" = encStr (ascii "ut_holepunch") := by decide +kernel
  have e5 : ascii "13:metadata_size" = encStr (ascii "metadata_size") := by decide +kernel
  have e6 : ascii "1:p" = encStr (ascii "p") := by decide +kernel
  have e7 : ascii "1:v" = encStr (ascii "v") := by decide +kernel
  have e8 : ascii "6:yourip" = encStr (ascii "yourip") := by decide +kernel
  have hpay : ∀ d : List UInt8, endMap (addRawItemText (addRawItemText (addRawItemNumber (if size ≠ 0 then addRawItemNumber
      (endMap (addRawItemNumber (addRawItemNumber (addRawItemNumber (startRawMapItem (startMap d) (ascii "1:m"))
        (ascii "11:ut_metadata") 2) (ascii "6:ut_pex") 1) (ascii "12:ut_holepunch") 3)) (ascii "13:metadata_size") size else
      (endMap (addRawItemNumber (addRawItemNumber (addRawItemNumber (startRawMapItem (startMap d) (ascii "1:m"))
        (ascii "11:ut_metadata") 2) (ascii "6:ut_pex") 1) (ascii "12:ut_holepunch") 3)))
      (ascii "1:p") port) (ascii "1:v") clientName) (ascii "6:yourip") ip) = d ++ (BVal.dict (ownKvs ip size port)).enc := by
    intro d
    rw [e1, e2, e3, e4, e5, e6, e7, e8]
    unfold ownKvs
    by_cases hs : size = 0
    · simp only [hs, ne_eq, not_true_eq_false, if_false, endMap, addRawItemText, addRawItemNumber, startRawMapItem, startMap, addNumber,
        addText, BVal.enc, encDict, List.append_assoc, List.nil_append, encStr, clientName, List.cons_append]
    · simp only [hs, ne_eq, not_false_eq_true, if_true, endMap, addRawItemText, addRawItemNumber, startRawMapItem, startMap, addNumber,
        addText, BVal.enc, encDict, List.append_assoc, List.nil_append, encStr, clientName, List.cons_append]
  unfold Ext.createHandshake
  simp only [hpay]
  generalize (BVal.dict (ownKvs ip size port)).enc = pay at *
  unfold framed
  simp only [List.append_assoc, List.cons_append, List.nil_append, List.length_cons, List.drop_succ_cons, List.drop_zero]
  rw [Nat.mod_eq_of_lt (by omega)]
  simp [Peer.idExtended]

/-- A client understands the handshake of another one: the message is framed properly, the ids of the three extensions are
learned (1, 2 and 3, under which messages are told apart, `C72_routed_partial`), and so are the size of the metadata and
the name of the client. The first handshake is answered. Missing: the address as which the peer sees this side
(`C72_address_violated`). -/
theorem C72_own_partial (ip : List UInt8) (size port : Nat) (hip : ip.length < 60000) (hsize : size < 2 ^ 32) (hport : port < 65536)
    (e : Exts) (own : List UInt8) :
    ∃ payload, Ext.createHandshake ip size port = framed 0 payload ∧
      (∀ rest, Peer.parse (framed 0 payload ++ rest) = .ok
        { id := 20, messageSize := (framed 0 payload).length, extendedId := some 0, extendedData := payload }) ∧
      ∀ fuel after, payload.length ≤ fuel → after ≠ [] → ∃ h, handle fuel e own 0 payload after =
          .ok (⟨.enabled, ⟨1, true⟩, ⟨2, true⟩, ⟨3, true⟩⟩, if e.state = .disabled then [own] else [], .handshake h) ∧
        h.client = ascii "mtTorrent 0.9" ∧ h.metadataSize = size := by
  have hdec : ∀ n, n < 2 ^ 32 → (dec n).length ≤ 10 := by
    intro n hn
    exact dec_length_le 10 n (by omega) (by omega)
  have hlen : (BVal.dict (ownKvs ip size port)).enc.length < 65000 := by
    have h1 := hdec size hsize
    have h2 := hdec port (by omega)
    have h3 := hdec ip.length (by omega)
    have h4 : (encStr (ascii "m")).length = 3 := by decide +kernel
    have h5 : (BVal.dict [(ascii "ut_metadata", .int 2), (ascii "ut_pex", .int 1), (ascii "ut_holepunch", .int 3)]).enc.length = 48 := by
      decide +kernel
    have h6 : (encStr (ascii "metadata_size")).length = 16 := by decide +kernel
    have h7 : (encStr (ascii "p")).length = 3 := by decide +kernel
    have h8 : (encStr (ascii "v")).length = 3 := by decide +kernel
    have h9 : (encStr (ascii "mtTorrent 0.9")).length = 16 := by decide +kernel
    have h10 : (encStr (ascii "yourip")).length = 8 := by decide +kernel
    have hs : (encStr ip).length = (dec ip.length).length + 1 + ip.length := by simp [encStr]; omega
    unfold ownKvs
    by_cases hs0 : size = 0
    · simp only [hs0, ne_eq, not_true_eq_false, if_false, List.nil_append, BVal.enc, encDict, List.length_append, List.length_cons,
        List.length_nil, h4, h7, h8, h9, h10, hs] at h5 ⊢
      omega
    · simp only [hs0, ne_eq, not_false_eq_true, if_true, List.cons_append, List.nil_append, BVal.enc, encDict, List.length_append,
        List.length_cons, List.length_nil, h4, h6, h7, h8, h9, h10, hs] at h5 ⊢
      omega
  refine ⟨(BVal.dict (ownKvs ip size port)).enc, Ext.createHandshake_eq ip size port (by omega), ?_, ?_⟩
  · intro rest
    rw [parse_ext 0 (by decide) _ rest (by simp [BVal.enc]) hlen]
    simp [Peer.idExtended, framed, be32]
  · intro fuel after hfuel hafter
    have n1 : dictOf (ownKvs ip size port) "m" =
        some [(ascii "ut_metadata", .int 2), (ascii "ut_pex", .int 1), (ascii "ut_holepunch", .int 3)] := rfl
    have hnum : Numbers (ownKvs ip size port) := by
      intro d hd
      rw [n1] at hd
      cases hd
      intro kv hkv
      simp only [List.mem_cons, List.not_mem_nil, or_false] at hkv
      rcases hkv with rfl | rfl | rfl
      · exact ⟨2, rfl, by omega⟩
      · exact ⟨1, rfl, by omega⟩
      · exact ⟨3, rfl, by omega⟩
    have hms : (numberOf (ownKvs ip size port) "metadata_size").getD 0 = size := by
      by_cases hs0 : size = 0
      · subst hs0; rfl
      · unfold ownKvs numberOf
        simp only [hs0, ne_eq, not_false_eq_true, if_true]
        rfl
    have hfit : fitsDict (ownKvs ip size port) := by
      unfold ownKvs
      by_cases hs0 : size = 0
      · simp only [hs0, ne_eq, not_true_eq_false, if_false, List.nil_append, fitsDict, BVal.fits, and_true]
        refine ⟨by decide +kernel, ⟨by decide +kernel, by omega, by decide +kernel, by omega, by decide +kernel, by omega⟩,
          by decide +kernel, by omega, by decide +kernel, by decide +kernel, by decide +kernel, by omega⟩
      · simp only [hs0, ne_eq, not_false_eq_true, if_true, List.cons_append, List.nil_append, fitsDict, BVal.fits, and_true]
        refine ⟨by decide +kernel, ⟨by decide +kernel, by omega, by decide +kernel, by omega, by decide +kernel, by omega⟩,
          by decide +kernel, by omega, by decide +kernel, by omega, by decide +kernel, by decide +kernel, by decide +kernel, by omega⟩
    have hcnt : 1 + countDict (ownKvs ip size port) < 65536 := by
      unfold ownKvs
      by_cases hs0 : size = 0 <;> simp [hs0, countDict, BVal.count]
    obtain ⟨h, h1, h2, h3, _⟩ := C72_read_partial (ownKvs ip size port) hfit hcnt hnum (by
      intro n hn
      rw [hn] at hms
      simp only [Option.getD_some] at hms
      omega) e own fuel after hfuel hafter
    have hi : ∀ name : String, idOf (ownKvs ip size port) name = (number
        [(ascii "ut_metadata", .int 2), (ascii "ut_pex", .int 1), (ascii "ut_holepunch", .int 3)] name).map (· % 256) := by
      intro name
      unfold idOf
      rw [n1]
      rfl
    refine ⟨h, ?_, ?_, ?_⟩
    · rw [h1, hi, hi, hi]; rfl
    · rw [h2]
      unfold ownKvs
      by_cases hs0 : size = 0
      · simp only [hs0, ne_eq, not_true_eq_false, if_false]; rfl
      · simp only [hs0, ne_eq, not_false_eq_true, if_true]; rfl
    · rw [h3, hms]; omega

example : (Ext.createHandshake (ascii "1.2.3.4") 31235 6881).length = 127 := by decide +kernel

/-- Messages with other numbers go to the extension of that number (1: peer exchange, 2: metadata, 3: hole punching).
Missing: as before. -/
theorem C72_routed_partial (e : Exts) (own : List UInt8) (id : Nat) (hid : id ≠ 0) (fuel : Nat) (data after : List UInt8) :
    handle fuel e own id data after = .ok (e, [], .message id data) := by
  unfold handle
  rw [if_neg hid]
  rfl

example : handle 0 {} [] 3 [1, 2] [] = .ok ({}, [], .message 3 [1, 2]) := rfl

/-- What the other side is told about its address is its text, but only four bytes are taken for an address: it is never
learned, and of an IPv6 address with a text of four characters another address is. -/
theorem C72_address_violated :
    (handle 200 {} [] 0 ((Ext.createHandshake (ascii "1.2.3.4") 0 6881).drop 6) [0]).map' (fun r => r.2.2) =
      .ok (.handshake ⟨[(ascii "ut_metadata", 2), (ascii "ut_pex", 1), (ascii "ut_holepunch", 3)], [0, 0, 0, 0],
        ascii "mtTorrent 0.9", 0⟩) ∧
    (handle 200 {} [] 0 ((Ext.createHandshake (ascii "::ab") 0 6881).drop 6) [0]).map' (fun r => r.2.2) =
      .ok (.handshake ⟨[(ascii "ut_metadata", 2), (ascii "ut_pex", 1), (ascii "ut_holepunch", 3)], [58, 58, 97, 98],
        ascii "mtTorrent 0.9", 0⟩) := by
  decide +kernel

/-- A list in place of the number of an extension, and the null pointer is read. -/
theorem C72_list_violated (e : Exts) (own : List UInt8) :
    handle 200 e own 0 (ascii "d1:md6:ut_pexleee") [0] = .ub := by
  have h : readHandshake 200 (ascii "d1:md6:ut_pexleee") [0] = .ub := by decide +kernel
  unfold handle
  rw [if_pos rfl, h]
  rfl

/-- Digits of a text are taken for the number, together with what follows them: here 1 and the length of the next key. -/
theorem C72_text_violated :
    (handle 200 {} [] 0 (ascii "d1:md6:ut_pex1:111:ut_metadatai2eee") [0]).map' (fun r => r.1.pex.id) = .ok 111 := by
  decide +kernel

/-! ### C71 -/

/-- The address of a message. -/
theorem Ext.linkOf_plain {links : List Link} {a : Addr} (ha : Whole a) (hf : ∀ l ∈ links, l.addr.ipv6 = a.ipv6) :
    linkOf links (plain a) = links.findIdx? (fun l => decide (wire l.addr = wire a)) := by
  unfold linkOf
  induction links with
  | nil => rfl
  | cons l ls ih =>
    have hl := hf l (by simp)
    have h1 : l.addr.eq (plain a) = decide (wire l.addr = wire a) := by
      rw [plain_eq _ _ ha hl, Bool.eq_iff_iff, eq_iff hl, decide_eq_true_eq]
    rw [List.findIdx?_cons, List.findIdx?_cons, h1, ih (fun x hx => hf x (by simp [hx]))]

theorem Ext.wire_punch {a b : Addr} (h : wire a = wire b) (kind e : Nat) : punch kind a e = punch kind b e := by
  obtain ⟨x, p, v⟩ := a
  obtain ⟨y, q, w⟩ := b
  simp only [wire, Prod.mk.injEq] at h
  obtain ⟨rfl, h2, rfl⟩ := h
  unfold punch
  simp only
  rw [h2]

/-- A peer asks to be introduced to another one that is connected, by uTP, and supports it: exactly the two of them are
told to connect to each other. Missing: that the peer that asks has announced the extension (`C71_crash_violated`), is not
the one it asks for (`C71_self_violated`), connections of both families (`C71_family_violated`), and an answer when the
other one does not support it (`C71_silent_violated`). -/
theorem C71_introduced_partial (links : List Link) (p : Link) (a : Addr) (ha : Whole a) (hf : ∀ l ∈ links, l.addr.ipv6 = a.ipv6)
    (k : Nat) (t : Link) (hk : links[k]? = some t) (ht : wire t.addr = wire a) (hfirst : ∀ l ∈ links.take k, wire l.addr ≠ wire a)
    (hu : t.utp = true) (n m : Nat) (hn : t.hp = ⟨n, true⟩) (hn0 : n ≠ 0) (hm : p.hp = ⟨m, true⟩) (e : Nat) (he : e < 2 ^ 32)
    (more after : List UInt8) :
    receivePunch links p (punch 0 a e ++ more) after =
      .ok [.tell k (framed n (punch 1 p.addr 0)), .reply (framed m (punch 1 a 0))] := by
  have hi : links.findIdx? (fun l => decide (wire l.addr = wire a)) = some k := by
    rw [List.findIdx?_eq_some_iff_getElem]
    have hlt : k < links.length := by
      rcases Nat.lt_or_ge k links.length with h | h
      · exact h
      · rw [List.getElem?_eq_none h] at hk; cases hk
    refine ⟨hlt, ?_, ?_⟩
    · rw [List.getElem?_eq_getElem hlt] at hk
      cases hk
      simpa using ht
    · intro j hj
      have := hfirst links[j] (List.mem_take_iff_getElem.mpr ⟨j, by omega, rfl⟩)
      simpa using this
  have hr : rd links k = .ok t := by unfold rd; rw [hk]
  unfold receivePunch
  rw [load_punch ha 0 e (by decide) he, Res.bind_ok]
  unfold handlePunch
  simp only [if_true, linkOf_plain ha hf, hi, hr, Res.bind_ok, hu, hn, hm, Remote.enabled, bne_iff_ne, ne_eq, hn0, not_false_eq_true,
    Bool.true_and, send_eq, Res.pure_eq]
  rw [wire_punch (wire_plain ha)]

/-- Asked for a peer that is not connected by uTP or has not announced the extension, nobody is told to connect. -/
theorem C71_unable_partial (links : List Link) (p : Link) (a : Addr) (ha : Whole a) (hf : ∀ l ∈ links, l.addr.ipv6 = a.ipv6)
    (k : Nat) (t : Link) (hk : links[k]? = some t) (ht : wire t.addr = wire a) (hfirst : ∀ l ∈ links.take k, wire l.addr ≠ wire a)
    (hu : t.utp = false ∨ t.hp.id = 0) (e : Nat) (he : e < 2 ^ 32) (more after : List UInt8) :
    receivePunch links p (punch 0 a e ++ more) after = .ok [] := by
  have hi : links.findIdx? (fun l => decide (wire l.addr = wire a)) = some k := by
    rw [List.findIdx?_eq_some_iff_getElem]
    have hlt : k < links.length := by
      rcases Nat.lt_or_ge k links.length with h | h
      · exact h
      · rw [List.getElem?_eq_none h] at hk; cases hk
    refine ⟨hlt, ?_, ?_⟩
    · rw [List.getElem?_eq_getElem hlt] at hk
      cases hk
      simpa using ht
    · intro j hj
      have := hfirst links[j] (List.mem_take_iff_getElem.mpr ⟨j, by omega, rfl⟩)
      simpa using this
  have hr : rd links k = .ok t := by unfold rd; rw [hk]
  have hno : (t.utp && t.hp.enabled) = false := by
    rcases hu with h | h <;> simp [Remote.enabled, h]
  unfold receivePunch
  rw [load_punch ha 0 e (by decide) he, Res.bind_ok]
  unfold handlePunch
  simp only [if_true, linkOf_plain ha hf, hi, hr, Res.bind_ok, hno, Bool.false_eq_true, if_false, Res.pure_eq]

/-- A message without room for its address, or of another family, leads to nothing. -/
theorem C71_malformed_partial (links : List Link) (p : Link) (kind family : UInt8) (rest after : List UInt8)
    (h : (family = 0 ∧ rest.length < 6) ∨ (family = 1 ∧ rest.length < 18) ∨ 1 < family.toNat) :
    receivePunch links p (kind :: family :: rest) after = .ok [] := by
  have hl : load (kind :: family :: rest) after = .ok none := by
    unfold load
    by_cases h8 : (kind :: family :: rest).length < 8
    · rw [if_pos h8]; rfl
    · rw [if_neg h8]
      simp only [List.length_cons] at h8
      simp only [rd, List.getElem?_cons_zero, List.getElem?_cons_succ, Res.bind_ok]
      rcases h with ⟨_, h⟩ | ⟨rfl, h⟩ | h
      · omega
      · rw [if_neg (by decide), if_pos ⟨rfl, by simp only [List.length_cons]; omega⟩]; rfl
      · rw [if_pos h]; rfl
  unfold receivePunch
  rw [hl]
  rfl

/-- No such peer is connected: the one that asks is told so. Missing: as before. -/
theorem C71_unknown_partial (links : List Link) (p : Link) (a : Addr) (ha : Whole a) (hf : ∀ l ∈ links, l.addr.ipv6 = a.ipv6)
    (hno : ∀ l ∈ links, wire l.addr ≠ wire a) (m : Nat) (hm : p.hp = ⟨m, true⟩) (e : Nat) (he : e < 2 ^ 32) (more after : List UInt8) :
    receivePunch links p (punch 0 a e ++ more) after = .ok [.reply (framed m (punch 2 a 2))] := by
  have hi : links.findIdx? (fun l => decide (wire l.addr = wire a)) = none := by
    rw [List.findIdx?_eq_none_iff]
    intro l hl
    simpa using hno l hl
  unfold receivePunch
  rw [load_punch ha 0 e (by decide) he, Res.bind_ok]
  unfold handlePunch
  simp only [if_true, linkOf_plain ha hf, hi, Res.bind_ok, hm, send_eq, Res.pure_eq]
  rw [wire_punch (wire_plain ha)]

/-- Who is told to connect does: framed messages arrive as they were sent, and the address to connect to is the one in
the message. Other kinds of messages (errors) lead to nothing. Missing: messages that are too short (`C71_short_violated`). -/
theorem C71_told_partial (links : List Link) (p : Link) (a : Addr) (ha : Whole a) (id : Nat) (hid : id < 256) (kind e : Nat)
    (hkind : 1 ≤ kind ∧ kind < 256) (he : e < 2 ^ 32) (rest : List UInt8) :
    Peer.parse (framed id (punch kind a e) ++ rest) = .ok
      { id := 20, messageSize := (framed id (punch kind a e)).length, extendedId := some id, extendedData := punch kind a e } ∧
    ∀ after, ∃ b, wire b = wire a ∧
      receivePunch links p (punch kind a e) after = .ok (if kind = 1 then [.connect b] else []) := by
  have hl := punch_length ha kind e
  have hsz : Addr.size a.ipv6 ≤ 16 := by unfold Addr.size; split <;> omega
  constructor
  · rw [parse_ext id hid _ rest (by intro h; rw [h] at hl; simp at hl; omega) (by rw [hl]; split <;> omega)]
    simp [Peer.idExtended, framed, be32]
  · intro after
    refine ⟨plain a, wire_plain ha, ?_⟩
    have h := load_punch ha kind e hkind.2 he [] after
    rw [List.append_nil] at h
    unfold receivePunch
    rw [h, Res.bind_ok]
    unfold handlePunch
    simp only
    rw [if_neg (by omega)]
    by_cases h1 : kind = 1
    · simp [h1]
    · simp [h1]

/-- A connection that could not be made is retried with the help of the first connection that supports it and was told to
be connected to the peer, if peer exchange said that the peer can do it; at most once for the connection. Missing: as
before. -/
theorem C71_sought_partial (links : List Link) (hids : ∀ l ∈ links, l.hp.id ≠ 0 → l.hp.peer = true) (was punched : Bool)
    (flags : Nat) (a : Addr) :
    ∃ out, seek links was punched flags a = .ok out ∧
      (out ≠ [] ↔ was = false ∧ punched = false ∧ (flags.testBit 2 = true ∨ flags.testBit 3 = true) ∧
        ∃ l ∈ links, l.hp.id ≠ 0 ∧ wasConnected l.met a = true) ∧
      (∀ o ∈ out, ∃ k l, o = .tell k (framed l.hp.id (punch 0 a 0)) ∧ links[k]? = some l ∧ l.hp.id ≠ 0 ∧
        wasConnected l.met a = true ∧ ∀ x ∈ links.take k, ¬ (x.hp.id ≠ 0 ∧ wasConnected x.met a = true)) := by
  have hfl : (flags / 4 % 4 != 0) = true ↔ (flags.testBit 2 = true ∨ flags.testBit 3 = true) := by
    simp only [bne_iff_ne, ne_eq, Nat.testBit_eq_decide_div_mod_eq, decide_eq_true_eq]
    omega
  unfold seek
  by_cases hc : (!was && !punched && (flags / 4 % 4 != 0)) = true
  · rw [if_pos hc]
    simp only [Bool.and_eq_true, Bool.not_eq_true'] at hc
    obtain ⟨⟨c1, c2⟩, c3⟩ := hc
    have c4 := hfl.mp c3
    cases hi : links.findIdx? (fun l => l.hp.enabled && wasConnected l.met a) with
    | none =>
      rw [List.findIdx?_eq_none_iff] at hi
      refine ⟨[], rfl, ⟨fun h => absurd rfl h, ?_⟩, by simp⟩
      rintro ⟨_, _, _, l, hl, h1, h2⟩
      have := hi l hl
      simp [Remote.enabled, h1, h2] at this
    | some k =>
      rw [List.findIdx?_eq_some_iff_getElem] at hi
      obtain ⟨hlt, h1, h2⟩ := hi
      simp only [Bool.and_eq_true, Remote.enabled, bne_iff_ne, ne_eq] at h1
      have hr : rd links k = .ok links[k] := by unfold rd; rw [List.getElem?_eq_getElem hlt]
      have hp := hids links[k] (List.getElem_mem hlt) h1.1
      have hs : send links[k].hp a 0 0 = .ok (framed links[k].hp.id (punch 0 a 0)) := by
        rw [show links[k].hp = ⟨links[k].hp.id, true⟩ by rw [← hp]]
        exact send_eq _ 0 0 a
      simp only [hr, Res.bind_ok, hs, Res.pure_eq]
      refine ⟨_, rfl, ⟨fun _ => ⟨c1, c2, c4, links[k], List.getElem_mem hlt, h1.1, h1.2⟩, fun _ => by simp⟩, ?_⟩
      intro o ho
      simp only [List.mem_singleton] at ho
      refine ⟨k, links[k], ho, List.getElem?_eq_getElem hlt, h1.1, h1.2, ?_⟩
      intro x hx
      obtain ⟨j, hj, rfl⟩ := List.mem_take_iff_getElem.mp hx
      have := h2 j (by omega)
      simp only [Remote.enabled, Bool.and_eq_true, bne_iff_ne, ne_eq] at this
      exact this
  · rw [if_neg hc]
    refine ⟨[], rfl, ⟨fun h => absurd rfl h, ?_⟩, by simp⟩
    rintro ⟨h1, h2, h3, _⟩
    exact absurd (by rw [h1, h2, hfl.mpr h3]; rfl) hc

namespace ExtEx

def a (n : UInt8) : Addr := ⟨[1, 2, 3, n] ++ List.replicate 12 0, 6881, false⟩
def p : Link := ⟨a 1, false, ⟨5, true⟩, []⟩
def q : Link := ⟨a 2, true, ⟨6, true⟩, [a 9]⟩
/-- A peer that did not announce the extension. -/
def r : Link := ⟨a 3, false, {}, []⟩

end ExtEx
open ExtEx

example : Whole (a 2) ∧ wire q.addr = wire (a 2) ∧
    receivePunch [p, q] p [0, 0, 1, 2, 3, 2, 26, 225] [] =
      .ok [.tell 1 [0, 0, 0, 10, 20, 6, 1, 0, 1, 2, 3, 1, 26, 225], .reply [0, 0, 0, 10, 20, 5, 1, 0, 1, 2, 3, 2, 26, 225]] ∧
    receivePunch [p, q] p [0, 0, 1, 2, 3, 4, 26, 225] [] =
      .ok [.reply [0, 0, 0, 14, 20, 5, 2, 0, 1, 2, 3, 4, 26, 225, 0, 0, 0, 2]] ∧
    receivePunch [p, q] p [1, 0, 1, 2, 3, 4, 26, 225] [] = .ok [.connect (a 4)] ∧
    receivePunch [p, { q with utp := false }] p [0, 0, 1, 2, 3, 2, 26, 225] [] = .ok [] ∧
    receivePunch [p, { q with hp := {} }] p [0, 0, 1, 2, 3, 2, 26, 225] [] = .ok [] ∧
    receivePunch [p, q] p ([1, 1] ++ List.replicate 17 9) [] = .ok [] ∧
    seek [p, q] false false 8 (a 9) = .ok [.tell 1 [0, 0, 0, 10, 20, 6, 0, 0, 1, 2, 3, 9, 26, 225]] := by
  refine ⟨⟨rfl, by decide⟩, rfl, ?_, ?_, ?_, ?_, ?_, ?_, ?_⟩ <;> decide +kernel

/-- Any peer can end the program: one that has not announced the extension asks for an address, and the answer is sent
through a null pointer. -/
theorem C71_crash_violated : receivePunch [p, q, r] r (punch 0 (a 4) 0) [] = .ub ∧
    receivePunch [p, q, r] r (punch 0 (a 2) 0) [] = .ub := by decide +kernel

/-- An error without a number is read behind its end. -/
theorem C71_short_violated : receivePunch [p, q] p [2, 0, 1, 2, 3, 4, 26, 225] [] = .ub ∧
    load [2, 0, 1, 2, 3, 4, 26, 225] [0, 0, 0, 7] = .ok (some ⟨2, a 4, some 7⟩) := by decide +kernel

/-- A peer that asks for itself is told to connect to itself, twice. -/
theorem C71_self_violated : receivePunch [p, q] q (punch 0 (a 2) 0) [] =
    .ok [.tell 1 (framed 6 (punch 1 (a 2) 0)), .reply (framed 6 (punch 1 (a 2) 0))] := by decide +kernel

/-- A peer that asks for one that does not support it is not answered. -/
theorem C71_silent_violated : receivePunch [p, q, r] q (punch 0 (a 3) 0) [] = .ok [] := by decide +kernel

/-- A peer that asks for an IPv6 address is introduced to an IPv4 peer with the same first bytes, which is told of it. -/
theorem C71_family_violated (b : Addr) (hb : b = ⟨[1, 2, 3, 2, 5, 6, 7, 8, 9, 10, 11, 12, 13, 14, 15, 16], 6881, true⟩) :
    receivePunch [p, q] p (punch 0 b 0) [] =
      .ok [.tell 1 (framed 6 (punch 1 (a 1) 0)), .reply (framed 5 (punch 1 b 0))] := by
  subst hb; decide +kernel

end Verif
