import Verif.Props.Encryption
import Verif.Proof.RC4Code
/-! Property C77: after the encrypted handshake both ends read what the other writes. -/

namespace Verif
open Pe Sha1 Spec.Mse

attribute [local irreducible] Spec.Sha1.hash RC4.skip RC4.ksa Spec.rc4Gen DH.Exchange.create DH.Exchange.peMessage DH.Exchange.peSecret

theorem mse_crypt_nil (key : List UInt8) (n : Nat) : crypt key n [] = [] := rfl

theorem mse_writeAll {key : List UInt8} : ∀ {ds : List (List UInt8)} {c : Cipher} {n : Nat}, At key n c.rcOut →
    writeAll (some c) ds = crypt key n ds.flatten
  | [], _, _, _ => rfl
  | d :: ds, c, n, h => by
    obtain ⟨h1, h2⟩ := at_decode h d
    rw [writeAll, List.flatten_cons, crypt_append, ← h2]
    have := mse_writeAll (ds := ds) (c := { c with rcOut := (RC4.decode c.rcOut d).1 }) h1
    rw [← this]
    rfl

theorem mse_readAll {key : List UInt8} : ∀ {ds : List (List UInt8)} {c : Cipher} {n : Nat}, At key n c.rcIn →
    readAll (some c) ds = crypt key n ds.flatten
  | [], _, _, _ => rfl
  | d :: ds, c, n, h => by
    obtain ⟨h1, h2⟩ := at_decode h d
    rw [readAll, List.flatten_cons, crypt_append, ← h2]
    have := mse_readAll (ds := ds) (c := { c with rcIn := (RC4.decode c.rcIn d).1 }) h1
    rw [← this]
    rfl

/-- Two ciphers at the same place of the same key stream. -/
theorem mse_passes {key : List UInt8} {a b : Cipher} {n : Nat} (ha : At key n a.rcOut) (hb : At key n b.rcIn) {ds cs : List (List UInt8)}
    (h : cs.flatten = writeAll (some a) ds) : readAll (some b) cs = ds.flatten := by
  rw [mse_readAll hb, h, mse_writeAll ha, crypt_crypt]

theorem mse_message4_first (S H padD payload : List UInt8) (select : Nat) :
    FirstAt ([] ++ message4 S H select padD ++ payload) (crypt (keyB S H) 0 (List.replicate 8 0)) ([] : List UInt8).length := by
  refine ⟨?_, fun m hm => by cases hm⟩
  rw [List.nil_append, List.length_nil, List.drop_zero, message4, header, List.append_assoc, List.append_assoc, crypt_append, List.append_assoc]
  exact List.prefix_append _ _

theorem mse_secret {s : List Nat} {n : Nat} (h : (BigNum.exportBytes s 96).length = 96) (hv : Spec.bigNumber (BigNum.exportBytes s 96) = n) :
    (secretBytes s).length = 96 ∧ Spec.bigNumber (secretBytes s) = n := by
  unfold secretBytes
  rw [h]
  simpa [h] using hv

/-- C77, where it holds: for all private keys, paddings and initial messages, all sets of torrents among which the one meant has the
lowest address, and a secret for which the lookup works (see `C29_first_partial`), the whole exchange between an initiator and a
listener that both run this program: both finish, and what either writes afterwards, in whatever portions, the other reads, in whatever
pieces it arrives. The key messages and message 4 arrive in one piece, message 3 in any. -/
theorem C77_exchange_partial {ts : List Torrent} {t : Torrent} {l : Listener} {rndA rndB padA padB padC padD ia : List UInt8}
    (hA : rndA.length = 96) (hB : rndB.length = 96) (hl : addAll [] ts = .ok l) (ht : t ∈ ts) (hu : ∀ u ∈ ts, u = t ∨ t.addr < u.addr)
    (hb : ∀ S : List UInt8, S.length = 96 → Spec.bigNumber S = 2 ^ (Spec.littleNumber rndA * Spec.littleNumber rndB) % Spec.exchangePrime →
      ∀ i, i < 20 → (Spec.Sha1.hash (ascii "req3" ++ S)).getD i 0 ≠ (ascii "req3" ++ S).getD i 0)
    (hpC : padC.length < 2 ^ 16) (hpD : padD.length < 2 ^ 16) (hia : ia.length < 2 ^ 16) :
    ∃ m1 A1 B1 m2 A2 m3, initiate (Handshake.new rndA) t ia padA = .ok (m1, A1) ∧
      receive l padB ⟨Handshake.new rndB, []⟩ m1 = .ok (⟨B1, []⟩, m2) ∧
      receiveInitiator padC ⟨A1, []⟩ m2 = .ok (⟨A2, []⟩, m3) ∧
      ∀ chunks, chunks.flatten = m3 → ∃ B2 m4 A3, receiveAll l padD ⟨B1, []⟩ chunks = .ok (⟨B2, []⟩, m4) ∧
        receiveInitiator [] ⟨A2, []⟩ m4 = .ok (⟨A3, []⟩, []) ∧ A3.step = .established ∧ B2.step = .established ∧
        B2.infoHash = some t ∧ B2.message = ia ∧
        (∀ ds cs, cs.flatten = writeAll (initiatorCipher A3) ds → readAll (listenerCipher B2) cs = ds.flatten) ∧
        (∀ ds cs, cs.flatten = writeAll (listenerCipher B2) ds → readAll (initiatorCipher A3) cs = ds.flatten) := by
  obtain ⟨msgA, msgB, xA, xB, s, a1, b1, a2, b2, v⟩ := C28_agreement rndA rndB padA padB [] [] hA hB
  obtain ⟨oA, a1', a1l, _⟩ := C28_message rndA padA hA
  obtain ⟨oB, b1', b1l, _⟩ := C28_message rndB padB hB
  have hmA : msgA = oA ++ padA := by rw [a1] at a1'; cases a1'; rfl
  have hmB : msgB = oB ++ padB := by rw [b1] at b1'; cases b1'; rfl
  have hlA : 96 ≤ msgA.length := by rw [hmA, List.length_append]; omega
  have hlB : 96 ≤ msgB.length := by rw [hmB, List.length_append]; omega
  obtain ⟨x', s', q1, _, q2, _, q3⟩ := C28_secret rndA [] msgB hA hlB
  rw [a2] at q1
  cases q1
  obtain ⟨hSl, hSv⟩ := mse_secret q2 q3
  rw [v] at hSv
  have hfree := hb (secretBytes s) hSl hSv
  have hfind := mse_find_first hl ht hu hfree
  obtain ⟨cA, e3, cA1, cA2⟩ := createPe3_ok (secretBytes s) t ia padC
  have hz : DH.keySize = 96 := rfl
  refine ⟨msgA, { Handshake.new rndA with infoHash := some t, message := ia, step := .pe2 },
    { Handshake.new rndB with dh := xB, shared := s, step := .pe3 }, msgB,
    { Handshake.new rndA with infoHash := some t, message := ia, dh := xA, shared := s, pe := some cA, step := .pe4 },
    message3 (secretBytes s) t.hash 3 padC ia, ?_, ?_, ?_, ?_⟩
  · simp only [initiate, Handshake.new, a1, Res.bind]
  · unfold receive
    dsimp only
    rw [List.nil_append, if_neg (by omega)]
    unfold readAsListener
    simp only [Handshake.new]
    rw [if_neg (by rw [hz]; omega)]
    simp only [b1, b2, Res.bind, List.drop_length]
  · unfold receiveInitiator
    dsimp only
    rw [List.nil_append]
    unfold readAsInitiator
    simp only [Handshake.new]
    rw [if_neg (by rw [hz]; omega)]
    simp only [a2, e3, Res.bind, List.drop_length]
  · intro chunks hc
    have hml := message3_length (secretBytes s) t.hash 3 padC ia
    obtain ⟨B2, cB, r1, r2, r3, r4, r5, r6, r7, r8⟩ := receiveAll_pieces (l := l) (padD := padD) (k := .rc4) (t := t) (S := secretBytes s) (padC := padC) (ia := ia)
      (provide := 3) chunks []
      ⟨{ Handshake.new rndB with dh := xB, shared := s, step := .pe3 }, []⟩ 0 rfl rfl
      ⟨by rw [List.nil_append, List.length_nil, List.drop_zero, message3, List.append_assoc]; exact List.prefix_append _ _, fun m hm => by cases hm⟩
      hfind rfl (by decide) hpC hia (by rw [List.length_append, hml]; simp only [List.length_nil]; omega) rfl (by simpa using hc)
    obtain ⟨s4, w1, w2⟩ := readPe4_ok (h := { Handshake.new rndA with infoHash := some t, message := ia, dh := xA, shared := s, pe := some cA, step := .pe4 })
      (payload := []) (padD := padD) (select := selected .rc4) (k := .rc4) rfl cA2 (mse_message4_first (secretBytes s) t.hash padD [] (selected .rc4))
      rfl (by decide) hpD
    rw [List.nil_append, List.append_nil] at w2
    have h4l : (message4 (secretBytes s) t.hash (selected .rc4) padD).length = 14 + padD.length := by
      simp [message4, crypt_length, header]; omega
    refine ⟨B2, message4 (secretBytes s) t.hash (selected .rc4) padD,
      { Handshake.new rndA with infoHash := some t, message := ia, dh := xA, shared := s, kind := .rc4, pe := some { cA with rcIn := s4 }, step := .established },
      r1, ?_, rfl, r2, r3, r4, ?_, ?_⟩
    · unfold receiveInitiator
      dsimp only
      rw [List.nil_append]
      unfold readAsInitiator
      dsimp only
      rw [w2]
      simp only [Res.bind, List.length_nil, Nat.zero_add]
      rw [← h4l, List.drop_length]
    · intro ds cs hcs
      rw [listenerCipher, r6]
      exact mse_passes (a := { cA with rcIn := s4 }) cA1 r7 hcs
    · intro ds cs hcs
      rw [listenerCipher, r6] at hcs
      exact mse_passes (b := { cA with rcIn := s4 }) r8 w1 hcs

/-! ### Where C77 fails -/

theorem mse_keyA_0 : keyA (List.replicate 96 0) (mseT 1 1).hash =
    [81, 177, 174, 138, 94, 41, 214, 12, 47, 110, 156, 197, 182, 38, 135, 152, 142, 4, 135, 106] := mse_lit (by decide +kernel)

theorem mse_keyB_0 : keyB (List.replicate 96 0) (mseT 1 1).hash =
    [105, 91, 168, 106, 82, 69, 140, 195, 228, 71, 186, 67, 103, 2, 205, 46, 92, 166, 171, 34] := mse_lit (by decide +kernel)

/-- The key stream the initiator writes with, secret 0. -/
theorem mse_streamA : ∀ i, i < 17 → Spec.rc4Byte (keyA (List.replicate 96 0) (mseT 1 1).hash) (1024 + i) =
    [164, 141, 135, 127, 195, 130, 118, 231, 120, 153, 219, 13, 231, 33, 177, 169, 18].getD i 0 := by
  intro i hi
  rw [mse_keyA_0, RC4Code.rc4Byte_eq (k := 608164019281112854154526561769901494333791449425) (by decide +kernel) (by decide) (by decide +kernel)]
  · revert i; decide +kernel
  · revert i; decide +kernel

/-- The key stream the listener writes with, secret 0. -/
theorem mse_streamB : ∀ i, i < 16 → Spec.rc4Byte (keyB (List.replicate 96 0) (mseT 1 1).hash) (1024 + i) =
    [105, 171, 162, 144, 43, 159, 152, 9, 18, 18, 94, 211, 221, 227, 190, 159].getD i 0 := by
  intro i hi
  rw [mse_keyB_0, RC4Code.rc4Byte_eq (k := 197933605644610666716797889325974095796139219817) (by decide +kernel) (by decide) (by decide +kernel)]
  · revert i; decide +kernel
  · revert i; decide +kernel

theorem mse_crypt_lit {key : List UInt8} {ks : List Nat} {n N : Nat} {l : List UInt8} (h : ∀ i, i < N → Spec.rc4Byte key (1024 + i) = ks.getD i 0)
    (hl : n + l.length ≤ N) : crypt key n l = l.mapIdx fun i c => c ^^^ UInt8.ofNat (ks.getD (n + i) 0) := by
  apply List.ext_getElem (by simp [crypt])
  intro i h1 h2
  rw [List.length_mapIdx] at h2
  simp only [crypt, List.getElem_mapIdx]
  rw [Nat.add_assoc, h (n + i) (by omega)]

/-- What is read of the zeros at the start of message 4, first and for the second time. -/
theorem mse_zeros : crypt (keyB (List.replicate 96 0) (mseT 1 1).hash) 0 (List.replicate 8 0) = [105, 171, 162, 144, 43, 159, 152, 9] ∧
    crypt (keyB (List.replicate 96 0) (mseT 1 1).hash) 8 (List.replicate 8 0) = [18, 18, 94, 211, 221, 227, 190, 159] := by
  constructor
  · rw [mse_crypt_lit mse_streamB (by decide)]; decide +kernel
  · rw [mse_crypt_lit mse_streamB (by decide)]; decide +kernel

theorem mse_message4 : message4 (List.replicate 96 0) (mseT 1 1).hash 2 [] =
    [105, 171, 162, 144, 43, 159, 152, 9, 18, 18, 94, 209, 221, 227] := by
  rw [message4, mse_crypt_lit mse_streamB (by decide)]; decide +kernel

/-- C77 fails: the answer of the listener follows 14 bytes of padding that were still in flight. In one piece the initiator finishes
the handshake. When the padding arrives by itself, the key stream is advanced for the zeros it looks for, and when the answer
arrives it looks for the wrong bytes: the same bytes in two pieces are never understood. -/
theorem C77_pieces_violated (h : Handshake) (c : Cipher) (hs : h.step = .pe4) (hpe : h.pe = some c)
    (hc : At (keyB (List.replicate 96 0) (mseT 1 1).hash) 0 c.rcIn) :
    (∃ h', receiveInitiator [] ⟨h, []⟩ (List.replicate 14 0 ++ message4 (List.replicate 96 0) (mseT 1 1).hash 2 []) = .ok (⟨h', []⟩, []) ∧
      h'.step = .established) ∧
    ∃ h1 h2, receiveInitiator [] ⟨h, []⟩ (List.replicate 14 0) = .ok (⟨h1, List.replicate 14 0⟩, []) ∧
      receiveInitiator [] ⟨h1, List.replicate 14 0⟩ (message4 (List.replicate 96 0) (mseT 1 1).hash 2 []) =
        .ok (⟨h2, List.replicate 14 0 ++ message4 (List.replicate 96 0) (mseT 1 1).hash 2 []⟩, []) ∧ h2.step = .pe4 := by
  constructor
  · have hf : FirstAt (List.replicate 14 0 ++ message4 (List.replicate 96 0) (mseT 1 1).hash 2 [] ++ [])
        (crypt (keyB (List.replicate 96 0) (mseT 1 1).hash) 0 (List.replicate 8 0)) (List.replicate 14 (0 : UInt8)).length := by
      rw [mse_zeros.1, mse_message4]
      unfold FirstAt
      decide +kernel
    obtain ⟨s, _, e⟩ := readPe4_ok (select := 2) (k := .rc4) (padD := []) hpe hc hf rfl (by decide) (by decide)
    refine ⟨{ h with kind := .rc4, pe := some { c with rcIn := s }, step := .established }, ?_, rfl⟩
    unfold receiveInitiator
    dsimp only
    rw [List.nil_append]
    unfold readAsInitiator
    rw [hs]
    dsimp only
    rw [List.append_nil] at e
    rw [e]
    simp only [Res.bind, List.length_nil]
    rw [mse_message4]
    rfl
  · obtain ⟨d1, d2⟩ := at_decode hc (List.replicate 8 0)
    rw [mse_zeros.1] at d2
    have d1' : At (keyB (List.replicate 96 0) (mseT 1 1).hash) 8 (RC4.decode c.rcIn (List.replicate 8 0)).1 := d1
    generalize hD : RC4.decode c.rcIn (List.replicate 8 0) = D at *
    obtain ⟨e1, e2⟩ := at_decode d1' (List.replicate 8 0)
    rw [mse_zeros.2] at e2
    refine ⟨{ h with pe := some { c with rcIn := D.1 } }, { h with pe := some { c with rcIn := (RC4.decode D.1 (List.replicate 8 0)).1 } }, ?_, ?_, hs⟩
    · have hn : search (List.replicate 14 0) [105, 171, 162, 144, 43, 159, 152, 9] ((List.replicate 14 (0 : UInt8)).length - 14 + 1) 0 = none := by decide +kernel
      unfold receiveInitiator
      dsimp only
      rw [List.nil_append]
      unfold readAsInitiator
      rw [hs]
      dsimp only
      unfold readPe4
      rw [if_neg (by decide), hpe]
      dsimp only
      rw [hD, d2, hn]
      dsimp only [Res.bind]
      rw [hs]
      rfl
    · rw [mse_message4]
      have hn : search (List.replicate 14 0 ++ [105, 171, 162, 144, 43, 159, 152, 9, 18, 18, 94, 209, 221, 227]) [18, 18, 94, 211, 221, 227, 190, 159]
          ((List.replicate 14 (0 : UInt8) ++ [105, 171, 162, 144, 43, 159, 152, 9, 18, 18, 94, 209, 221, 227]).length - 14 + 1) 0 = none := by decide +kernel
      unfold receiveInitiator
      dsimp only
      unfold readAsInitiator
      rw [hs]
      dsimp only
      unfold readPe4
      rw [if_neg (by decide)]
      dsimp only
      rw [e2, hn]
      rfl

/-- A peer that offers plain text only, and no paddings. -/
theorem mse_plain {l : Listener} {S : List UInt8} {t : Torrent} (h : Handshake) (hs : h.step = .pe3) (hS : S = secretBytes h.shared)
    (hfind : findByPe3Hash l (names S t.hash) (ascii "req3" ++ S) = some t) :
    ∃ h' c, receiveAll l [] ⟨h, []⟩ [message3 S t.hash 1 [] []] = .ok (⟨h', []⟩, message4 S t.hash 1 []) ∧
      h'.step = .established ∧ h'.kind = .plainText ∧ h'.pe = some c ∧ At (keyA S t.hash) 16 c.rcIn := by
  have hml := message3_length S t.hash 1 [] []
  obtain ⟨h', c, r1, r2, r3, r4, r5, r6, r7, r8⟩ := receiveAll_pieces (padD := []) (k := .plainText) (provide := 1) (padC := []) (ia := [])
    [message3 S t.hash 1 [] []] [] ⟨h, []⟩ 0 hS hs
    ⟨by rw [List.nil_append, List.length_nil, List.drop_zero, message3, List.append_assoc]; exact List.prefix_append _ _, fun m hm => by cases hm⟩
    hfind rfl (by decide) (by decide) (by decide) (by rw [List.length_append, hml]; simp only [List.length_nil]; omega) rfl (by simp)
  exact ⟨h', c, r1, r2, r5, r6, r7⟩

theorem mse_one : addAll [] [mseT 1 1] = .ok [(mseT 1 1, Spec.Sha1.hash (ascii "req2" ++ (mseT 1 1).hash))] := by
  simp only [addAll, mse_addTorrent, Res.bind, Pe.insert]

theorem mse_one_found : findByPe3Hash [(mseT 1 1, Spec.Sha1.hash (ascii "req2" ++ (mseT 1 1).hash))]
    (names (List.replicate 96 0) (mseT 1 1).hash) (ascii "req3" ++ List.replicate 96 0) = some (mseT 1 1) := by
  have hlow : ∀ u ∈ [mseT 1 1], u = mseT 1 1 ∨ (mseT 1 1).addr < u.addr := by simp
  have hin : mseT 1 1 ∈ [mseT 1 1] := by simp
  exact mse_find_first mse_one hin hlow mse_free

theorem mse_taken {c : Cipher} (h : At (keyA (List.replicate 96 0) (mseT 1 1).hash) 16 c.rcIn) : (Pe.read (some c) [0]).2 = [18] := by
  obtain ⟨_, e⟩ := at_decode h [0]
  rw [mse_crypt_lit mse_streamA (by decide)] at e
  show (RC4.decode c.rcIn [0]).2 = [18]
  rw [e]
  decide +kernel

/-- C77 fails: a peer that offers plain text only gets the answer that plain text is chosen, but the listener goes on to decrypt what it
receives: the byte 0 is taken for 18. -/
theorem C77_plain_violated (h : Handshake) (hs : h.step = .pe3) (hS : List.replicate 96 0 = secretBytes h.shared) :
    ∃ l h', addAll [] [mseT 1 1] = .ok l ∧
      receiveAll l [] ⟨h, []⟩ [message3 (List.replicate 96 0) (mseT 1 1).hash 1 [] []] = .ok (⟨h', []⟩, message4 (List.replicate 96 0) (mseT 1 1).hash 1 []) ∧
      h'.step = .established ∧ h'.kind = .plainText ∧ (Pe.read (listenerCipher h') [0]).2 = [18] := by
  obtain ⟨h', c, r1, r2, r3, r4, r5⟩ := mse_plain h hs hS mse_one_found
  refine ⟨_, h', mse_one, r1, r2, r3, ?_⟩
  rw [listenerCipher, r4]
  exact mse_taken r5

/-! ### The conditions can be met -/

theorem mse_little_inj : ∀ {a b : List UInt8}, a.length = b.length → Spec.littleNumber a = Spec.littleNumber b → a = b
  | [], [], _, _ => rfl
  | x :: a, y :: b, hl, h => by
    simp only [Spec.littleNumber, List.foldr_cons] at h
    have h1 := x.toNat_lt
    have h2 := y.toNat_lt
    have hxy : x.toNat = y.toNat := by omega
    have hab : Spec.littleNumber a = Spec.littleNumber b := by simp only [Spec.littleNumber]; omega
    rw [UInt8.toNat_inj.1 hxy, mse_little_inj (Nat.succ.inj hl) hab]

theorem mse_req3_1 : Spec.Sha1.hash (ascii "req3" ++ (List.replicate 95 0 ++ [1])) =
    [143, 25, 199, 245, 40, 125, 145, 113, 81, 84, 44, 25, 170, 224, 228, 45, 153, 246, 19, 84] := mse_lit (by decide +kernel)

/-- Private keys 0 on both sides: the secret is 1, and the lookup works. -/
example (padA padB : List UInt8) : ∃ l, addAll [] [mseT 2 2, mseT 1 1] = .ok l ∧ ∃ m1 A1 B1 m2 A2 m3,
    initiate (Handshake.new (List.replicate 96 0)) (mseT 1 1) [5] padA = .ok (m1, A1) ∧
    receive l padB ⟨Handshake.new (List.replicate 96 0), []⟩ m1 = .ok (⟨B1, []⟩, m2) ∧
    receiveInitiator [6] ⟨A1, []⟩ m2 = .ok (⟨A2, []⟩, m3) := by
  have h0 : Spec.littleNumber (List.replicate 96 (0 : UInt8)) = 0 := by decide +kernel
  have hb : ∀ S : List UInt8, S.length = 96 →
      Spec.bigNumber S = 2 ^ (Spec.littleNumber (List.replicate 96 (0 : UInt8)) * Spec.littleNumber (List.replicate 96 (0 : UInt8))) % Spec.exchangePrime →
      ∀ i, i < 20 → (Spec.Sha1.hash (ascii "req3" ++ S)).getD i 0 ≠ (ascii "req3" ++ S).getD i 0 := by
    intro S hl hv
    have hv' : Spec.bigNumber S = 1 := by rw [hv, h0]; decide +kernel
    have h1 : Spec.bigNumber (List.replicate 95 (0 : UInt8) ++ [1]) = 1 := by decide +kernel
    have hS : S.reverse = (List.replicate 95 (0 : UInt8) ++ [1]).reverse :=
      mse_little_inj (by rw [List.length_reverse, List.length_reverse, hl]; decide) (hv'.trans h1.symm)
    rw [List.reverse_inj.1 hS, mse_req3_1]
    decide +kernel
  obtain ⟨m1, A1, B1, m2, A2, m3, e1, e2, e3, _⟩ := C77_exchange_partial (padA := padA) (padB := padB) (padC := [6]) (padD := []) (ia := [5])
    (by decide) (by decide) mse_two' mse_there mse_lowest hb (by decide) (by decide) (by decide)
  exact ⟨_, mse_two', m1, A1, B1, m2, A2, m3, e1, e2, e3⟩

/-- An initiator that waits for message 4 exists, for secret 0. -/
example (message : List UInt8) : ∃ c, createPe3 (List.replicate 96 0) (mseT 1 1) message [] =
    .ok (message3 (List.replicate 96 0) (mseT 1 1).hash 3 [] message, c) ∧ At (keyB (List.replicate 96 0) (mseT 1 1).hash) 0 c.rcIn := by
  obtain ⟨c, e, _, h⟩ := createPe3_ok (List.replicate 96 0) (mseT 1 1) message []
  exact ⟨c, e, h⟩

end Verif
