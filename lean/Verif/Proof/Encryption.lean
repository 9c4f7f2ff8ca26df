import Verif.Model.Encryption
import Verif.Spec.Encryption
import Verif.Props.Sha1
import Verif.Proof.RC4
/-! Lemmas on the encrypted handshake. -/

namespace Verif.Pe
open Verif Sha1 BigNum Spec.Mse

theorem hash_length (d : List UInt8) : (Spec.Sha1.hash d).length = 20 := rfl

attribute [local irreducible] Spec.Sha1.hash RC4.skip RC4.ksa Spec.rc4Gen

/-- The generator of `key` after the 1024 discarded bytes and `n` more. -/
def At (key : List UInt8) (n : Nat) (s : RC4.State) : Prop := RC4.RelS s (Spec.rc4Gen key (1024 + n))

theorem at_decode {key : List UInt8} {n : Nat} {s : RC4.State} (h : At key n s) (l : List UInt8) :
    At key (n + l.length) (RC4.decode s l).1 ∧ (RC4.decode s l).2 = crypt key n l := by
  obtain ⟨h1, h2⟩ := RC4.decode_rel key l _ s h
  exact ⟨by rw [At, ← Nat.add_assoc]; exact h1, h2⟩

theorem at_skip {key : List UInt8} {n : Nat} {s : RC4.State} (h : At key n s) (m : Nat) : At key (n + m) (RC4.skip s m) := by
  have := RC4.skip_rel key m _ s h
  rwa [Nat.add_assoc] at this

theorem crypt_length (key : List UInt8) (n : Nat) (l : List UInt8) : (crypt key n l).length = l.length := by simp [crypt]

theorem crypt_append (key : List UInt8) (n : Nat) (a b : List UInt8) :
    crypt key n (a ++ b) = crypt key n a ++ crypt key (n + a.length) b := by
  simp only [crypt, List.mapIdx_append]
  congr 1
  apply List.ext_getElem (by simp)
  intro i h1 h2
  simp only [List.getElem_mapIdx]
  congr 3
  omega

theorem crypt_crypt (key : List UInt8) (n : Nat) (l : List UInt8) : crypt key n (crypt key n l) = l := by
  apply List.ext_getElem (by simp [crypt])
  intro i h1 h2
  simp [crypt, UInt8.xor_assoc]

theorem crypt_take (key : List UInt8) (n m : Nat) (l : List UInt8) : (crypt key n l).take m = crypt key n (l.take m) := by
  apply List.ext_getElem (by simp [crypt])
  intro i h1 h2
  simp [crypt]

theorem crypt_drop (key : List UInt8) (n m : Nat) (l : List UInt8) : (crypt key n l).drop m = crypt key (n + m) (l.drop m) := by
  apply List.ext_getElem (by simp [crypt])
  intro i h1 h2
  simp only [crypt, List.getElem_drop, List.getElem_mapIdx]
  congr 3
  omega

theorem init_at (k : List UInt8) (h : k.length = 20) : ∃ s, RC4.init k = .ok s ∧ At k 0 (RC4.skip s 1024) := by
  have ht : k.take 256 = k := List.take_of_length_le (by omega)
  have hne : k ≠ [] := by intro e; rw [e] at h; cases h
  have he : RC4.init k = .ok { xs := 0, ys := 0, buf := RC4.ksa (k.take 256) 256 0 0 0 RC4.identBuf } := by
    unfold RC4.init; simp only; rw [if_neg (by rw [ht]; exact hne)]
  refine ⟨_, he, ?_⟩
  have := RC4.skip_rel _ 1024 0 _ (RC4.init_rel k _ he)
  rw [ht] at this ⊢
  rw [Nat.zero_add] at this
  exact this

theorem ascii_keyA : ascii "key" ++ [chr 'A'] = ascii "keyA" := by decide
theorem ascii_keyB : ascii "key" ++ [chr 'B'] = ascii "keyB" := by decide

/-- The keys of the initiator. -/
theorem prepare_initiator (S : List UInt8) (t : Torrent) :
    ∃ c, prepareEncryption true S t = .ok c ∧ At (keyA S t.hash) 0 c.rcOut ∧ At (keyB S t.hash) 0 c.rcIn := by
  obtain ⟨sa, ia, aa⟩ := init_at (keyA S t.hash) (hash_length _)
  obtain ⟨sb, ib, ab⟩ := init_at (keyB S t.hash) (hash_length _)
  rw [show keyA S t.hash = Spec.Sha1.hash (ascii "keyA" ++ S ++ t.hash) from rfl] at ia
  rw [show keyB S t.hash = Spec.Sha1.hash (ascii "keyB" ++ S ++ t.hash) from rfl] at ib
  have h : prepareEncryption true S t = .ok ⟨RC4.skip sb 1024, RC4.skip sa 1024⟩ := by
    unfold prepareEncryption
    simp only [if_true, ascii_keyA, ascii_keyB, sha1_ok, Res.bind, ia, ib]
  exact ⟨_, h, aa, ab⟩

/-- The keys of the listener. -/
theorem prepare_listener (S : List UInt8) (t : Torrent) :
    ∃ c, prepareEncryption false S t = .ok c ∧ At (keyB S t.hash) 0 c.rcOut ∧ At (keyA S t.hash) 0 c.rcIn := by
  obtain ⟨sa, ia, aa⟩ := init_at (keyA S t.hash) (hash_length _)
  obtain ⟨sb, ib, ab⟩ := init_at (keyB S t.hash) (hash_length _)
  rw [show keyA S t.hash = Spec.Sha1.hash (ascii "keyA" ++ S ++ t.hash) from rfl] at ia
  rw [show keyB S t.hash = Spec.Sha1.hash (ascii "keyB" ++ S ++ t.hash) from rfl] at ib
  have h : prepareEncryption false S t = .ok ⟨RC4.skip sa 1024, RC4.skip sb 1024⟩ := by
    unfold prepareEncryption
    simp only [Bool.false_eq_true, if_false, ascii_keyA, ascii_keyB, sha1_ok, Res.bind, ia, ib]
  exact ⟨_, h, ab, aa⟩

/-- The initiator sends message 3 of the standard. -/
theorem createPe3_ok (S : List UInt8) (t : Torrent) (message pad : List UInt8) :
    ∃ c, createPe3 S t message pad = .ok (message3 S t.hash 3 pad message, c) ∧
      At (keyA S t.hash) (16 + pad.length + message.length) c.rcOut ∧ At (keyB S t.hash) 0 c.rcIn := by
  obtain ⟨c, e, h1, h2⟩ := prepare_initiator S t
  obtain ⟨h3, h4⟩ := at_decode h1 (pe3Plain pad message)
  refine ⟨{ c with rcOut := (RC4.decode c.rcOut (pe3Plain pad message)).1 }, ?_, ?_, h2⟩
  · unfold createPe3
    simp only [sha1_ok, Res.bind, e, RC4.encode, h4]
    congr 2
    unfold message3 names header
    have hx : ∀ a b : List UInt8, List.zipWith (· ^^^ ·) a b = List.zipWith (· ^^^ ·) b a := by
      intro a b
      induction a generalizing b with
      | nil => cases b <;> rfl
      | cons x a ih => cases b with
        | nil => rfl
        | cons y b => simp only [List.zipWith_cons_cons, ih, UInt8.xor_comm]
    rw [hx]
    rfl
  · have : 0 + (pe3Plain pad message).length = 16 + pad.length + message.length := by
      simp [pe3Plain]; omega
    rw [this] at h3
    dsimp only
    exact h3

theorem take_eq_iff (l p : List UInt8) : l.take p.length = p ↔ p <+: l := by
  rw [List.prefix_iff_eq_take]; exact ⟨Eq.symm, Eq.symm⟩

theorem search_eq_some {data pat : List UInt8} : ∀ {n pos q : Nat}, search data pat n pos = some q →
    pos ≤ q ∧ q < pos + n ∧ pat <+: data.drop q ∧ ∀ m, pos ≤ m → m < q → ¬ pat <+: data.drop m
  | 0, _, _, h => by simp [search] at h
  | n + 1, pos, q, h => by
    rw [search] at h
    split at h
    · rename_i hp
      cases h
      exact ⟨by omega, by omega, (take_eq_iff _ _).1 hp, fun m h1 h2 => by omega⟩
    · rename_i hp
      obtain ⟨h1, h2, h3, h4⟩ := search_eq_some h
      refine ⟨by omega, by omega, h3, fun m hm1 hm2 => ?_⟩
      by_cases e : m = pos
      · subst e; intro hh; exact hp ((take_eq_iff _ _).2 hh)
      · exact h4 m (by omega) hm2

theorem search_eq_none {data pat : List UInt8} : ∀ {n pos : Nat}, search data pat n pos = none →
    ∀ m, pos ≤ m → m < pos + n → ¬ pat <+: data.drop m
  | 0, _, _, m, h1, h2 => by omega
  | n + 1, pos, h, m, h1, h2 => by
    rw [search] at h
    split at h
    · cases h
    · rename_i hp
      by_cases e : m = pos
      · subst e; intro hh; exact hp ((take_eq_iff _ _).2 hh)
      · exact search_eq_none h m (by omega) (by omega)

theorem prefix_drop_take {p l : List UInt8} {m n : Nat} (h : p <+: (l.take m).drop n) : p <+: l.drop n := by
  rw [List.drop_take] at h
  exact h.trans (List.take_prefix _ _)

/-- In a part of the data the search finds the first place or nothing. -/
theorem search_part {data pat : List UInt8} {n m k : Nat} (h : FirstAt data pat n) (hm : k + pat.length ≤ m + 1) :
    search (data.take m) pat k 0 = if n < k then some n else none := by
  cases hs : search (data.take m) pat k 0 with
  | some q =>
    obtain ⟨_, h2, h3, h4⟩ := search_eq_some hs
    have hq : n ≤ q := by
      rcases Nat.lt_or_ge q n with hlt | hge
      · exact absurd (prefix_drop_take h3) (h.2 q hlt)
      · exact hge
    have hn : n < k := by omega
    rw [if_pos hn]
    by_cases e : n = q
    · rw [e]
    · exfalso
      apply h4 n (by omega) (by omega)
      rw [List.drop_take]
      have hl := h.1
      rw [List.prefix_iff_eq_take] at hl ⊢
      rw [List.take_take, Nat.min_eq_left (by omega)]
      exact hl
  | none =>
    by_cases hn : n < k
    · exfalso
      apply search_eq_none hs n (by omega) (by omega)
      rw [List.drop_take]
      have hl := h.1
      rw [List.prefix_iff_eq_take] at hl ⊢
      rw [List.take_take, Nat.min_eq_left (by omega)]
      exact hl
    · rw [if_neg hn]

/-- What the listener decrypts of message 3. -/
def plain3 (provide : Nat) (padC ia : List UInt8) : List UInt8 := header provide padC ++ be16 ia.length ++ ia

theorem plain3_length (provide : Nat) (padC ia : List UInt8) : (plain3 provide padC ia).length = 16 + padC.length + ia.length := by
  simp [plain3, header]; omega

theorem header_take (options : Nat) (pad rest : List UInt8) :
    (header options pad ++ rest).take 14 = List.replicate 8 0 ++ (be32 options ++ be16 pad.length) := by
  simp [header, be32, be16, List.take_append]

theorem plain3_drop (provide : Nat) (padC ia : List UInt8) : (plain3 provide padC ia).drop (14 + padC.length) = be16 ia.length ++ ia := by
  have : (header provide padC).length = 14 + padC.length := by simp [header]; omega
  rw [plain3, List.append_assoc, ← this, List.drop_left']
  rfl

/-- The encrypted part of message 3, of which `e` bytes have arrived. -/
theorem readPe3Encrypted_ok {h : Handshake} {c : Cipher} {key data ia padC : List UInt8} {minimum pos provide e : Nat} {k : Kind}
    (hc : At key 0 c.rcIn) (hk : kindOf provide = some k) (hp : provide < 4294967296) (hpad : padC.length < 65536)
    (hia : ia.length < 65536) (he : 16 ≤ e) (hee : e ≤ (plain3 provide padC ia).length)
    (hd : data.drop pos = (crypt key 0 (plain3 provide padC ia)).take e) (hl : data.length = pos + e) :
    (e = (plain3 provide padC ia).length → ∃ s, At key e s ∧ readPe3Encrypted h c data minimum pos = (data.length, { h with
      pe := some { c with rcIn := s }, kind := k, message := ia, step := .established })) ∧
    (e < (plain3 provide padC ia).length → ∃ p, readPe3Encrypted h c data minimum pos = (minimum, { h with pe := p, kind := k })) := by
  have hlen := plain3_length provide padC ia
  have h14 : (data.drop pos).take 14 = crypt key 0 (List.replicate 8 0 ++ (be32 provide ++ be16 padC.length)) := by
    rw [hd, List.take_take, Nat.min_eq_left (by omega), crypt_take, plain3, List.append_assoc, header_take]
  obtain ⟨a1, a2⟩ := at_decode hc ((data.drop pos).take 14)
  rw [h14, crypt_crypt] at a2
  rw [h14, crypt_length] at a1
  have b8 : (List.replicate 8 (0 : UInt8) ++ (be32 provide ++ be16 padC.length)).take 8 = List.replicate 8 0 := by
    simp
  have b4 : ((List.replicate 8 (0 : UInt8) ++ (be32 provide ++ be16 padC.length)).drop 8).take 4 = be32 provide := by
    simp [be32]
  have b2 : ((List.replicate 8 (0 : UInt8) ++ (be32 provide ++ be16 padC.length)).drop 12).take 2 = be16 padC.length := by
    simp [be32, be16]
  have a1' : At key 14 (RC4.decode c.rcIn (crypt key 0 (List.replicate 8 0 ++ (be32 provide ++ be16 padC.length)))).1 := by
    have : 0 + (List.replicate 8 (0 : UInt8) ++ (be32 provide ++ be16 padC.length)).length = 14 := by simp
    rw [this] at a1; exact a1
  generalize hdec : RC4.decode c.rcIn (crypt key 0 (List.replicate 8 0 ++ (be32 provide ++ be16 padC.length))) = d at a1' a2
  unfold readPe3Encrypted
  rw [h14, hdec]
  dsimp only
  rw [a2, b8, b4, b2, if_neg (by decide), beVal_be32 _ hp, hk, beVal_be16 _ hpad]
  dsimp only
  by_cases hshort : pos + 14 + padC.length + 2 > data.length
  · rw [if_pos hshort]
    exact ⟨fun he' => by omega, fun _ => ⟨_, rfl⟩⟩
  · rw [if_neg hshort]
    have hrest : data.drop (pos + 14 + padC.length) = crypt key (14 + padC.length) ((be16 ia.length ++ ia).take (e - (14 + padC.length))) := by
      rw [Nat.add_assoc, ← List.drop_drop, hd, List.drop_take, crypt_drop, plain3_drop, crypt_take, Nat.zero_add]
    obtain ⟨s1, s2⟩ := at_decode (at_skip a1' padC.length) (data.drop (pos + 14 + padC.length))
    rw [hrest, crypt_crypt] at s2
    rw [hrest, crypt_length] at s1
    rw [hrest]
    generalize RC4.decode (RC4.skip d.1 padC.length) (crypt key (14 + padC.length) ((be16 ia.length ++ ia).take (e - (14 + padC.length)))) = g at s1 s2
    have t2 : ((be16 ia.length ++ ia).take (e - (14 + padC.length))).take 2 = be16 ia.length := by
      rw [List.take_take, Nat.min_eq_left (by omega)]
      simp [be16]
    have d2 : ((be16 ia.length ++ ia).take (e - (14 + padC.length))).drop 2 = ia.take (e - (16 + padC.length)) := by
      rw [List.drop_take, show (be16 ia.length ++ ia).drop 2 = ia by simp [be16]]
      congr 1; omega
    unfold readPe3Message
    dsimp only
    rw [s2, t2, d2, beVal_be16 _ hia]
    have hl2 : (ia.take (e - (16 + padC.length))).length = e - (16 + padC.length) := by rw [List.length_take]; omega
    rw [hl2]
    constructor
    · intro he'
      refine ⟨g.1, ?_, ?_⟩
      · have : 14 + padC.length + ((be16 ia.length ++ ia).take (e - (14 + padC.length))).length = e := by
          rw [List.length_take, List.length_append, be16_length]; omega
        rw [this] at s1
        exact s1
      · rw [if_neg (by omega), if_pos (by omega), List.take_take, List.take_of_length_le (by omega)]
    · intro he'
      rw [if_pos (by omega)]
      exact ⟨_, rfl⟩

/-- The torrent is looked for with the 20 bytes that name it. -/
theorem find_take (l : Listener) (data key : List UInt8) : findByPe3Hash l data key = findByPe3Hash l (data.take 20) key := by
  unfold findByPe3Hash
  congr 2
  funext e
  unfold matches'
  rw [Bool.eq_iff_iff, List.all_eq_true, List.all_eq_true]
  have : ∀ i, i ∈ List.range 20 → data.getD i 0 = (data.take 20).getD i 0 := by
    intro i hi
    have := List.mem_range.1 hi
    simp [List.getD, this]
  constructor
  · intro h i hi; rw [← this i hi]; exact h i hi
  · intro h i hi; rw [this i hi]; exact h i hi

theorem names_length (S H : List UInt8) : (names S H).length = 20 := by
  simp [names, hash_length]

theorem message3_length (S H : List UInt8) (provide : Nat) (padC ia : List UInt8) :
    (message3 S H provide padC ia).length = 40 + (plain3 provide padC ia).length := by
  simp only [message3, List.length_append, hash_length, names_length, crypt_length, plain3]

/-- The listener, with `m` bytes of what comes before message 3 and of message 3. -/
theorem readPe3_part {h : Handshake} {l : Listener} {S H junk padC ia : List UInt8} {provide m : Nat}
    (hS : S = secretBytes h.shared) (hf : FirstAt (junk ++ message3 S H provide padC ia) (Spec.Sha1.hash (ascii "req1" ++ S)) junk.length)
    (hm : m ≤ (junk ++ message3 S H provide padC ia).length) :
    readPe3 h l ((junk ++ message3 S H provide padC ia).take m) =
      if m < junk.length + 56 then .ok (0, h)
      else readPe3At h l S ((junk ++ message3 S H provide padC ia).take m) junk.length := by
  unfold readPe3
  have hl : ((junk ++ message3 S H provide padC ia).take m).length = m := by rw [List.length_take]; omega
  rw [hl, ← hS]
  have hz : pe3Size = 54 := rfl
  by_cases h1 : m < pe3Size + 2
  · rw [if_pos h1, if_pos (by omega)]
  · rw [if_neg h1]
    simp only [sha1_ok, Res.bind]
    rw [search_part hf (by rw [hash_length]; omega)]
    by_cases h2 : m < junk.length + 56
    · rw [if_pos h2, if_neg (by omega)]
    · rw [if_neg h2, if_pos (by omega)]

theorem message3_parts (S H : List UInt8) (provide : Nat) (padC ia : List UInt8) :
    message3 S H provide padC ia = Spec.Sha1.hash (ascii "req1" ++ S) ++ names S H ++ crypt (keyA S H) 0 (plain3 provide padC ia) := rfl

theorem drop_message3 (junk S H : List UInt8) (provide : Nat) (padC ia : List UInt8) :
    (junk ++ message3 S H provide padC ia).drop (junk.length + 40) = crypt (keyA S H) 0 (plain3 provide padC ia) := by
  rw [message3_parts, ← List.append_assoc]
  apply List.drop_left'
  simp only [List.length_append, hash_length, names_length]

theorem names_at (junk S H : List UInt8) (provide : Nat) (padC ia : List UInt8) {m : Nat} (hm : junk.length + 40 ≤ m) :
    (((junk ++ message3 S H provide padC ia).take m).drop (junk.length + 20)).take 20 = names S H := by
  rw [List.drop_take, List.take_take, Nat.min_eq_left (by omega), message3_parts, List.append_assoc, ← List.append_assoc]
  rw [List.drop_left' (by simp only [List.length_append, hash_length])]
  exact List.take_left' (names_length S H)

/-- The listener finds a torrent, or refuses. -/
theorem readPe3At_find (h : Handshake) (l : Listener) (S H junk padC ia : List UInt8) (provide : Nat) {m : Nat} (hm : junk.length + 56 ≤ m) :
    readPe3At h l S ((junk ++ message3 S H provide padC ia).take m) junk.length =
      match findByPe3Hash l (names S H) (ascii "req3" ++ S) with
      | none => .ok (((junk ++ message3 S H provide padC ia).take m).length, { h with infoHash := none, step := .error })
      | some t => (prepareEncryption false S t).bind fun c =>
          .ok (readPe3Encrypted { h with infoHash := some t } c ((junk ++ message3 S H provide padC ia).take m) junk.length (junk.length + 40)) := by
  unfold readPe3At
  rw [find_take, names_at _ _ _ _ _ _ (by omega)]
  simp only [sha1_ok, Res.bind]
  cases findByPe3Hash l (names S H) (ascii "req3" ++ S) <;> rfl

/-- The listener, when the torrent found is the one meant. -/
theorem listener_part {h : Handshake} {l : Listener} {S junk padC ia : List UInt8} {provide m : Nat} {t : Torrent} {k : Kind}
    (hS : S = secretBytes h.shared) (hf : FirstAt (junk ++ message3 S t.hash provide padC ia) (Spec.Sha1.hash (ascii "req1" ++ S)) junk.length)
    (hm : m ≤ (junk ++ message3 S t.hash provide padC ia).length)
    (ht : findByPe3Hash l (names S t.hash) (ascii "req3" ++ S) = some t) (hk : kindOf provide = some k) (hp : provide < 4294967296)
    (hpad : padC.length < 65536) (hia : ia.length < 65536) :
    (m = (junk ++ message3 S t.hash provide padC ia).length → ∃ c, At (keyA S t.hash) (16 + padC.length + ia.length) c.rcIn ∧
      At (keyB S t.hash) 0 c.rcOut ∧ readPe3 h l ((junk ++ message3 S t.hash provide padC ia).take m) =
        .ok (m, { h with infoHash := some t, pe := some c, kind := k, message := ia, step := .established })) ∧
    (m < (junk ++ message3 S t.hash provide padC ia).length → ∃ r h', readPe3 h l ((junk ++ message3 S t.hash provide padC ia).take m) =
      .ok (r, h') ∧ r ≤ junk.length ∧ r ≤ m ∧ h'.step = h.step ∧ h'.shared = h.shared ∧ h'.dh = h.dh) := by
  have hl : (junk ++ message3 S t.hash provide padC ia).length = junk.length + 40 + (plain3 provide padC ia).length := by
    rw [List.length_append, message3_length]; omega
  have hlt : ((junk ++ message3 S t.hash provide padC ia).take m).length = m := by rw [List.length_take]; omega
  have h16 := plain3_length provide padC ia
  rw [readPe3_part hS hf hm]
  by_cases h1 : m < junk.length + 56
  · rw [if_pos h1]
    exact ⟨fun e => by omega, fun _ => ⟨0, h, rfl, by omega, by omega, rfl, rfl, rfl⟩⟩
  · rw [if_neg h1, readPe3At_find _ _ _ _ _ _ _ _ (by omega), ht]
    obtain ⟨c, e, c1, c2⟩ := prepare_listener S t
    simp only [e, Res.bind]
    obtain ⟨r1, r2⟩ := readPe3Encrypted_ok (h := { h with infoHash := some t }) (c := c) (key := keyA S t.hash)
      (data := (junk ++ message3 S t.hash provide padC ia).take m) (ia := ia) (padC := padC) (minimum := junk.length)
      (pos := junk.length + 40) (provide := provide) (e := m - (junk.length + 40)) (k := k) c2 hk hp hpad hia (by omega) (by omega)
      (by rw [List.drop_take, drop_message3]) (by rw [hlt]; omega)
    constructor
    · intro he
      obtain ⟨s, s1, s2⟩ := r1 (by omega)
      rw [s2, hlt]
      refine ⟨{ c with rcIn := s }, ?_, c1, rfl⟩
      dsimp only
      have : m - (junk.length + 40) = 16 + padC.length + ia.length := by omega
      rw [← this]; exact s1
    · intro he
      obtain ⟨p, hp'⟩ := r2 (by omega)
      rw [hp']
      exact ⟨_, _, rfl, by omega, by omega, rfl, rfl, rfl⟩

theorem firstAt_drop {junk msg pat : List UInt8} {k : Nat} (h : FirstAt (junk ++ msg) pat junk.length) (hk : k ≤ junk.length) :
    FirstAt (junk.drop k ++ msg) pat (junk.drop k).length := by
  have e : junk.drop k ++ msg = (junk ++ msg).drop k := (List.drop_append_of_le_length hk).symm
  rw [e]
  constructor
  · rw [List.drop_drop, List.length_drop, show k + (junk.length - k) = junk.length by omega]
    exact h.1
  · intro m hm
    rw [List.drop_drop]
    rw [List.length_drop] at hm
    exact h.2 _ (by omega)

/-- The options the listener answers with. -/
def selected (k : Kind) : Nat := if k = .rc4 then 2 else 1

theorem createPe4_ok {S H : List UInt8} {k : Kind} {c : Cipher} (hc : At (keyB S H) 0 c.rcOut) (pad : List UInt8) :
    (createPe4 k c pad).1 = message4 S H (selected k) pad ∧ (createPe4 k c pad).2.rcIn = c.rcIn ∧
      At (keyB S H) (14 + pad.length) (createPe4 k c pad).2.rcOut := by
  obtain ⟨h1, h2⟩ := at_decode hc (header (selected k) pad)
  have h0 : 0 + (header (selected k) pad).length = 14 + pad.length := by simp [header]; omega
  rw [h0] at h1
  have e : createPe4 k c pad = ((RC4.decode c.rcOut (header (selected k) pad)).2, { c with rcOut := (RC4.decode c.rcOut (header (selected k) pad)).1 }) := by
    simp only [createPe4, RC4.encode, header, selected]
  rw [e]
  dsimp only
  exact ⟨h2, rfl, h1⟩

theorem receiveAll_pieces {l : Listener} {S padC padD ia : List UInt8} {provide : Nat} {t : Torrent} {k : Kind} :
    ∀ (chunks : List (List UInt8)) (junk : List UInt8) (s : Incoming) (m : Nat), S = secretBytes s.h.shared → s.h.step = .pe3 →
    FirstAt (junk ++ message3 S t.hash provide padC ia) (Spec.Sha1.hash (ascii "req1" ++ S)) junk.length →
    findByPe3Hash l (names S t.hash) (ascii "req3" ++ S) = some t → kindOf provide = some k → provide < 4294967296 →
    padC.length < 65536 → ia.length < 65536 → m < (junk ++ message3 S t.hash provide padC ia).length →
    s.buffer = (junk ++ message3 S t.hash provide padC ia).take m →
    s.buffer ++ chunks.flatten = junk ++ message3 S t.hash provide padC ia →
    ∃ h c, receiveAll l padD s chunks = .ok (⟨h, []⟩, message4 S t.hash (selected k) padD) ∧ h.step = .established ∧
      h.infoHash = some t ∧ h.message = ia ∧ h.kind = k ∧ h.pe = some c ∧ At (keyA S t.hash) (16 + padC.length + ia.length) c.rcIn ∧
      At (keyB S t.hash) (14 + padD.length) c.rcOut := by
  intro chunks
  induction chunks with
  | nil =>
    intro junk s m hS hst hf ht hk hp hpad hia hm hb hfl
    exfalso
    rw [List.flatten_nil, List.append_nil, hb] at hfl
    have := congrArg List.length hfl
    rw [List.length_take] at this
    omega
  | cons ch chs ih =>
    intro junk s m hS hst hf ht hk hp hpad hia hm hb hfl
    generalize hY : junk ++ message3 S t.hash provide padC ia = Y at *
    rw [List.flatten_cons, ← List.append_assoc] at hfl
    have hdata : s.buffer ++ ch = Y.take (s.buffer ++ ch).length := by rw [← hfl, List.take_left' rfl]
    have hle : (s.buffer ++ ch).length ≤ Y.length := by rw [← hfl, List.length_append (as := s.buffer ++ ch)]; omega
    have h20 : 56 ≤ Y.length := by rw [← hY, List.length_append, message3_length, plain3_length]; omega
    obtain ⟨l1, l2⟩ := listener_part (m := (s.buffer ++ ch).length) hS (hY ▸ hf) (by rw [hY]; exact hle) ht hk hp hpad hia
    rw [hY] at l1 l2
    rw [← hdata] at l1 l2
    unfold receiveAll receive
    by_cases hfull : (s.buffer ++ ch).length = Y.length
    · obtain ⟨c, c1, c2, c3⟩ := l1 hfull
      obtain ⟨p1, p2, p3⟩ := createPe4_ok (k := k) c2 padD
      have hrest : chs.flatten = [] := by
        have := congrArg List.length hfl
        rw [List.length_append] at this
        exact List.length_eq_zero_iff.1 (by omega)
      have hread : readAsListener s.h l (s.buffer ++ ch) padD = .ok ((s.buffer ++ ch).length, message4 S t.hash (selected k) padD,
          { s.h with infoHash := some t, pe := some (createPe4 k c padD).2, kind := k, message := ia, step := .established }) := by
        unfold readAsListener
        rw [hst]
        dsimp only
        rw [c3]
        simp only [Res.bind, p1, ne_eq, not_true_eq_false, if_false]
      dsimp only
      rw [if_neg (by omega), hread]
      simp only [Res.bind, List.drop_length]
      have hdone : ∀ (cs : List (List UInt8)) (h : Handshake), cs.flatten = [] → h.step = .established →
          receiveAll l padD ⟨h, []⟩ cs = .ok (⟨h, []⟩, []) := by
        intro cs h
        induction cs with
        | nil => intro _ _; rfl
        | cons d ds ihd =>
          intro e he
          rw [List.flatten_cons] at e
          obtain ⟨e1, e2⟩ := List.append_eq_nil_iff.1 e
          subst e1
          unfold receiveAll receive
          simp only [List.append_nil, List.length_nil]
          rw [if_pos (by omega)]
          simp only [Res.bind]
          rw [ihd e2 he]
          rfl
      rw [hdone chs _ hrest rfl]
      refine ⟨{ s.h with infoHash := some t, pe := some (createPe4 k c padD).2, kind := k, message := ia, step := .established },
        (createPe4 k c padD).2, ?_, rfl, rfl, rfl, rfl, rfl, p2 ▸ c1, p3⟩
      dsimp only
      rw [List.append_nil]
    · have hlt : (s.buffer ++ ch).length < Y.length := by omega
      by_cases hs : (s.buffer ++ ch).length < 20
      · dsimp only
        rw [if_pos hs]
        simp only [Res.bind]
        obtain ⟨h, c, e, r⟩ := ih junk ⟨s.h, s.buffer ++ ch⟩ (s.buffer ++ ch).length hS hst (hY ▸ hf) ht hk hp hpad hia (by rw [hY]; exact hlt)
          (by rw [hY]; exact hdata) (by rw [hY]; exact hfl)
        rw [e]
        exact ⟨h, c, rfl, r⟩
      · obtain ⟨r, h', e1, e2, e3, e4, e5, e6⟩ := l2 hlt
        have hread : readAsListener s.h l (s.buffer ++ ch) padD = .ok (r, [], h') := by
          unfold readAsListener
          rw [hst]
          dsimp only
          rw [e1]
          simp only [Res.bind]
          rw [if_pos (by rw [e4, hst]; decide)]
        dsimp only
        rw [if_neg hs, hread]
        simp only [Res.bind]
        have hd : junk.drop r ++ message3 S t.hash provide padC ia = Y.drop r := by
          rw [← hY]; exact (List.drop_append_of_le_length e2).symm
        obtain ⟨h, c, e, q⟩ := ih (junk.drop r) ⟨h', (s.buffer ++ ch).drop r⟩ ((s.buffer ++ ch).length - r) (by rw [e5]; exact hS)
          (by rw [e4]; exact hst) (firstAt_drop (hY ▸ hf) e2) ht hk hp hpad hia (by rw [hd, List.length_drop]; omega)
          (by rw [hd, ← List.drop_take, ← hdata]) (by rw [hd, ← hfl, List.drop_append_of_le_length e3])
        rw [e]
        exact ⟨h, c, rfl, q⟩

/-- The initiator reads message 4, if that is complete the first time it looks. -/
theorem readPe4_ok {h : Handshake} {c : Cipher} {S H junk padD payload : List UInt8} {select : Nat} {k : Kind} (hpe : h.pe = some c)
    (hc : At (keyB S H) 0 c.rcIn)
    (hf : FirstAt (junk ++ message4 S H select padD ++ payload) (crypt (keyB S H) 0 (List.replicate 8 0)) junk.length)
    (hk : kindOf select = some k) (hs : select < 4294967296) (hpad : padD.length < 65536) :
    ∃ s, At (keyB S H) (14 + padD.length) s ∧ readPe4 h (junk ++ message4 S H select padD ++ payload) =
      .ok (junk.length + 14 + padD.length, { h with kind := k, pe := some { c with rcIn := s }, step := .established }) := by
  have hml : (message4 S H select padD).length = 14 + padD.length := by simp [message4, crypt_length, header]; omega
  generalize hY : junk ++ message4 S H select padD ++ payload = Y at *
  have hl : Y.length = junk.length + (14 + padD.length) + payload.length := by rw [← hY]; simp only [List.length_append, hml]
  obtain ⟨v1, v2⟩ := at_decode hc (List.replicate 8 0)
  rw [List.length_replicate, Nat.zero_add] at v1
  have hsearch : search Y (crypt (keyB S H) 0 (List.replicate 8 0)) (Y.length - 14 + 1) 0 = some junk.length := by
    have := search_part hf (m := Y.length) (k := Y.length - 14 + 1) (by rw [crypt_length, List.length_replicate]; omega)
    rw [List.take_length, if_pos (by omega)] at this
    exact this
  unfold readPe4
  rw [if_neg (by omega), hpe]
  dsimp only
  rw [v2, hsearch]
  dsimp only
  generalize (RC4.decode c.rcIn (List.replicate 8 0)).1 = g at v1
  have h6 : (Y.drop (junk.length + 8)).take 6 = crypt (keyB S H) 8 (be32 select ++ be16 padD.length) := by
    rw [← hY, List.append_assoc, ← List.drop_drop, List.drop_left' rfl, List.drop_append_of_le_length (by omega),
      List.take_append_of_le_length (by rw [List.length_drop]; omega), message4, crypt_drop, crypt_take]
    congr 1
  obtain ⟨w1, w2⟩ := at_decode v1 ((Y.drop (junk.length + 8)).take 6)
  rw [h6, crypt_crypt] at w2
  rw [h6, crypt_length] at w1
  have w1' : At (keyB S H) 14 (RC4.decode g (crypt (keyB S H) 8 (be32 select ++ be16 padD.length))).1 := w1
  generalize hdec : RC4.decode g (crypt (keyB S H) 8 (be32 select ++ be16 padD.length)) = d at w1' w2
  unfold readPe4At
  dsimp only
  rw [h6, hdec, w2, show (be32 select ++ be16 padD.length).take 4 = be32 select by simp [be32],
    show ((be32 select ++ be16 padD.length).drop 4).take 2 = be16 padD.length by simp [be32, be16],
    beVal_be32 _ hs, hk, beVal_be16 _ hpad]
  dsimp only
  rw [if_neg (by omega)]
  exact ⟨_, at_skip w1' padD.length, rfl⟩

end Verif.Pe
