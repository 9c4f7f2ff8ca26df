import Verif.Proof.Encryption
import Verif.Props.KeyExchange
/-! Property C29: encrypted connections from outside reach the right torrent. -/

namespace Verif
open Pe Sha1 Spec.Mse

attribute [local irreducible] Spec.Sha1.hash RC4.skip RC4.ksa Spec.rc4Gen

/-! ### The torrents served -/

theorem mse_bind {α β : Type} {x : Res α} {f : α → Res β} {b : β} (h : x.bind f = .ok b) : ∃ a, x = .ok a ∧ f a = .ok b := by
  cases x with
  | ok a => exact ⟨a, rfl, h⟩
  | ub => cases h
  | diverge => cases h

theorem mse_insert_mem {t : Torrent} {r : List UInt8} : ∀ {l : Listener} {e}, e ∈ Pe.insert t r l → e = (t, r) ∨ e ∈ l
  | [], e, h => by simp only [Pe.insert, List.mem_singleton] at h; exact Or.inl h
  | a :: l, e, h => by
    rw [Pe.insert] at h
    split at h
    · rcases List.mem_cons.1 h with h | h
      · exact .inl h
      · exact .inr (List.mem_cons_of_mem _ h)
    · split at h
      · rcases List.mem_cons.1 h with h | h
        · exact .inl h
        · exact .inr h
      · rcases List.mem_cons.1 h with h | h
        · exact .inr (h ▸ List.mem_cons_self)
        · rcases mse_insert_mem h with h | h
          · exact .inl h
          · exact .inr (List.mem_cons_of_mem _ h)

theorem mse_addTorrent (l : Listener) (t : Torrent) : addTorrent l t = .ok (Pe.insert t (Spec.Sha1.hash (ascii "req2" ++ t.hash)) l) := by
  simp only [addTorrent, sha1_ok, Res.map']

theorem mse_addAll_mem {ts : List Torrent} : ∀ {l0 l : Listener}, addAll l0 ts = .ok l →
    ∀ e ∈ l, e ∈ l0 ∨ (e.1 ∈ ts ∧ e.2 = Spec.Sha1.hash (ascii "req2" ++ e.1.hash)) := by
  induction ts with
  | nil => intro l0 l h e he; cases h; exact .inl he
  | cons t ts ih =>
    intro l0 l h e he
    rw [addAll, mse_addTorrent] at h
    simp only [Res.bind] at h
    rcases ih h e he with h1 | ⟨h1, h2⟩
    · rcases mse_insert_mem h1 with h3 | h3
      · subst h3; exact .inr ⟨List.mem_cons_self, rfl⟩
      · exact .inl h3
    · exact .inr ⟨List.mem_cons_of_mem _ h1, h2⟩

/-- The torrent with the lowest address comes first. -/
theorem mse_insert_head {t u : Torrent} {r : List UInt8} {l : Listener} (h : l.head? = some (t, r)) (hu : u = t ∨ t.addr < u.addr) :
    (Pe.insert u (Spec.Sha1.hash (ascii "req2" ++ u.hash)) l).head? = some (t, Spec.Sha1.hash (ascii "req2" ++ t.hash)) ∨
    (Pe.insert u (Spec.Sha1.hash (ascii "req2" ++ u.hash)) l).head? = some (t, r) := by
  cases l with
  | nil => cases h
  | cons a l =>
    simp only [List.head?_cons, Option.some.injEq] at h
    subst h
    rw [Pe.insert]
    rcases hu with hu | hu
    · subst hu; simp
    · rw [if_neg (by dsimp only; omega), if_neg (by dsimp only; omega)]; simp

theorem mse_addAll_head' {ts : List Torrent} {t : Torrent} : ∀ {l0 l : Listener}, addAll l0 ts = .ok l →
    l0.head? = some (t, Spec.Sha1.hash (ascii "req2" ++ t.hash)) → (∀ u ∈ ts, u = t ∨ t.addr < u.addr) →
    l.head? = some (t, Spec.Sha1.hash (ascii "req2" ++ t.hash)) := by
  induction ts with
  | nil => intro l0 l h h0 _; cases h; exact h0
  | cons u ts ih =>
    intro l0 l h h0 hu
    rw [addAll, mse_addTorrent] at h
    simp only [Res.bind] at h
    refine ih h ?_ (fun v hv => hu v (List.mem_cons_of_mem _ hv))
    rcases mse_insert_head h0 (hu u List.mem_cons_self) with h | h <;> exact h

theorem mse_addAll_head {ts : List Torrent} {t : Torrent} : ∀ {l0 l : Listener}, addAll l0 ts = .ok l → t ∈ ts →
    (∀ e ∈ l0, t.addr < e.1.addr) → (∀ u ∈ ts, u = t ∨ t.addr < u.addr) →
    l.head? = some (t, Spec.Sha1.hash (ascii "req2" ++ t.hash)) := by
  induction ts with
  | nil => intro l0 l _ h; cases h
  | cons u ts ih =>
    intro l0 l h ht h0 hu
    rw [addAll, mse_addTorrent] at h
    simp only [Res.bind] at h
    by_cases hut : u = t
    · subst hut
      refine mse_addAll_head' h ?_ (fun v hv => hu v (List.mem_cons_of_mem _ hv))
      cases l0 with
      | nil => rfl
      | cons a l0 =>
        have := h0 a List.mem_cons_self
        rw [Pe.insert, if_neg (by omega), if_pos this]
        rfl
    · refine ih h (by rcases List.mem_cons.1 ht with h | h; exact absurd h.symm hut; exact h) ?_ (fun v hv => hu v (List.mem_cons_of_mem _ hv))
      intro e he
      rcases mse_insert_mem he with h | h
      · subst h; exact (hu u List.mem_cons_self).resolve_left hut
      · exact h0 e h

theorem mse_names_getD (S H : List UInt8) {i : Nat} (hi : i < 20) :
    (names S H).getD i 0 = (Spec.Sha1.hash (ascii "req2" ++ H)).getD i 0 ^^^ (Spec.Sha1.hash (ascii "req3" ++ S)).getD i 0 := by
  have h1 := hash_length (ascii "req2" ++ H)
  have h2 := hash_length (ascii "req3" ++ S)
  unfold names
  simp [List.getD, h1, h2, hi]

/-- The comparison, for the torrent meant. -/
theorem mse_matches (S : List UInt8) (H : List UInt8)
    (h : ∀ i, i < 20 → (Spec.Sha1.hash (ascii "req3" ++ S)).getD i 0 ≠ (ascii "req3" ++ S).getD i 0) :
    matches' (names S H) (Spec.Sha1.hash (ascii "req2" ++ H)) (ascii "req3" ++ S) = true := by
  unfold matches'
  rw [List.all_eq_true]
  intro i hi
  have hi := List.mem_range.1 hi
  rw [bne_iff_ne, mse_names_getD S H hi]
  intro e
  apply h i hi
  have := congrArg (fun x => (Spec.Sha1.hash (ascii "req2" ++ H)).getD i 0 ^^^ x) e
  simpa [← UInt8.xor_assoc] using this

theorem mse_find_first {ts : List Torrent} {t : Torrent} {l : Listener} {S : List UInt8} (hl : addAll [] ts = .ok l) (ht : t ∈ ts)
    (hu : ∀ u ∈ ts, u = t ∨ t.addr < u.addr)
    (h : ∀ i, i < 20 → (Spec.Sha1.hash (ascii "req3" ++ S)).getD i 0 ≠ (ascii "req3" ++ S).getD i 0) :
    findByPe3Hash l (names S t.hash) (ascii "req3" ++ S) = some t := by
  have hh := mse_addAll_head hl ht (fun e he => by cases he) hu
  cases l with
  | nil => cases hh
  | cons a l =>
    simp only [List.head?_cons, Option.some.injEq] at hh
    subst hh
    unfold findByPe3Hash
    rw [List.find?_cons_of_pos]
    · rfl
    · exact mse_matches S t.hash h

/-! ### What is proved of C29 -/

/-- C29, where it holds: the torrent asked for is the one with the lowest address among those served (for instance the only one), and
no byte of SHA1("req3" S) equals the byte of "req3" S at its place. Then whatever padding of the key exchange is still in flight, and
however the bytes arrive in pieces, the handshake is finished with exactly that torrent, the initial message of the peer and the
answer of the standard: RC4 if it is offered, plain text otherwise. `FirstAt` excludes that the padding contains the 20 bytes of the
hash by chance. -/
theorem C29_first_partial {ts : List Torrent} {t : Torrent} {l : Listener} {h : Handshake} {S late padC padD ia : List UInt8} {provide : Nat}
    (chunks : List (List UInt8)) (hl : addAll [] ts = .ok l) (ht : t ∈ ts) (hu : ∀ u ∈ ts, u = t ∨ t.addr < u.addr)
    (hs : h.step = .pe3) (hS : S = secretBytes h.shared)
    (hb : ∀ i, i < 20 → (Spec.Sha1.hash (ascii "req3" ++ S)).getD i 0 ≠ (ascii "req3" ++ S).getD i 0)
    (hp : provide % 4 ≠ 0) (hp' : provide < 2 ^ 32) (hpad : padC.length < 2 ^ 16) (hia : ia.length < 2 ^ 16)
    (hf : FirstAt (late ++ message3 S t.hash provide padC ia) (Spec.Sha1.hash (ascii "req1" ++ S)) late.length)
    (hc : chunks.flatten = late ++ message3 S t.hash provide padC ia) :
    ∃ h', receiveAll l padD ⟨h, []⟩ chunks = .ok (⟨h', []⟩, message4 S t.hash (if provide / 2 % 2 = 1 then 2 else 1) padD) ∧
      h'.step = .established ∧ h'.infoHash = some t ∧ h'.message = ia := by
  have hk : kindOf provide = some (if provide / 2 % 2 = 1 then .rc4 else .plainText) := by
    unfold kindOf; split
    · rfl
    · rw [if_pos (by omega)]
  have hml := message3_length S t.hash provide padC ia
  obtain ⟨h', c, e, e1, e2, e3, _⟩ := receiveAll_pieces (padD := padD) chunks late ⟨h, []⟩ 0 hS hs hf (mse_find_first hl ht hu hb) hk hp' hpad hia
    (by rw [List.length_append, hml]; omega) rfl (by simpa using hc)
  refine ⟨h', ?_, e1, e2, e3⟩
  rw [e]
  unfold selected
  split <;> rfl

theorem mse_readPe3Encrypted (h : Handshake) (c : Cipher) (data : List UInt8) (m p : Nat) :
    (readPe3Encrypted h c data m p).2.infoHash = h.infoHash := by
  unfold readPe3Encrypted
  dsimp only
  split
  · rfl
  · split
    · rfl
    · split
      · rfl
      · unfold readPe3Message
        dsimp only
        split <;> rfl

theorem mse_readPe3 {h h' : Handshake} {l : Listener} {data : List UInt8} {r : Nat} (e : readPe3 h l data = .ok (r, h')) :
    h'.infoHash = h.infoHash ∨ h'.infoHash = none ∨ ∃ x ∈ l, h'.infoHash = some x.1 := by
  unfold readPe3 at e
  split at e
  · cases e; exact .inl rfl
  · obtain ⟨q, _, e⟩ := mse_bind e
    split at e
    · cases e; exact .inl rfl
    · unfold readPe3At at e
      obtain ⟨q, _, e⟩ := mse_bind e
      split at e
      · cases e; exact .inr (.inl rfl)
      · rename_i t ht
        obtain ⟨c, _, e⟩ := mse_bind e
        simp only [Res.ok.injEq] at e
        have e := congrArg Prod.snd e
        dsimp only at e
        subst e
        rw [mse_readPe3Encrypted]
        unfold findByPe3Hash at ht
        obtain ⟨x, hx, rfl⟩ := Option.map_eq_some_iff.1 ht
        exact .inr (.inr ⟨x, List.mem_of_find?_eq_some hx, rfl⟩)

theorem mse_receive {l : Listener} {pad chunk out : List UInt8} {s s' : Incoming} (e : receive l pad s chunk = .ok (s', out)) :
    s'.h.infoHash = s.h.infoHash ∨ s'.h.infoHash = none ∨ ∃ x ∈ l, s'.h.infoHash = some x.1 := by
  unfold receive at e
  dsimp only at e
  split at e
  · cases e; exact .inl rfl
  · obtain ⟨⟨r, o, h'⟩, e1, e⟩ := mse_bind e
    simp only [Res.ok.injEq, Prod.mk.injEq] at e
    obtain ⟨rfl, -⟩ := e
    dsimp only
    unfold readAsListener at e1
    split at e1
    · split at e1
      · cases e1; exact .inl rfl
      · obtain ⟨_, _, e1⟩ := mse_bind e1
        obtain ⟨_, _, e1⟩ := mse_bind e1
        cases e1; exact .inl rfl
    · obtain ⟨⟨q, h2⟩, e2, e1⟩ := mse_bind e1
      have := mse_readPe3 e2
      dsimp only at e1
      split at e1
      · cases e1; exact this
      · split at e1
        · cases e1
        · cases e1; exact this
    · cases e1; exact .inl rfl

theorem mse_receiveAll {l : Listener} {pad : List UInt8} : ∀ {chunks : List (List UInt8)} {s s' : Incoming} {out : List UInt8},
    receiveAll l pad s chunks = .ok (s', out) → s'.h.infoHash = s.h.infoHash ∨ s'.h.infoHash = none ∨ ∃ x ∈ l, s'.h.infoHash = some x.1
  | [], _, _, _, e => by cases e; exact .inl rfl
  | c :: cs, s, s', out, e => by
    rw [receiveAll] at e
    obtain ⟨⟨s1, o1⟩, e1, e⟩ := mse_bind e
    obtain ⟨⟨s2, o2⟩, e2, e⟩ := mse_bind e
    simp only [Res.ok.injEq, Prod.mk.injEq] at e
    obtain ⟨rfl, -⟩ := e
    rcases mse_receiveAll e2 with h | h | h
    · rcases mse_receive e1 with h' | h' | h'
      · exact .inl (h.trans h')
      · exact .inr (.inl (h.trans h'))
      · obtain ⟨x, hx, h'⟩ := h'; exact .inr (.inr ⟨x, hx, h.trans h'⟩)
    · exact .inr (.inl h)
    · exact .inr (.inr h)

/-- Whatever a peer sends, and in whatever pieces: a torrent that is identified is one that was added and not taken away since. -/
theorem C29_served_partial {ts : List Torrent} {gone : List Torrent} {l : Listener} {rnd pad : List UInt8} {chunks : List (List UInt8)}
    {s : Incoming} {out : List UInt8} {t : Torrent} (hl : addAll [] ts = .ok l)
    (e : receiveAll (gone.foldl removeTorrent l) pad ⟨Handshake.new rnd, []⟩ chunks = .ok (s, out)) (ht : s.h.infoHash = some t) :
    t ∈ ts ∧ ∀ u ∈ gone, u.addr ≠ t.addr := by
  have hg : ∀ (gone : List Torrent) (l : Listener) x, x ∈ gone.foldl removeTorrent l → x ∈ l ∧ ∀ u ∈ gone, u.addr ≠ x.1.addr := by
    intro gone
    induction gone with
    | nil => intro l x hx; exact ⟨hx, fun u hu => by cases hu⟩
    | cons g gone ih =>
      intro l x hx
      obtain ⟨h1, h2⟩ := ih _ x hx
      simp only [removeTorrent, List.mem_filter, decide_eq_true_eq] at h1
      refine ⟨h1.1, fun u hu => ?_⟩
      rcases List.mem_cons.1 hu with h | h
      · subst h; exact fun h => h1.2 h.symm
      · exact h2 u h
  rcases mse_receiveAll e with h | h | ⟨x, hx, h⟩
  · rw [ht] at h; cases h
  · rw [ht] at h; cases h
  · rw [ht] at h
    cases h
    obtain ⟨h1, h2⟩ := hg _ _ x hx
    rcases mse_addAll_mem hl x h1 with h | ⟨h, _⟩
    · cases h
    · exact ⟨h, h2⟩

/-! ### Where C29 fails -/

/-- A torrent whose hash is the same byte twenty times. -/
abbrev mseT (n : Nat) (b : UInt8) : Torrent := ⟨n, List.replicate 20 b⟩

theorem mse_lit {d v : List UInt8} (h : sha1 d = .ok v) : Spec.Sha1.hash d = v := by
  rw [sha1_ok] at h; cases h; rfl

theorem mse_req2_1 : Spec.Sha1.hash (ascii "req2" ++ (mseT 1 1).hash) =
    [169, 30, 2, 52, 13, 62, 48, 41, 23, 91, 186, 167, 46, 221, 210, 219, 35, 137, 2, 176] := mse_lit (by decide +kernel)

theorem mse_req2_2 : Spec.Sha1.hash (ascii "req2" ++ (mseT 2 2).hash) =
    [177, 23, 237, 146, 33, 206, 119, 160, 37, 194, 221, 207, 55, 75, 239, 86, 197, 120, 156, 36] := mse_lit (by decide +kernel)

theorem mse_req3_0 : Spec.Sha1.hash (ascii "req3" ++ List.replicate 96 0) =
    [175, 193, 85, 236, 142, 120, 132, 69, 17, 17, 123, 156, 245, 78, 250, 98, 150, 145, 16, 202] := mse_lit (by decide +kernel)

theorem mse_req3_2 : Spec.Sha1.hash (ascii "req3" ++ List.replicate 96 2) =
    [227, 83, 207, 113, 187, 2, 34, 0, 172, 240, 1, 72, 121, 233, 140, 236, 213, 251, 156, 119] := mse_lit (by decide +kernel)

theorem mse_two : addAll [] [mseT 1 1, mseT 2 2] = .ok [(mseT 1 1, Spec.Sha1.hash (ascii "req2" ++ (mseT 1 1).hash)),
    (mseT 2 2, Spec.Sha1.hash (ascii "req2" ++ (mseT 2 2).hash))] := by
  simp only [addAll, mse_addTorrent, Res.bind, Pe.insert]
  rfl

/-- Message 3 in one piece, for a listener that looks the torrent up. -/
theorem mse_readPe3_whole (h : Handshake) (l : Listener) (H padC ia : List UInt8) (provide : Nat) :
    readPe3 h l (message3 (secretBytes h.shared) H provide padC ia) =
      match findByPe3Hash l (names (secretBytes h.shared) H) (ascii "req3" ++ secretBytes h.shared) with
      | none => .ok ((message3 (secretBytes h.shared) H provide padC ia).length, { h with infoHash := none, step := .error })
      | some t => (prepareEncryption false (secretBytes h.shared) t).bind fun c =>
          .ok (readPe3Encrypted { h with infoHash := some t } c (message3 (secretBytes h.shared) H provide padC ia) 0 40) := by
  have hml := message3_length (secretBytes h.shared) H provide padC ia
  have hpl := plain3_length provide padC ia
  have hf : FirstAt ([] ++ message3 (secretBytes h.shared) H provide padC ia) (Spec.Sha1.hash (ascii "req1" ++ secretBytes h.shared)) 0 :=
    ⟨by rw [List.nil_append, List.drop_zero, message3, List.append_assoc]; exact List.prefix_append _ _, fun m hm => by omega⟩
  have h1 := readPe3_part (l := l) rfl hf (Nat.le_refl _)
  rw [if_neg (by rw [List.nil_append, hml]; simp only [List.length_nil]; omega)] at h1
  have h2 := readPe3At_find h l (secretBytes h.shared) H [] padC ia provide (m := (message3 (secretBytes h.shared) H provide padC ia).length)
    (by rw [hml]; simp only [List.length_nil]; omega)
  simp only [List.nil_append, List.take_length, List.length_nil, Nat.zero_add] at h1 h2
  rw [h1, h2]
  cases findByPe3Hash l (names (secretBytes h.shared) H) (ascii "req3" ++ secretBytes h.shared) <;> rfl

/-- C29 fails: with two torrents served, a peer that asks for the second reaches the first. The shared secret of this witness is the
number 0 (what a peer that sends the key 0 brings about); the rest of message 3 does not matter. -/
theorem C29_wrong_violated : ∃ l, addAll [] [mseT 1 1, mseT 2 2] = .ok l ∧ ∀ (h : Handshake) (padC ia : List UInt8) (provide : Nat),
    secretBytes h.shared = List.replicate 96 0 → ∃ r h',
      readPe3 h l (message3 (secretBytes h.shared) (mseT 2 2).hash provide padC ia) = .ok (r, h') ∧ h'.infoHash = some (mseT 1 1) := by
  refine ⟨_, mse_two, fun h padC ia provide hs => ?_⟩
  rw [mse_readPe3_whole, hs]
  have hfind : findByPe3Hash [(mseT 1 1, Spec.Sha1.hash (ascii "req2" ++ (mseT 1 1).hash)), (mseT 2 2, Spec.Sha1.hash (ascii "req2" ++ (mseT 2 2).hash))]
      (names (List.replicate 96 0) (mseT 2 2).hash) (ascii "req3" ++ List.replicate 96 0) = some (mseT 1 1) := by
    rw [names, mse_req3_0, mse_req2_1, mse_req2_2]
    decide +kernel
  rw [hfind]
  obtain ⟨c, hc, _⟩ := prepare_listener (List.replicate 96 0) (mseT 1 1)
  simp only [hc, Res.bind]
  exact ⟨_, _, rfl, mse_readPe3Encrypted _ _ _ _ _⟩

/-- C29 fails: the only torrent served is asked for and the peer is refused, because one byte of SHA1("req3" S) equals the byte of
"req3" S at its place. Here the secret is the byte 2 ninety-six times; every secret has this chance of about one in thirteen. -/
theorem C29_refused_violated : ∃ l, addAll [] [mseT 1 1] = .ok l ∧ ∀ (h : Handshake) (padC ia : List UInt8) (provide : Nat),
    secretBytes h.shared = List.replicate 96 2 → ∃ r h',
      readPe3 h l (message3 (secretBytes h.shared) (mseT 1 1).hash provide padC ia) = .ok (r, h') ∧ h'.infoHash = none ∧ h'.step = .error := by
  refine ⟨[(mseT 1 1, Spec.Sha1.hash (ascii "req2" ++ (mseT 1 1).hash))], ?_, fun h padC ia provide hs => ?_⟩
  · simp only [addAll, mse_addTorrent, Res.bind, Pe.insert]
  rw [mse_readPe3_whole, hs]
  have hfind : findByPe3Hash [(mseT 1 1, Spec.Sha1.hash (ascii "req2" ++ (mseT 1 1).hash))]
      (names (List.replicate 96 2) (mseT 1 1).hash) (ascii "req3" ++ List.replicate 96 2) = none := by
    rw [names, mse_req3_2, mse_req2_1]
    decide +kernel
  rw [hfind]
  exact ⟨_, _, rfl, rfl, rfl⟩

/-- The secrets of the two witnesses exist. -/
example : secretBytes [0] = List.replicate 96 0 := by decide +kernel
example : secretBytes (List.replicate 12 0x0202020202020202) = List.replicate 96 2 := by decide +kernel
/-- The condition of `C29_first_partial` on the secret holds for secret 0. -/
theorem mse_free : ∀ i, i < 20 → (Spec.Sha1.hash (ascii "req3" ++ List.replicate 96 0)).getD i 0 ≠ (ascii "req3" ++ List.replicate 96 0).getD i 0 := by
  rw [mse_req3_0]
  decide +kernel

theorem mse_two' : addAll [] [mseT 2 2, mseT 1 1] = .ok [(mseT 1 1, Spec.Sha1.hash (ascii "req2" ++ (mseT 1 1).hash)),
    (mseT 2 2, Spec.Sha1.hash (ascii "req2" ++ (mseT 2 2).hash))] := by
  simp only [addAll, mse_addTorrent, Res.bind, Pe.insert]
  rfl

theorem mse_lowest : ∀ u ∈ [mseT 2 2, mseT 1 1], u = mseT 1 1 ∨ (mseT 1 1).addr < u.addr := by simp

theorem mse_there : mseT 1 1 ∈ [mseT 2 2, mseT 1 1] := by simp

theorem mse_pieces (h : Handshake) (m : List UInt8) (hs : h.step = .pe3) (hS : List.replicate 96 0 = secretBytes h.shared)
    (hm : m = message3 (List.replicate 96 0) (mseT 1 1).hash 3 [7] [8, 9]) :
    ∃ h', receiveAll [(mseT 1 1, Spec.Sha1.hash (ascii "req2" ++ (mseT 1 1).hash)), (mseT 2 2, Spec.Sha1.hash (ascii "req2" ++ (mseT 2 2).hash))]
        [] ⟨h, []⟩ [m.take 50, m.drop 50] = .ok (⟨h', []⟩, message4 (List.replicate 96 0) (mseT 1 1).hash (if 3 / 2 % 2 = 1 then 2 else 1) []) ∧
      h'.step = .established ∧ h'.infoHash = some (mseT 1 1) ∧ h'.message = [8, 9] := by
  refine C29_first_partial (late := []) (padC := [7]) [m.take 50, m.drop 50] mse_two' mse_there mse_lowest hs hS mse_free
    (by decide) (by decide) (by decide) (by decide) ⟨?_, fun m hm => by cases hm⟩ ?_
  · rw [List.nil_append, List.length_nil, List.drop_zero, message3, List.append_assoc]; exact List.prefix_append _ _
  · rw [← hm]; simp

/-- Two torrents are served, the first is asked for, message 3 arrives in two pieces. -/
example (h : Handshake) (m : List UInt8) (hs : h.step = .pe3) (hS : List.replicate 96 0 = secretBytes h.shared)
    (hm : m = message3 (List.replicate 96 0) (mseT 1 1).hash 3 [7] [8, 9]) :
    ∃ l s out, addAll [] [mseT 2 2, mseT 1 1] = .ok l ∧ receiveAll l [] ⟨h, []⟩ [m.take 50, m.drop 50] = .ok (s, out) ∧
      s.h.infoHash = some (mseT 1 1) ∧ s.h.message = [8, 9] := by
  obtain ⟨h', e1, _, e2, e3⟩ := mse_pieces h m hs hS hm
  exact ⟨_, _, _, mse_two', e1, e2, e3⟩

end Verif
