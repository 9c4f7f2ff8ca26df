import Verif.Proof.MetadataServe
/-! C97: metadata given to peers that ask for it.

`serveBytes fuel info data after` is the answer to the message `data`, `info` being the metadata of the torrent; `after` is the memory behind
the message. -/

namespace Verif
open Verif.Metadata Spec

theorem mdPiece_of_u32 (info : List UInt8) (k : Nat) (hk : k < 262144) :
    (if Layout.u32 (k * 16384) < info.length then
      some (pieceResponse k ((info.drop (Layout.u32 (k * 16384))).take 16384) info.length) else none) =
    if k < mdCount info.length then some (pieceResponse k (mdPiece info k) info.length) else none := by
  have hu : Layout.u32 (k * 16384) = k * 16384 := by unfold Layout.u32; omega
  rw [hu]
  have h : k * 16384 < info.length ↔ k < mdCount info.length := by unfold mdCount; omega
  by_cases hlt : k < mdCount info.length
  · rw [if_pos hlt, if_pos (h.2 hlt)]; rfl
  · rw [if_neg hlt, if_neg (fun hh => hlt (h.1 hh))]

/-- C97 (partial: numbers below 2^18, see `C97_wraps_violated`): whoever asks for piece `k` gets this piece, with its number and the size of
the whole; whoever asks for one behind the end gets nothing. -/
theorem C97_serves_partial (info : List UInt8) (k : Nat) (hk : k < 262144) (after : List UInt8) (hne : after ≠ []) (fuel : Nat)
    (hfuel : (pieceRequest k).length ≤ fuel) :
    serveBytes fuel info (pieceRequest k) after =
      .ok (if k < mdCount info.length then some (pieceResponse k (mdPiece info k) info.length) else none) := by
  unfold serveBytes
  rw [load_request k after (by omega) hne fuel hfuel]
  simp only [Res.bind_ok]
  rw [serve_request, mdPiece_of_u32 info k hk]

/-- C97 (partial as above): whatever was received, if it was loaded with its members set, nothing is read outside of the metadata, and an answer goes out only to a
request, with bytes of the metadata; with those of the piece asked for if its number is below 2^18. -/
theorem C97_any_partial (info : List UInt8) (ok : Bool) (msg : Msg) (h1 : ok = true → msg.type ≠ none)
    (h2 : ok = true → msg.type = some 0 → msg.piece ≠ none) :
    ∃ r, serve info ok msg = .ok r ∧ ∀ b, r = some b → ∃ k, msg.piece = some k ∧ msg.type = some 0 ∧
      (∃ data, b = pieceResponse k data info.length ∧ data <:+: info ∧ 0 < data.length ∧ data.length ≤ 16384) ∧
      (k < 262144 → k < mdCount info.length ∧ b = pieceResponse k (mdPiece info k) info.length) := by
  obtain ⟨r, hr, h3⟩ := serve_ok (info := info) h1 h2
  refine ⟨r, hr, ?_⟩
  intro b hb
  obtain ⟨k, hk1, hk2, hk3, hk4⟩ := h3 b hb
  refine ⟨k, hk1, hk2, ⟨_, hk4, ?_, ?_, ?_⟩, ?_⟩
  · exact (List.take_prefix _ _).isInfix.trans (List.drop_suffix _ _).isInfix
  · rw [List.length_take, List.length_drop]; omega
  · rw [List.length_take]; omega
  · intro hk
    have hu : Layout.u32 (k * 16384) = k * 16384 := by unfold Layout.u32; omega
    rw [hu] at hk3 hk4
    exact ⟨by unfold mdCount; omega, hk4⟩

theorem serve_member {info : List UInt8} {fuel k : Nat} {after : List UInt8} (hk : k < 262144) (hne : after ≠ [])
    (hf1 : (pieceRequest k).length ≤ fuel) (hf2 : (pieceResponse k (mdPiece info k) info.length).length ≤ fuel)
    (hi : info.length < 2147483648) {recv : List Nat} {d : Dl} (hd : d.active = true) (hg : Good info recv d.md) (ks : List Nat) :
    ∃ d' recv', exchange fuel info after (k :: ks) d = exchange fuel info after ks d' ∧ d'.active = true ∧ Good info recv' d'.md ∧
      (∀ j, j < mdCount info.length → (j ∈ recv' ↔ j ∈ recv ∨ j = k)) ∧ d'.info = d.info ∧
      (d'.finishedFlag = true ↔ d.finishedFlag = true ∨ k < mdCount info.length ∧ finished d'.md = true) := by
  rw [exchange.eq_2]
  rw [C97_serves_partial info k hk after hne fuel hf1]
  simp only [Res.bind_ok]
  by_cases hlt : k < mdCount info.length
  · rw [if_pos hlt]
    simp only
    have hlen : (mdPiece info k).length ≤ 16384 := by rw [mdPiece_length]; omega
    have h0 : 0 < info.length := by unfold mdCount at hlt; omega
    unfold receiveBytes
    rw [load_response k info.length (mdPiece info k) after (by omega) h0 hi hlen (by simp [hne]) fuel hf2]
    simp only [Res.bind_ok]
    obtain ⟨b, t', ha, hg', -, -⟩ := good_add (by omega) hg (mdPiece info k) k (fun _ => rfl)
    unfold receive
    simp only [hd, Bool.not_true, Bool.false_eq_true, if_false]
    rw [if_neg (by rw [hg.len]; simp), ha]
    simp only [Res.bind_ok, receiveBytes]
    by_cases hfin : finished t' = true
    · rw [if_pos hfin]
      simp only [Res.pure_eq, Res.bind_ok]
      exact ⟨_, k :: recv, rfl, by first | exact hd | rfl, hg', by intro j _; simp [or_comm], rfl, by simp [hfin, hlt]⟩
    · rw [if_neg hfin]
      simp only [Res.pure_eq, Res.bind_ok]
      exact ⟨_, k :: recv, rfl, by first | exact hd | rfl, hg', by intro j _; simp [or_comm], rfl, by simp [hfin]⟩
  · rw [if_neg hlt]
    simp only
    exact ⟨d, recv, rfl, hd, hg, by intro j hj; constructor; exact Or.inl; rintro (h | h); exact h; omega, rfl, by simp [hlt]⟩

/-- C97 (partial as above): two programs, one that has the metadata and one that asks for it: asked for in any order, any number of times, with wrong numbers among them,
after the last piece the download is finished, and exactly then, and what was put together is the metadata, with its hash as the id of the torrent. -/
theorem C97_exchange_partial (info : List UInt8) (h0 : info ≠ []) (hi : info.length < 2147483648) (ks : List Nat) (hks : ∀ k ∈ ks, k < 262144)
    (after : List UInt8) (hne : after ≠ []) (fuel : Nat) (hf1 : ∀ k ∈ ks, (pieceRequest k).length ≤ fuel)
    (hf2 : ∀ k ∈ ks, (pieceResponse k (mdPiece info k) info.length).length ≤ fuel) (sha1 : List UInt8 → List UInt8)
    (parses : List UInt8 → Bool) (hp : parses info = true) (id : TInfo) :
    ∃ d, exchange fuel info after ks (handshake { info := id } info.length) = .ok d ∧
      (d.finishedFlag = true ↔ ∀ k, k < mdCount info.length → k ∈ ks) ∧
      (d.finishedFlag = true → (stop sha1 parses d).info = { hash := sha1 info, data := info }) ∧
      (d.finishedFlag = false → (stop sha1 parses d).info = id) := by
  have key : ∀ (ks : List Nat) (recv : List Nat) (d : Dl), (∀ k ∈ ks, k < 262144) → (∀ k ∈ ks, (pieceRequest k).length ≤ fuel) →
      (∀ k ∈ ks, (pieceResponse k (mdPiece info k) info.length).length ≤ fuel) → d.active = true → Good info recv d.md →
      (d.finishedFlag = true ↔ ∀ k, k < mdCount info.length → k ∈ recv) → d.info = id →
      ∃ d' recv', exchange fuel info after ks d = .ok d' ∧ d'.active = true ∧ Good info recv' d'.md ∧
        (∀ j, j < mdCount info.length → (j ∈ recv' ↔ j ∈ recv ∨ j ∈ ks)) ∧
        (d'.finishedFlag = true ↔ ∀ k, k < mdCount info.length → k ∈ recv') ∧ d'.info = id := by
    intro ks
    induction ks with
    | nil => intro recv d _ _ _ ha hg hfl hid; exact ⟨d, recv, rfl, ha, hg, by simp, hfl, hid⟩
    | cons k ks ih =>
      intro recv d g1 g2 g3 ha hg hfl hid
      obtain ⟨d1, recv1, e1, a1, m1, j1, i1, f1⟩ := serve_member (g1 k (by simp)) hne (g2 k (by simp)) (g3 k (by simp)) hi ha hg ks
      have hfl1 : d1.finishedFlag = true ↔ ∀ k, k < mdCount info.length → k ∈ recv1 := by
        rw [f1, hfl, good_finished m1]
        constructor
        · rintro (h | ⟨-, -, h⟩)
          · intro j hj; exact (j1 j hj).2 (Or.inl (h j hj))
          · exact h
        · intro h
          by_cases hk : k < mdCount info.length
          · exact Or.inr ⟨hk, h0, h⟩
          · left
            intro j hj
            rcases (j1 j hj).1 (h j hj) with h | h
            · exact h
            · omega
      obtain ⟨d', recv', e2, a2, m2, j2, f2, i2⟩ := ih recv1 d1 (fun x hx => g1 x (by simp [hx])) (fun x hx => g2 x (by simp [hx]))
        (fun x hx => g3 x (by simp [hx])) a1 m1 hfl1 (i1.trans hid)
      refine ⟨d', recv', e1.trans e2, a2, m2, ?_, f2, i2⟩
      intro j hj
      rw [j2 j hj, j1 j hj, List.mem_cons, or_assoc]
  have hlen : info.length ≠ 0 := by have := List.length_pos_iff.2 h0; omega
  have hh : handshake { info := id } info.length = { info := id, md := init info.length } := by
    unfold handshake; rw [if_pos ⟨hlen, rfl⟩]
  have hc : 0 < mdCount info.length := by unfold mdCount; omega
  obtain ⟨d', recv', e, a, m, j, f, i⟩ := key ks [] (handshake { info := id } info.length) hks hf1 hf2 (by rw [hh])
    (by rw [hh]; exact good_init info) (by
      rw [hh]
      simp only [Bool.false_eq_true, List.not_mem_nil, false_iff]
      intro h; exact h 0 hc) (by rw [hh])
  have hfin : d'.finishedFlag = true ↔ finished d'.md = true := by
    rw [f, good_finished m]; simp [h0]
  refine ⟨d', e, ?_, ?_, ?_⟩
  · rw [f]
    constructor
    · intro h k hk; have := (j k hk).1 (h k hk); simpa using this
    · intro h k hk; exact (j k hk).2 (Or.inr (h k hk))
  · intro hd
    have hb := good_complete m (f.1 hd)
    unfold stop infoOf
    rw [if_pos a, if_pos (hfin.1 hd), hb, if_pos hp]
  · intro hd
    have : ¬ finished d'.md = true := by rw [← hfin, hd]; simp
    unfold stop
    rw [if_pos a, if_neg this]
    exact i

/-! Non-vacuity: the metadata has two pieces, and a third is asked for. -/
example : serveBytes 100 [1, 2, 3] (pieceRequest 0) [0] = .ok (some (pieceResponse 0 [1, 2, 3] 3)) ∧
    serveBytes 100 [1, 2, 3] (pieceRequest 1) [0] = .ok none := by decide +kernel

example : ∃ (info : List UInt8) (ks : List Nat) (fuel : Nat), info ≠ [] ∧ info.length < 2147483648 ∧ (∀ k ∈ ks, k < 262144) ∧
    (∀ k ∈ ks, (pieceRequest k).length ≤ fuel) ∧ (∀ k ∈ ks, (pieceResponse k (mdPiece info k) info.length).length ≤ fuel) ∧
    ∀ k, k < mdCount info.length → k ∈ ks :=
  ⟨[1, 2, 3], [7, 0, 0], 100, by decide, by decide, by decide, by decide +kernel, by decide +kernel,
    by intro k hk; unfold mdCount at hk; simp only [List.length_cons, List.length_nil] at hk; simp; omega⟩

/-- C97 fails: whoever asks for piece 2^18 gets the bytes of piece 0 as those of piece 2^18, though the metadata has one piece only. -/
theorem C97_wraps_violated : serveBytes 100 [1, 2, 3] (pieceRequest 262144) [0] = .ok (some (pieceResponse 262144 [1, 2, 3] 3)) := by
  decide +kernel

end Verif
