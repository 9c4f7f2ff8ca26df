import Verif.Proof.Metadata
/-! C21 metadata reconstruction, C22 acceptance of metadata. -/

namespace Verif
open Layout Bencode Metadata Spec

/-! ### C21 -/

/-- For every metadata below 4 GiB and every sequence of calls in which the arriving pieces are pieces
of it (any order, duplicates, numbers outside), mixed with requests for the next piece: no byte
outside the buffer is written, it is finished exactly when every piece arrived (and there is one), and
then the buffer holds the metadata. -/
theorem C21_reconstructs (m : List UInt8) (hm : m.length < 4294967296) (ops : List Op)
    (hd : ∀ data k, Op.add data k ∈ ops → k < mdCount m.length → data = mdPiece m k) :
    ∃ as t, run (init m.length) ops = .ok (as, t) ∧
      (finished t = true ↔ m ≠ [] ∧ ∀ k, k < mdCount m.length → k ∈ arrivals ops) ∧
      (finished t = true → t.buffer = m) := by
  obtain ⟨as, t, h1, recv, h2, h3⟩ := run_good hm ops [] _ (good_init m) hd
  have h4 := good_finished h2
  have h5 : ∀ k, k ∈ recv ↔ k ∈ arrivals ops := by intro k; rw [h3]; simp
  refine ⟨as, t, h1, ?_, ?_⟩
  · rw [h4]; simp only [h5]
  · intro hf
    exact good_complete h2 (h4.mp hf).2

/-- After every such history the piece to request next is one that did not arrive yet; when nothing is
missing the answer is the invalid index. -/
theorem C21_next_is_missing (m : List UInt8) (hm : m.length < 4294967296) (ops : List Op)
    (hd : ∀ data k, Op.add data k ∈ ops → k < mdCount m.length → data = mdPiece m k) :
    ∃ as t, run (init m.length) ops = .ok (as, t) ∧
      ((∃ k, k < mdCount m.length ∧ k ∉ arrivals ops) →
        (getMissing t).1 < mdCount m.length ∧ (getMissing t).1 ∉ arrivals ops) ∧
      ((∀ k, k < mdCount m.length → k ∈ arrivals ops) → (getMissing t).1 = 4294967295) := by
  obtain ⟨as, t, h1, recv, h2, h3⟩ := run_good hm ops [] _ (good_init m) hd
  have h5 : ∀ k, k ∈ recv ↔ k ∈ arrivals ops := by intro k; rw [h3]; simp
  refine ⟨as, t, h1, ?_, ?_⟩
  · rintro ⟨k, hk1, hk2⟩
    have hk : k ∈ t.remaining := by rw [h2.rem]; simp [hk1, h5, hk2]
    have := getMissing_mem (List.ne_nil_of_mem hk)
    rw [h2.rem] at this
    simpa [h5] using this
  · intro hall
    have : t.remaining = [] := by
      rw [h2.rem, List.filter_eq_nil_iff]
      intro k hk
      simpa [h5] using hall k (List.mem_range.mp hk)
    simp [getMissing, this]

/-- No missing piece is left out: asking often enough in a row (twice the number of pieces) names every
missing piece. -/
theorem C21_requests_rotate (m : List UInt8) (hm : m.length < 4294967296) (ops : List Op)
    (hd : ∀ data k, Op.add data k ∈ ops → k < mdCount m.length → data = mdPiece m k)
    (k : Nat) (hk1 : k < mdCount m.length) (hk2 : k ∉ arrivals ops) :
    ∃ as t, run (init m.length) ops = .ok (as, t) ∧
      ∃ as' t', run t (List.replicate (2 * mdCount m.length) .next) = .ok (as', t') ∧ k ∈ as' := by
  obtain ⟨as, t, h1, recv, h2, h3⟩ := run_good hm ops [] _ (good_init m) hd
  refine ⟨as, t, h1, ?_⟩
  have hk : k ∈ t.remaining := by rw [h2.rem]; simp [hk1, h3, hk2]
  have hs : t.remaining.Pairwise (· < ·) := by
    rw [h2.rem]; exact List.Pairwise.filter _ List.pairwise_lt_range
  cases hl : t.remaining.getLast? with
  | none => rw [List.getLast?_eq_none_iff] at hl; rw [hl] at hk; cases hk
  | some last =>
    have hlast : last < mdCount m.length := by
      have := List.mem_of_getLast? hl
      rw [h2.rem] at this
      simp at this; exact this.1
    have hc : mdCount m.length ≤ 262144 := by unfold mdCount; omega
    have := ask_all hs hk hl (by omega) (last + 1 - t.next) t.next rfl
    exact run_more _ _ (by omega) this

/-- Non-vacuity: a history with a duplicate, an unknown index and the last, shorter piece first. -/
example : ∃ m : List UInt8, mdCount m.length = 3 ∧
    ∀ data k, Op.add data k ∈ [Op.add (mdPiece m 2) 2, .next, .add (mdPiece m 2) 2, .add [1] 9, .add (mdPiece m 0) 0, .next, .add (mdPiece m 1) 1] →
      k < mdCount m.length → data = mdPiece m k := by
  obtain ⟨m, hl⟩ : ∃ m : List UInt8, m.length = 32770 := ⟨List.replicate 32770 7, List.length_replicate⟩
  refine ⟨m, by rw [hl]; rfl, ?_⟩
  intro data k h hk
  rw [hl] at hk
  have : k < 3 := hk
  simp only [List.mem_cons, Op.add.injEq, reduceCtorEq, List.not_mem_nil, or_false, false_or] at h
  rcases h with ⟨rfl, rfl⟩ | ⟨rfl, rfl⟩ | ⟨rfl, rfl⟩ | ⟨rfl, rfl⟩ | ⟨rfl, rfl⟩
  · rfl
  · rfl
  · omega
  · rfl
  · rfl

/-- A metadata piece sent by this client is read back by the receiving side: index, total size and
exactly the piece's bytes. -/
theorem C21_message_round_trip (index total : Nat) (data after : List UInt8) (hi : index < 2147483648)
    (ht : 0 < total) (ht2 : total < 2147483648) (hd : data.length ≤ 16384) (hne : data ++ after ≠ [])
    (fuel : Nat) (hfuel : (pieceResponse index data total).length ≤ fuel) :
    load fuel (pieceResponse index data total) after =
      .ok (true, { type := some 1, piece := some index, metadata := data, totalSize := some total }) :=
  load_response index total data after hi ht ht2 hd hne fuel hfuel

example : load 60 (pieceResponse 3 [1, 2, 3] 49155) [] =
    .ok (true, { type := some 1, piece := some 3, metadata := [1, 2, 3], totalSize := some 49155 }) := by
  decide +kernel

/-! ### C22 -/

/-- Whatever bytes the peers send, they become the torrent's info, with an id computed from these very
bytes: for every metadata `m` there is a run of the download after which the info is `m`, whatever
id the magnet link had. So metadata with a different hash is accepted. -/
theorem C22_any_metadata_accepted_violated (sha1 : List UInt8 → List UInt8) (parses : List UInt8 → Bool)
    (m : List UInt8) (hm0 : m ≠ []) (hm : m.length ≤ 16384) (hp : parses m = true) (magnetHash : List UInt8) :
    ∃ d, receive (handshake { info := { hash := magnetHash } } m.length) true
        { type := some 1, piece := some 0, metadata := m, totalSize := some m.length } = .ok d ∧
      d.stopPosted = true ∧ (stop sha1 parses d).info = { hash := sha1 m, data := m } := by
  have h0 : 0 < m.length := List.length_pos_iff.mpr hm0
  have hc : mdCount m.length = 1 := by unfold mdCount; omega
  have hpiece : mdPiece m 0 = m := by
    unfold mdPiece; rw [Nat.zero_mul, List.drop_zero, List.take_of_length_le hm]
  have hmd := handshake_init { info := { hash := magnetHash } } m hm0 rfl
  obtain ⟨b, t', h1, h2, _, _⟩ := good_add (by omega) (good_init m) m 0 (fun _ => hpiece.symm)
  have hf : finished t' = true := by
    rw [good_finished h2]
    refine ⟨hm0, ?_⟩
    intro k hk
    have : k = 0 := by omega
    simp [this]
  have hbuf : t'.buffer = m := good_complete h2 (by intro k hk; have : k = 0 := by omega
                                                    simp [this])
  have hh : handshake { info := { hash := magnetHash } } m.length =
      { info := { hash := magnetHash }, md := init m.length } := by
    have : m.length ≠ 0 := by omega
    simp [handshake, this]
  refine ⟨{ info := { hash := magnetHash }, md := t', finishedFlag := true, stopPosted := true }, ?_, rfl, ?_⟩
  · rw [hh]
    unfold receive
    simp only [Bool.not_true, Bool.false_eq_true, if_false]
    rw [if_neg (by rw [init_eq]; simp), h1]
    simp [hf]
  · simp [stop, hf, hbuf, infoOf, hp]

/-- What remains true: the id of an accepted info is the hash of the accepted bytes, so id and content
always belong together. Missing for the full property: the id is not compared with the magnet link. -/
theorem C22_id_belongs_to_data_partial (sha1 : List UInt8 → List UInt8) (parses : List UInt8 → Bool) (d : Dl)
    (hp : parses d.md.buffer = true) :
    (stop sha1 parses d).info = d.info ∨
    ((stop sha1 parses d).info.hash = sha1 (stop sha1 parses d).info.data ∧ finished d.md = true) := by
  unfold stop infoOf
  by_cases ha : d.active
  · by_cases hf : finished d.md
    · right; simp [ha, hf, hp]
    · left; simp [ha, hf]
  · left; simp [ha]

example : (stop (fun _ => [9]) (fun _ => true) { md := { buffer := [1, 2], pieces := 1, remaining := [] } }).info =
    { hash := [9], data := [1, 2] } := by decide

/-! ### C54 -/

/-- A peer that announces metadata of five bytes and then sends a piece message with a larger payload
makes the client write past the end of the metadata buffer: the message is accepted as it stands
(`load`), its payload is only compared with 16 KiB. -/
theorem C54_metadata_overflow_violated :
    receiveBytes 100 (handshake {} 5) [(pieceResponse 0 [1, 2, 3, 4, 5, 6] 5, [])] = .ub := by
  decide +kernel

/-- A message without `msg_type` is accepted and its uninitialised type is used. -/
theorem C54_missing_type_violated : receiveBytes 100 (handshake {} 5) [(ascii "d5:piecei0ee", [0])] = .ub := by
  decide +kernel

/-- For every sequence of loaded messages whose members are set and whose payload lies inside the
announced metadata: everything is written inside the buffer, and no later handshake of another peer
restarts the download.
Missing for the full property: messages violating this are not rejected, see above. -/
theorem C54_in_bounds_partial (size : Nat) (hs0 : size ≠ 0) (hs : size < 4294967296) (ms : List (Bool × Msg))
    (hf : ∀ m ∈ ms, Fits size m) :
    ∃ d, receiveAll (handshake {} size) ms = .ok d ∧ d.md.buffer.length = size ∧ ∀ other, handshake d other = d := by
  have hmd : (handshake {} size).md = init size := by simp [handshake, hs0]
  obtain ⟨d, h1, h2⟩ := receiveAll_ok size hs ms (handshake {} size) (by rw [hmd, init_eq]; simp) (by rw [hmd, init_eq]; simp) hf
  have hp := receiveAll_pieces ms h1
  rw [hmd, init_eq] at hp
  simp only at hp
  refine ⟨d, h1, h2, fun other => ?_⟩
  unfold handshake
  rw [if_neg]
  rintro ⟨_, h⟩
  unfold mdCount at hp; omega

example : ∃ d, receiveAll (handshake {} 5) [(true, { type := some 1, piece := some 0, totalSize := some 5, metadata := [1, 2, 3, 4, 5] }),
    (true, { type := some 2, piece := some 0 }), (false, {})] = .ok d ∧ d.md.buffer = [1, 2, 3, 4, 5] :=
  Res.exists_ok (by decide +kernel)

end Verif
