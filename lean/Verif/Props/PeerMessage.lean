import Verif.Proof.PeerMessage

namespace Verif
open Layout Peer Spec

/-! ## C23 -/

/-- C23: the builders write exactly the wire format (all field values). -/
theorem C23_builders :
    (∀ i, createHave i = (Wire.have_ i).encode) ∧
    (∀ i b l, createBlockRequest ⟨i, b, l⟩ = (Wire.request i b l).encode) ∧
    (∀ i b l data, data.length + 9 < 4294967296 → createPiece ⟨i, b, l⟩ data = (Wire.piece i b data).encode) ∧
    (∀ bits, bits.length + 1 < 4294967296 → createBitfield bits = (Wire.bitfield bits).encode) ∧
    (∀ p, createPort p = (Wire.port p).encode) ∧
    createStateMessage 0 = Wire.choke.encode ∧ createStateMessage 1 = Wire.unchoke.encode ∧
    createStateMessage 2 = Wire.interested.encode ∧ createStateMessage 3 = Wire.notInterested.encode ∧
    keepAliveMessage = Wire.keepAlive.encode ∧
    (∀ dht hash id, createHandshake dht hash id =
      (Wire.handshake [0, 0, 0, 0, 0, 0x10, 0, if dht then 0x80 else 0] hash id).encode) := by
  refine ⟨fun i => rfl, fun i b l => rfl, ?_, ?_, fun p => rfl, rfl, rfl, rfl, rfl, rfl, fun dht hash id => rfl⟩
  · intro i b l data h
    unfold createPiece Wire.encode framed
    simp only [List.length_cons, List.length_append, be32_length]
    rw [show u32 (1 + 8 + u32 data.length) = 4 + 4 + data.length + 1 by unfold u32; omega]
    simp [idPiece]
  · intro bits h
    unfold createBitfield Wire.encode framed
    simp only [List.length_cons]
    rw [show u32 (1 + u32 bits.length) = bits.length + 1 by unfold u32; omega]
    simp [idBitfield]

/-- C23, messages below 64 KiB with non-empty blocks (`Wire.Ok`): whatever follows in the buffer, the
parser returns the message with the same fields and consumes exactly its bytes. Missing: larger
messages and empty blocks, where it is false. -/
theorem C23_round_trip_partial (w : Wire) (hw : w.Ok) (rest : List UInt8) :
    ∃ m, parse (w.encode ++ rest) = .ok m ∧ m.messageSize = w.encode.length ∧ toWire m = some w :=
  decode w hw rest

example : (Wire.piece 70000 16384 [1, 2, 3]).Ok ∧ (Wire.request 4294967295 0 16384).Ok ∧ (Wire.bitfield []).Ok ∧
    (Wire.handshake (List.replicate 8 0) (List.replicate 20 7) (List.replicate 20 9)).Ok := by
  refine ⟨⟨by decide, by decide, by decide, by decide⟩, ⟨by decide, by decide, by decide, by decide⟩, ⟨by decide, trivial⟩, ⟨by decide, rfl, rfl, rfl⟩⟩

/-- C23: no received bytes whatsoever make the parser read outside the buffer. -/
theorem C23_parser_in_bounds (b : List UInt8) : ∃ m, parse b = .ok m := parse_total b

/-- C23 is false for messages of 64 KiB and more, e.g. the bitfield of a torrent with 524288 pieces:
the consumed size never equals the size of the message. -/
theorem C23_large_message_violated (w : Wire) (hw : 65536 ≤ w.encode.length) (rest : List UInt8) :
    ¬ ∃ m, parse (w.encode ++ rest) = .ok m ∧ m.messageSize = w.encode.length := by
  rintro ⟨m, h1, h2⟩
  have := messageSize_lt _ m h1
  omega

example : ∃ bits : List UInt8, 65536 ≤ (Wire.bitfield bits).encode.length := by
  refine ⟨List.replicate 65536 0, ?_⟩
  simp only [Wire.encode, framed_length, List.length_cons, List.length_replicate]; omega

/-- C23 is false for an empty block: index, offset and length of the received message stay
uninitialised. -/
theorem C23_empty_block_violated : ∃ m, parse ((Wire.piece 1 2 []).encode) = .ok m ∧ m.id = 7 ∧ m.piece = none ∧ toWire m = none := by
  refine ⟨{ id := 7, messageSize := 13 }, ?_, rfl, rfl, rfl⟩
  decide +kernel

/-! ## C24 -/

/-- C24, streams of messages with a known id and below 64 KiB (whatever their content): however the
stream is cut, the handled messages are those of the first `k` frames in order, each decoded as if
it was alone, and the bytes left over are a proper beginning of the next frame. Every chunk is
processed in finite time: at most as many loop rounds as received bytes, plus one. Missing: other
streams, where it is false. -/
theorem C24_stream_partial (fs : List Frame) (hf : ∀ f ∈ fs, f.Ok) (chunks : List (List UInt8)) (rest : List UInt8)
    (h : chunks.flatten ++ rest = fs.flatMap Frame.bytes) (fuel : Nat) (hfuel : chunks.flatten.length < fuel) :
    ∃ k handled left, streamAll fuel [] chunks = .ok (handled, left) ∧
      handled.map Res.ok = (fs.take k).map (fun f => parse f.bytes) ∧
      (fs.take k).flatMap Frame.bytes ++ left = chunks.flatten ∧
      (∀ f ∈ (fs.drop k).head?, left.length < f.bytes.length) := by
  have hs : Short [] fs := by
    cases fs with
    | nil => rfl
    | cons f t => have := bytes_pos f (hf f (by simp)); simp only [Short, List.length_nil]; omega
  obtain ⟨k, p, h1, h2, h3⟩ := streamAll_frames fuel chunks fs [] rest hf (by simpa using h) (by simpa using hfuel) hs
  refine ⟨k, _, p, h1, ?_, by simpa using h2, ?_⟩
  · rw [List.map_map]
    refine List.map_congr_left fun f hfk => ?_
    have := (parse_frameMsg f (hf f (List.mem_of_mem_take hfk))).1 []
    rw [List.append_nil] at this
    exact this.symm
  · intro f hfd
    cases hd : fs.drop k with
    | nil => rw [hd] at hfd; simp at hfd
    | cons g t => rw [hd] at hfd h3; simp at hfd; rw [← hfd]; exact h3

/-- C24, same streams: two ways to cut the same bytes handle the same messages and leave the same
bytes over. -/
theorem C24_cut_independent_partial (fs : List Frame) (hf : ∀ f ∈ fs, f.Ok) (c1 c2 : List (List UInt8)) (rest : List UInt8)
    (h1 : c1.flatten ++ rest = fs.flatMap Frame.bytes) (h2 : c2.flatten = c1.flatten) (fuel : Nat) (hfuel : c1.flatten.length < fuel) :
    streamAll fuel [] c1 = streamAll fuel [] c2 ∧ ∃ r, streamAll fuel [] c1 = .ok r := by
  have hs : Short [] fs := by
    cases fs with
    | nil => rfl
    | cons f t => have := bytes_pos f (hf f (by simp)); simp only [Short, List.length_nil]; omega
  obtain ⟨k, p, a1, a2, a3⟩ := streamAll_frames fuel c1 fs [] rest hf (by simpa using h1) (by simpa using hfuel) hs
  obtain ⟨k', p', b1, b2, b3⟩ := streamAll_frames fuel c2 fs [] rest hf (by simpa [h2] using h1) (by simpa [h2] using hfuel) hs
  obtain ⟨e1, e2⟩ := split_unique fs k k' p p' (by rw [a2, b2, h2]) a3 b3
  exact ⟨by rw [a1, b1, e1, e2], _, a1⟩

/-- C24: a complete stream of well-formed messages, cut anywhere, is handled message by message. -/
theorem C24_messages_partial (ws : List Wire) (hw : ∀ w ∈ ws, w.Ok) (chunks : List (List UInt8))
    (h : chunks.flatten = ws.flatMap Wire.encode) (fuel : Nat) (hfuel : chunks.flatten.length < fuel) :
    ∃ handled, streamAll fuel [] chunks = .ok (handled, []) ∧ handled.map toWire = ws.map some := by
  have key : ∃ fs : List Frame, (∀ f ∈ fs, f.Ok) ∧ fs.flatMap Frame.bytes = ws.flatMap Wire.encode ∧
      fs.map (fun f => toWire (frameMsg f)) = ws.map some := by
    clear h
    induction ws with
    | nil => exact ⟨[], by simp, rfl, rfl⟩
    | cons w ws ih =>
      obtain ⟨fs, g1, g2, g3⟩ := ih fun x hx => hw x (by simp [hx])
      obtain ⟨f, f1, f2, f3⟩ := wire_frame w (hw w (by simp))
      refine ⟨f :: fs, ?_, by simp [f2, g2], by simp [f3, g3]⟩
      intro x hx
      rcases List.mem_cons.mp hx with rfl | hx
      · exact f1
      · exact g1 x hx
  obtain ⟨fs, g1, g2, g3⟩ := key
  have hs : Short [] fs := by
    cases fs with
    | nil => rfl
    | cons f t => have := bytes_pos f (g1 f (by simp)); simp only [Short, List.length_nil]; omega
  obtain ⟨k, p, a1, a2, a3⟩ := streamAll_frames fuel chunks fs [] [] g1 (by simp [h, g2]) (by simpa using hfuel) hs
  obtain ⟨e1, e2⟩ := split_unique fs k fs.length p [] (by rw [a2, List.nil_append, h, List.append_nil, List.take_length, g2]) a3
    (by rw [List.drop_length]; rfl)
  rw [e1, List.take_length, e2] at a1
  exact ⟨_, a1, by rw [List.map_map]; exact g3⟩

/-- A handshake, a have and an unknown extension message cut inside the length prefix and inside the
handshake. -/
example : (streamAll 200 [] [[19, 66, 105], (Wire.handshake (List.replicate 8 0) (List.replicate 20 1) (List.replicate 20 2)).encode.drop 3
    ++ [0, 0], [0, 5, 4, 0, 0, 0], [9, 0, 0, 0, 1, 20]]).bind (fun r => .ok (r.1.map (fun m => m.id), r.2)) = .ok ([21, 4, 20], []) := by
  decide +kernel

/-- C24 is false for a complete message of exactly 65536 bytes with a known id: the receive loop never
ends, on every content and whatever follows. -/
theorem C24_endless_loop_violated (i : UInt8) (t rest : List UInt8) (hi : i.toNat < 23) (h : t.length = 65531) (fuel : Nat) :
    dataReceived fuel (framed (i :: t) ++ rest) = .diverge := by
  obtain ⟨m, h1, h2, h3⟩ := parse_wrapped i t rest hi (by simp [h])
  exact receiveLoop_stuck _ 0 m (by simpa using h1) h2 h3 fuel

example : ∃ t : List UInt8, t.length = 65531 := ⟨List.replicate 65531 0, List.length_replicate⟩

/-- C24 is false with an unknown message id: everything received together with it is dropped, so the
choke message is lost or handled depending on the cut. -/
theorem C24_unknown_id_violated :
    (∃ h, streamAll 20 [] [[0, 0, 0, 1, 23, 0, 0, 0, 1, 0]] = .ok (h, []) ∧ h = []) ∧
    (∃ h, streamAll 20 [] [[0, 0, 0, 1, 23], [0, 0, 0, 1, 0]] = .ok (h, []) ∧ h.map (fun m => m.id) = [0]) := by
  refine ⟨⟨[], by decide +kernel, rfl⟩, ⟨[{ id := 0, messageSize := 5 }], by decide +kernel, rfl⟩⟩

/-! ## C25 -/

/-- C25 is false for the peer's interest: it is reported inverted, in every state. -/
theorem C25_interest_inverted_violated (f : Flags) :
    (handleMessage f 2).peerInterested = false ∧ (handleMessage f 3).peerInterested = true := ⟨rfl, rfl⟩

/-- C25, the peer's choking: after any history it is what the last choke or unchoke message said. -/
theorem C25_choke_partial (f : Flags) (before after : List FlagOp) (h : ∀ o ∈ after, o ≠ .message 0 ∧ o ≠ .message 1) :
    (runFlags f (before ++ .message 0 :: after)).1.peerChoking = true ∧
    (runFlags f (before ++ .message 1 :: after)).1.peerChoking = false ∧
    (runFlags f after).1.peerChoking = f.peerChoking := by
  refine ⟨?_, ?_, runFlags_choking f after h⟩
  · rw [runFlags_append]; simp only [runFlags]; rw [runFlags_choking _ _ h]; rfl
  · rw [runFlags_append]; simp only [runFlags]; rw [runFlags_choking _ _ h]; rfl

/-- C25, our own flags: after any history they are what the last state message we sent says, or the
initial value if none was sent. -/
theorem C25_own_flags_partial (f : Flags) (ops : List FlagOp) :
    (runFlags f ops).1.amInterested = ((runFlags f ops).2.filterMap interestSent).getLastD f.amInterested ∧
    (runFlags f ops).1.amChoking = ((runFlags f ops).2.filterMap chokeSent).getLastD f.amChoking := own_flags f ops

/-- C25: on an established connection asking for a value always takes effect. -/
theorem C25_own_flags_set_partial (f : Flags) (before : List FlagOp) (h : f.established = true) (b : Bool) :
    (runFlags f (before ++ [.interested b])).1.amInterested = b ∧ (runFlags f (before ++ [.choke b])).1.amChoking = b := by
  have he := established_mono f before h
  rw [runFlags_append, runFlags_append]
  simp only [runFlags]
  unfold setInterested setChoke
  rw [he]
  refine ⟨?_, ?_⟩
  · simp only [Bool.not_true, Bool.false_eq_true, if_false]
    split
    · rename_i hq; simpa using hq
    · rfl
  · simp only [Bool.not_true, Bool.false_eq_true, if_false]
    split
    · rename_i hq; simpa using hq
    · rfl

example : runFlags {} [.message 21, .interested true, .message 1, .interested true, .message 4] =
    (⟨true, true, false, false, true⟩, [[0, 0, 0, 1, 2], []]) := by decide

end Verif
