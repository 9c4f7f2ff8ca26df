import Verif.Model.PeerMessage
import Verif.Spec.PeerMessage

namespace Verif.Peer
open Verif Layout Spec

theorem view_total {b : List UInt8} {pos n : Nat} (h : pos + n ≤ b.length) :
    view b pos n = .ok ((b.drop pos).take n) := by
  unfold view; rw [if_pos h]

theorem view_append {a rest : List UInt8} {pos n : Nat} (h : pos + n ≤ a.length) :
    view (a ++ rest) pos n = view a pos n := by
  rw [view_total h, view_total (by simp; omega), List.drop_append_of_le_length (by omega),
    List.take_append_of_le_length (by simp; omega)]

theorem popN_append {a rest : List UInt8} {pos n : Nat} (h : pos + n ≤ a.length) :
    popN (a ++ rest) pos n = popN a pos n := by
  unfold popN; rw [view_append h]

theorem popN_total {b : List UInt8} {pos n : Nat} (h : pos + n ≤ b.length) :
    popN b pos n = .ok (beVal ((b.drop pos).take n)) := by
  unfold popN; rw [view_total h]; rfl

/-- Everything the body parser reads lies in the message. -/
theorem parseBody_total (b : List UInt8) (m : Msg) (size : Nat) (h1 : 1 ≤ size) (h : size + 4 ≤ b.length) :
    ∃ m', parseBody b m size = .ok m' ∧ m'.id = m.id ∧ m'.messageSize = m.messageSize := by
  unfold parseBody
  split
  · rw [popN_total (by omega)]; exact ⟨_, rfl, rfl, rfl⟩
  · split
    · rw [view_total (by omega)]; exact ⟨_, rfl, rfl, rfl⟩
    · split
      · rw [popN_total (by omega), popN_total (by omega), popN_total (by omega)]; exact ⟨_, rfl, rfl, rfl⟩
      · split
        · rw [popN_total (by omega), popN_total (by omega), view_total (by omega)]; exact ⟨_, rfl, rfl, rfl⟩
        · split
          · rw [popN_total (by omega), popN_total (by omega), popN_total (by omega)]; exact ⟨_, rfl, rfl, rfl⟩
          · split
            · rw [popN_total (by omega)]; exact ⟨_, rfl, rfl, rfl⟩
            · split
              · rw [popN_total (by omega), view_total (by omega)]; exact ⟨_, rfl, rfl, rfl⟩
              · exact ⟨_, rfl, rfl, rfl⟩

theorem parseBody_append (a rest : List UInt8) (m : Msg) (size : Nat) (h1 : 1 ≤ size) (h : size + 4 ≤ a.length) :
    parseBody (a ++ rest) m size = parseBody a m size := by
  unfold parseBody
  split
  · rw [popN_append (by omega)]
  · split
    · rw [view_append (by omega)]
    · split
      · rw [popN_append (by omega), popN_append (by omega), popN_append (by omega)]
      · split
        · rw [popN_append (by omega), popN_append (by omega), view_append (by omega)]
        · split
          · rw [popN_append (by omega), popN_append (by omega), popN_append (by omega)]
          · split
            · rw [popN_append (by omega)]
            · split
              · rw [popN_append (by omega), view_append (by omega)]
              · rfl

theorem starts_head {b : List UInt8} (h : startsAsHandshake b = true) : b.head? = some 19 := by
  unfold startsAsHandshake at h
  rw [Bool.and_eq_true, beq_iff_eq] at h
  have := h.2
  cases b with
  | nil => simp at this
  | cons x t =>
    rw [List.take_succ_cons] at this
    simp only [List.cons.injEq] at this
    simp [this.1]

/-- No input makes the parser read outside the buffer. -/
theorem parse_total (b : List UInt8) : ∃ m, parse b = .ok m := by
  unfold parse
  split
  · exact ⟨_, rfl⟩
  · split
    · rename_i h
      rw [view_total (by omega), view_total (by omega), view_total (by omega)]
      exact ⟨_, rfl⟩
    · rw [popN_total (by omega)]
      simp only [Res.bind_ok]
      split
      · exact ⟨_, rfl⟩
      · split
        · exact ⟨_, rfl⟩
        · rename_i h1 h2
          rw [popN_total (by omega)]
          simp only [Res.bind_ok]
          obtain ⟨m', hm, _⟩ := parseBody_total b { id := beVal ((b.drop 4).take 1), messageSize := (beVal ((b.drop 0).take 4) + 4) % 65536 }
            (beVal ((b.drop 0).take 4)) (by omega) (by omega)
          rw [hm]
          simp only [Res.bind_ok]
          split
          · exact ⟨_, rfl⟩
          · exact ⟨_, rfl⟩

theorem framed_length (b : List UInt8) : (framed b).length = b.length + 4 := by simp [framed]; omega

theorem framed_head (b rest : List UInt8) (h : b.length < 16777216) : (framed b ++ rest).head? = some 0 := by
  simp only [framed, be32, List.cons_append, List.head?_cons]
  rw [Nat.div_eq_of_lt h]; rfl

theorem not_starts (b rest : List UInt8) (h : b.length < 16777216) : startsAsHandshake (framed b ++ rest) = false := by
  refine Bool.eq_false_iff.mpr fun hc => ?_
  have := starts_head hc
  rw [framed_head b rest h] at this
  cases this

theorem size_read (b rest : List UInt8) (h : b.length < 4294967296) : popN (framed b ++ rest) 0 4 = .ok b.length := by
  rw [popN_total (by rw [List.length_append, framed_length]; omega)]
  simp only [framed, List.drop_zero, List.append_assoc]
  rw [List.take_left' (by rfl), beVal_be32 _ h]

theorem id_read (i : UInt8) (t rest : List UInt8) : popN (framed (i :: t) ++ rest) 4 1 = .ok i.toNat := by
  rw [popN_total (by rw [List.length_append, framed_length]; simp; omega)]
  simp [framed, be32, beVal]

/-- A complete framed message. -/
theorem parse_framed_mod (i : UInt8) (t rest : List UInt8) (h : (i :: t).length < 16777216) :
    parse (framed (i :: t) ++ rest) =
      (parseBody (framed (i :: t)) { id := i.toNat, messageSize := ((i :: t).length + 4) % 65536 } (i :: t).length).bind
        fun m => if m.id ≥ idInvalid then .ok { m with id := idInvalid, messageSize := 0 } else .ok m := by
  unfold parse
  have hl := framed_length (i :: t)
  have hl2 : (framed (i :: t) ++ rest).length = (i :: t).length + 4 + rest.length := by rw [List.length_append, hl]
  rw [if_neg (by omega), if_neg (by rw [not_starts _ _ (by omega)]; simp), size_read _ _ (by omega)]
  simp only [Res.bind_ok]
  rw [if_neg (by omega), if_neg (by simp), id_read]
  simp only [Res.bind_ok]
  rw [parseBody_append _ _ _ _ (by simp) (by omega)]
  rfl

theorem parse_framed (i : UInt8) (t rest : List UInt8) (h : (i :: t).length < 65532) :
    parse (framed (i :: t) ++ rest) =
      (parseBody (framed (i :: t)) { id := i.toNat, messageSize := (i :: t).length + 4 } (i :: t).length).bind
        fun m => if m.id ≥ idInvalid then .ok { m with id := idInvalid, messageSize := 0 } else .ok m := by
  rw [parse_framed_mod i t rest (by omega), Nat.mod_eq_of_lt (by omega)]

theorem parse_keepAlive (rest : List UInt8) : parse (framed [] ++ rest) = .ok { id := idKeepAlive, messageSize := 4 } := by
  unfold parse
  have hl := framed_length []
  have hl2 : (framed [] ++ rest).length = 4 + rest.length := by rw [List.length_append, hl]; simp
  rw [if_neg (by omega), if_neg (by rw [not_starts _ _ (by simp)]; simp), size_read _ _ (by simp)]
  simp

theorem starts_append (b rest : List UInt8) (h : b.length = 68) (hb : b.take 20 = 19 :: protocolName) :
    startsAsHandshake (b ++ rest) = true := by
  unfold startsAsHandshake
  rw [List.take_append_of_le_length (by omega), hb]
  simp [h]; omega

theorem parse_handshake (b rest : List UInt8) (h : b.length = 68) (hb : b.take 20 = 19 :: protocolName) :
    parse (b ++ rest) = .ok { id := idHandshake, messageSize := 68, handshake := some ⟨(b.drop 20).take 8, (b.drop 28).take 20, (b.drop 48).take 20⟩ } := by
  unfold parse
  rw [if_neg (by simp; omega), if_pos ⟨by simp; omega, starts_append b rest h hb⟩, view_append (by omega), view_append (by omega),
    view_append (by omega), view_total (by omega), view_total (by omega), view_total (by omega)]
  rfl

/-- A complete frame is decoded the same whatever follows. -/
theorem parse_frame (f : Frame) (hf : f.Ok) :
    ∃ m, (∀ rest, parse (f.bytes ++ rest) = .ok m) ∧ m.id ≠ idInvalid ∧ m.messageSize = f.bytes.length := by
  cases f with
  | handshake b =>
    refine ⟨_, fun rest => parse_handshake b rest hf.1 hf.2, by simp [idHandshake, idInvalid], ?_⟩
    exact hf.1.symm
  | body b =>
    obtain ⟨h1, h2⟩ := hf
    cases b with
    | nil => exact ⟨_, fun rest => parse_keepAlive rest, by decide, by simp [Frame.bytes, framed_length]⟩
    | cons i t =>
      have hi := h2 i rfl
      obtain ⟨m, hm, hid, hms⟩ := parseBody_total (framed (i :: t)) { id := i.toNat, messageSize := (i :: t).length + 4 } (i :: t).length
        (by simp) (by rw [framed_length]; exact Nat.le_refl _)
      simp only at hid hms
      refine ⟨m, ?_, ?_, ?_⟩
      · intro rest
        unfold Frame.bytes
        rw [parse_framed i t rest h1, hm]
        simp only [Res.bind]
        rw [if_neg (by unfold idInvalid; omega)]
      · unfold idInvalid; omega
      · rw [hms]; simp only [Frame.bytes]; rw [framed_length]

/-- An incomplete frame is waited for. -/
theorem parse_incomplete (f : Frame) (hf : f.Ok) (p q : List UInt8) (hpq : p ++ q = f.bytes) (hq : q ≠ []) :
    ∃ m, parse p = .ok m ∧ m.id = idInvalid ∧ m.messageSize ≠ 0 := by
  have hq' : 0 < q.length := List.length_pos_iff.mpr hq
  have hlen := congrArg List.length hpq
  rw [List.length_append] at hlen
  unfold parse
  by_cases h4 : p.length < 4
  · rw [if_pos h4]; exact ⟨_, rfl, rfl, by simp⟩
  · rw [if_neg h4]
    cases f with
    | handshake b =>
      have hb : b.length = 68 := hf.1
      simp only [Frame.bytes] at hlen hpq
      rw [if_neg (by omega), popN_total (by omega)]
      have htake : (p.drop 0).take 4 = [19, chr 'B', chr 'i', chr 't'] := by
        have h20 := hf.2
        rw [← hpq] at h20
        have : ((p ++ q).take 20).take 4 = p.take 4 := by
          rw [List.take_take, Nat.min_eq_left (by omega), List.take_append_of_le_length (by omega)]
        rw [List.drop_zero, ← this, h20]
        decide +kernel
      rw [htake]
      simp only [Res.bind_ok]
      have hv : beVal [19, chr 'B', chr 'i', chr 't'] = 323119476 := by decide +kernel
      rw [hv, if_pos (by omega)]
      exact ⟨_, rfl, rfl, by simp⟩
    | body b =>
      obtain ⟨h1, h2⟩ := hf
      simp only [Frame.bytes] at hlen hpq
      rw [framed_length] at hlen
      have hns : startsAsHandshake p = false := by
        refine Bool.eq_false_iff.mpr fun hc => ?_
        have hh := starts_head hc
        have := framed_head b [] (by omega)
        rw [List.append_nil, ← hpq] at this
        cases p with
        | nil => simp at h4
        | cons x t => simp at hh this; rw [hh] at this; cases this
      have hsz : popN p 0 4 = .ok b.length := by
        have := size_read b [] (by omega)
        rw [List.append_nil, ← hpq, popN_append (by omega)] at this
        exact this
      rw [if_neg (by rw [hns]; simp), hsz]
      simp only [Res.bind_ok]
      rw [if_pos (by omega)]
      exact ⟨_, rfl, rfl, by simp only; omega⟩

/-- The message a frame is decoded to. -/
def frameMsg (f : Frame) : Msg := match parse f.bytes with
  | .ok m => m
  | _ => {}

theorem parse_frameMsg (f : Frame) (hf : f.Ok) :
    (∀ rest, parse (f.bytes ++ rest) = .ok (frameMsg f)) ∧ (frameMsg f).id ≠ idInvalid ∧ (frameMsg f).messageSize = f.bytes.length := by
  obtain ⟨m, h1, h2, h3⟩ := parse_frame f hf
  have h0 := h1 []
  rw [List.append_nil] at h0
  have : frameMsg f = m := by unfold frameMsg; rw [h0]
  rw [this]; exact ⟨h1, h2, h3⟩

/-- What is left over: a proper beginning of the next frame. -/
def Short (p : List UInt8) : List Frame → Prop
  | [] => p = []
  | f :: _ => p.length < f.bytes.length

theorem bytes_pos (f : Frame) (hf : f.Ok) : 4 ≤ f.bytes.length := by
  cases f with
  | handshake b => have : b.length = 68 := hf.1; simp only [Frame.bytes]; omega
  | body b => simp only [Frame.bytes]; rw [framed_length]; omega

theorem split_prefix : ∀ (fs : List Frame) (x r : List UInt8), x ++ r = fs.flatMap Frame.bytes →
    ∃ k p, x = (fs.take k).flatMap Frame.bytes ++ p ∧ p ++ r = (fs.drop k).flatMap Frame.bytes ∧ k ≤ fs.length ∧
      Short p (fs.drop k)
  | [], x, r, h => by
    simp only [List.flatMap_nil, List.append_eq_nil_iff] at h
    exact ⟨0, [], by simp [h.1], by simp [h.2], by simp, rfl⟩
  | f :: fs, x, r, h => by
    rw [List.flatMap_cons] at h
    by_cases hx : x.length < f.bytes.length
    · exact ⟨0, x, by simp, by simpa using h, by simp, hx⟩
    · have hx1 : x.take f.bytes.length = f.bytes := by
        have := congrArg (List.take f.bytes.length) h
        rwa [List.take_append_of_le_length (by omega), List.take_left' rfl] at this
      have hx2 : x.drop f.bytes.length ++ r = fs.flatMap Frame.bytes := by
        have := congrArg (List.drop f.bytes.length) h
        rwa [List.drop_append_of_le_length (by omega), List.drop_left' rfl] at this
      obtain ⟨k, p, h1, h2, h3, h4⟩ := split_prefix fs _ r hx2
      refine ⟨k + 1, p, ?_, ?_, by simp; omega, ?_⟩
      · rw [List.take_succ_cons, List.flatMap_cons, List.append_assoc, ← h1, ← hx1, List.length_take,
          Nat.min_eq_left (by omega), List.take_append_drop]
      · rw [List.drop_succ_cons]; exact h2
      · rw [List.drop_succ_cons]; exact h4

theorem split_unique : ∀ (fs : List Frame) (k k' : Nat) (p p' : List UInt8),
    (fs.take k).flatMap Frame.bytes ++ p = (fs.take k').flatMap Frame.bytes ++ p' →
    Short p (fs.drop k) → Short p' (fs.drop k') → fs.take k = fs.take k' ∧ p = p'
  | [], k, k', p, p', h, _, _ => by simpa using h
  | f :: fs, 0, 0, p, p', h, _, _ => by simpa using h
  | f :: fs, 0, k' + 1, p, p', h, hs, _ => by
    have := congrArg List.length h
    simp only [Short, List.drop_zero] at hs
    simp at this; omega
  | f :: fs, k + 1, 0, p, p', h, _, hs => by
    have := congrArg List.length h
    simp only [Short, List.drop_zero] at hs
    simp at this; omega
  | f :: fs, k + 1, k' + 1, p, p', h, hs, hs' => by
    simp only [List.take_succ_cons, List.flatMap_cons, List.append_assoc, List.append_cancel_left_eq] at h
    simp only [List.drop_succ_cons] at hs hs'
    obtain ⟨h1, h2⟩ := split_unique fs k k' p p' h hs hs'
    exact ⟨by simp [h1], h2⟩

theorem receiveLoop_frames : ∀ (fs : List Frame) (pre p : List UInt8) (n : Nat), (∀ f ∈ fs, f.Ok) →
    (p = [] ∨ ∃ (f : Frame) (q : List UInt8), f.Ok ∧ p ++ q = f.bytes ∧ q ≠ []) → fs.length < n →
    receiveLoop (pre ++ fs.flatMap Frame.bytes ++ p) n pre.length =
      .ok (fs.map frameMsg, (pre ++ fs.flatMap Frame.bytes).length)
  | [], pre, p, n, _, hp, hn => by
    obtain ⟨n, rfl⟩ : ∃ m, n = m + 1 := ⟨n - 1, by simp at hn; omega⟩
    unfold receiveLoop
    have hd : (pre ++ List.flatMap Frame.bytes [] ++ p).drop pre.length = p := by simp
    rw [hd]
    have hm : ∃ m, parse p = .ok m ∧ m.id = idInvalid ∧ m.messageSize ≠ 0 := by
      rcases hp with rfl | ⟨f, q, h1, h2, h3⟩
      · exact ⟨{ messageSize := 1 }, rfl, rfl, by decide⟩
      · exact parse_incomplete f h1 p q h2 h3
    obtain ⟨m, h1, h2, h3⟩ := hm
    rw [h1]
    simp only [Res.bind_ok]
    rw [if_neg (by simp [h2]), if_neg h3]
    simp
  | f :: fs, pre, p, n, hf, hp, hn => by
    obtain ⟨n, rfl⟩ : ∃ m, n = m + 1 := ⟨n - 1, by simp at hn; omega⟩
    obtain ⟨h1, h2, h3⟩ := parse_frameMsg f (hf f (by simp))
    unfold receiveLoop
    have hd : (pre ++ List.flatMap Frame.bytes (f :: fs) ++ p).drop pre.length = f.bytes ++ (fs.flatMap Frame.bytes ++ p) := by
      simp
    rw [hd, h1]
    simp only [Res.bind_ok]
    rw [if_pos h2, h3]
    have ih := receiveLoop_frames fs (pre ++ f.bytes) p n (fun x hx => hf x (by simp [hx])) hp (by simp at hn; omega)
    have e1 : pre ++ f.bytes ++ fs.flatMap Frame.bytes = pre ++ List.flatMap Frame.bytes (f :: fs) := by simp
    rw [e1, List.length_append] at ih
    rw [ih]
    rfl

theorem flatMap_length (fs : List Frame) (hf : ∀ f ∈ fs, f.Ok) : fs.length ≤ (fs.flatMap Frame.bytes).length := by
  induction fs with
  | nil => simp
  | cons f fs ih =>
    have := bytes_pos f (hf f (by simp))
    have := ih (fun x hx => hf x (by simp [hx]))
    simp only [List.flatMap_cons, List.length_cons, List.length_append]; omega

theorem streamAll_frames (fuel : Nat) : ∀ (chunks : List (List UInt8)) (fs : List Frame) (p r : List UInt8),
    (∀ f ∈ fs, f.Ok) → p ++ chunks.flatten ++ r = fs.flatMap Frame.bytes → (p ++ chunks.flatten).length < fuel → Short p fs →
    ∃ k p', streamAll fuel p chunks = .ok ((fs.take k).map frameMsg, p') ∧
      (fs.take k).flatMap Frame.bytes ++ p' = p ++ chunks.flatten ∧ Short p' (fs.drop k)
  | [], fs, p, r, hf, h, hfu, hs => ⟨0, p, by simp [streamAll], by simp, hs⟩
  | c :: cs, fs, p, r, hf, h, hfu, hs => by
    rw [List.flatten_cons] at h hfu
    obtain ⟨k, p1, h1, h2, h3, h4⟩ := split_prefix fs (p ++ c) (cs.flatten ++ r) (by rw [← h]; simp)
    have hk := flatMap_length (fs.take k) (fun x hx => hf x (List.mem_of_mem_take hx))
    have hkl : (fs.take k).length < fuel := by
      have := congrArg List.length h1
      simp only [List.length_append] at this hfu
      omega
    have hp1 : p1 = [] ∨ ∃ (f : Frame) (q : List UInt8), f.Ok ∧ p1 ++ q = f.bytes ∧ q ≠ [] := by
      cases hd : fs.drop k with
      | nil => rw [hd] at h4; exact Or.inl h4
      | cons f ft =>
        right
        rw [hd] at h4 h2
        simp only [Short] at h4
        rw [List.flatMap_cons] at h2
        refine ⟨f, f.bytes.drop p1.length, hf f (List.mem_of_mem_drop (i := k) (by rw [hd]; simp)), ?_, ?_⟩
        · have := congrArg (List.take p1.length) h2
          rw [List.take_left' rfl, List.take_append_of_le_length (by omega)] at this
          conv => lhs; lhs; rw [this]
          exact List.take_append_drop _ _
        · intro hc
          have := congrArg List.length hc
          simp at this; omega
    have hrec := receiveLoop_frames (fs.take k) [] p1 fuel (fun x hx => hf x (List.mem_of_mem_take hx)) hp1 hkl
    simp only [List.nil_append, List.length_nil] at hrec
    rw [← h1] at hrec
    obtain ⟨k2, p2, g1, g2, g3⟩ := streamAll_frames fuel cs (fs.drop k) p1 r (fun x hx => hf x (List.mem_of_mem_drop hx))
      (by rw [← h2]; simp) (by
        have := congrArg List.length h1
        simp only [List.length_append] at this hfu ⊢
        omega) h4
    refine ⟨k + k2, p2, ?_, ?_, ?_⟩
    · unfold streamAll streamChunk dataReceived
      simp only
      rw [hrec]
      simp only [Res.bind_ok, Res.pure_eq]
      rw [h1, List.drop_left' rfl, g1]
      simp only [Res.bind_ok, Res.pure_eq]
      rw [List.take_add, List.map_append]
    · rw [List.take_add, List.flatMap_append, List.append_assoc, g2, List.flatten_cons, ← List.append_assoc, ← h1, List.append_assoc]
    · rw [List.drop_drop] at g3; exact g3

/-! ### Single messages -/

theorem view_at (i : UInt8) (t : List UInt8) (o n : Nat) (h : o + n ≤ t.length) :
    view (framed (i :: t)) (5 + o) n = .ok ((t.drop o).take n) := by
  rw [view_total (by rw [framed_length]; simp; omega)]
  congr 2
  unfold framed
  rw [← List.drop_drop]
  congr 1

theorem popN_at (i : UInt8) (t : List UInt8) (o n : Nat) (h : o + n ≤ t.length) :
    popN (framed (i :: t)) (5 + o) n = .ok (beVal ((t.drop o).take n)) := by
  unfold popN; rw [view_at i t o n h]; rfl

local macro "ids" : tactic =>
  `(tactic| simp [idHave, idBitfield, idRequest, idPiece, idCancel, idPort, idExtended])

theorem decode (w : Wire) (hw : w.Ok) (rest : List UInt8) :
    ∃ m, parse (w.encode ++ rest) = .ok m ∧ m.messageSize = w.encode.length ∧ toWire m = some w := by
  obtain ⟨hlen, hw⟩ := hw
  have fr : ∀ (i : UInt8) (t : List UInt8), (framed (i :: t)).length < 65536 → (i :: t).length < 65532 := by
    intro i t h; rw [framed_length] at h; omega
  cases w with
  | keepAlive => exact ⟨_, parse_keepAlive rest, by simp [Wire.encode, framed], rfl⟩
  | choke => exact ⟨_, parse_framed 0 [] rest (by simp), rfl, rfl⟩
  | unchoke => exact ⟨_, parse_framed 1 [] rest (by simp), rfl, rfl⟩
  | interested => exact ⟨_, parse_framed 2 [] rest (by simp), rfl, rfl⟩
  | notInterested => exact ⟨_, parse_framed 3 [] rest (by simp), rfl, rfl⟩
  | have_ k =>
    refine ⟨({ id := 4, havePiece := some k, messageSize := 9 } : Msg), (parse_framed 4 (be32 k) rest (fr _ _ hlen)).trans ?_, ?_, ?_⟩
    · unfold parseBody
      rw [if_pos ⟨by ids, by simp⟩, popN_at 4 (be32 k) 0 4 (by simp)]
      simp only [Res.bind_ok, List.drop_zero]
      rw [List.take_of_length_le (by simp), beVal_be32 _ hw]
      rfl
    · simp [Wire.encode, framed]
    · rfl
  | bitfield bits =>
    refine ⟨({ id := 5, bitfield := bits, messageSize := bits.length + 5 } : Msg), (parse_framed 5 bits rest (fr _ _ hlen)).trans ?_, ?_, ?_⟩
    · unfold parseBody
      rw [if_neg (by ids), if_pos (by ids), view_at 5 bits 0 _ (by simp)]
      simp only [List.drop_zero]
      rw [List.take_of_length_le (by simp)]
      rfl
    · simp [Wire.encode, framed]; omega
    · rfl
  | request i b l =>
    obtain ⟨h1, h2, h3⟩ := hw
    refine ⟨({ id := 6, request := some ⟨i, b, l⟩, messageSize := 17 } : Msg), (parse_framed 6 (be32 i ++ be32 b ++ be32 l) rest (fr _ _ hlen)).trans ?_, ?_, ?_⟩
    · unfold parseBody
      rw [if_neg (by ids), if_neg (by ids), if_pos ⟨by ids, by simp⟩, popN_at 6 _ 0 4 (by simp), popN_at 6 _ 4 4 (by simp),
        popN_at 6 _ 8 4 (by simp)]
      have e1 : ((be32 i ++ be32 b ++ be32 l).drop 0).take 4 = be32 i := rfl
      have e2 : ((be32 i ++ be32 b ++ be32 l).drop 4).take 4 = be32 b := rfl
      have e3 : ((be32 i ++ be32 b ++ be32 l).drop 8).take 4 = be32 l := rfl
      rw [e1, e2, e3, beVal_be32 _ h1, beVal_be32 _ h2, beVal_be32 _ h3]
      rfl
    · simp [Wire.encode, framed]
    · rfl
  | cancel i b l =>
    obtain ⟨h1, h2, h3⟩ := hw
    refine ⟨({ id := 8, request := some ⟨i, b, l⟩, messageSize := 17 } : Msg), (parse_framed 8 (be32 i ++ be32 b ++ be32 l) rest (fr _ _ hlen)).trans ?_, ?_, ?_⟩
    · unfold parseBody
      rw [if_neg (by ids), if_neg (by ids), if_neg (by ids), if_neg (by ids), if_pos ⟨by ids, by simp⟩, popN_at 8 _ 0 4 (by simp),
        popN_at 8 _ 4 4 (by simp), popN_at 8 _ 8 4 (by simp)]
      have e1 : ((be32 i ++ be32 b ++ be32 l).drop 0).take 4 = be32 i := rfl
      have e2 : ((be32 i ++ be32 b ++ be32 l).drop 4).take 4 = be32 b := rfl
      have e3 : ((be32 i ++ be32 b ++ be32 l).drop 8).take 4 = be32 l := rfl
      rw [e1, e2, e3, beVal_be32 _ h1, beVal_be32 _ h2, beVal_be32 _ h3]
      rfl
    · simp [Wire.encode, framed]
    · rfl
  | piece i b data =>
    obtain ⟨h1, h2, h3⟩ := hw
    have hd : 0 < data.length := List.length_pos_iff.mpr h3
    have hl : data.length < 65536 := by
      simp only [Wire.encode, framed_length] at hlen; simp at hlen; omega
    refine ⟨({ id := 7, piece := some ⟨i, b, data.length⟩, pieceData := data, messageSize := data.length + 13 } : Msg), (parse_framed 7 (be32 i ++ be32 b ++ data) rest (fr _ _ hlen)).trans ?_, ?_, ?_⟩
    · unfold parseBody
      rw [if_neg (by ids), if_neg (by ids), if_neg (by ids), if_pos ⟨by ids, by simp; omega⟩, popN_at 7 _ 0 4 (by simp),
        popN_at 7 _ 4 4 (by simp; omega), view_at 7 _ 8 _ (by simp only [List.length_append, be32_length, List.length_cons]; omega)]
      have e1 : ((be32 i ++ be32 b ++ data).drop 0).take 4 = be32 i := rfl
      have e2 : ((be32 i ++ be32 b ++ data).drop 4).take 4 = be32 b := rfl
      have e3 : ((be32 i ++ be32 b ++ data).drop 8) = data := rfl
      rw [e1, e2, e3, beVal_be32 _ h1, beVal_be32 _ h2, List.take_of_length_le (by simp; omega)]
      simp only [Res.bind_ok, Res.pure_eq, Res.bind]
      rw [show u32 data.length = data.length by unfold u32; omega]
      simp [idInvalid]; omega
    · simp [Wire.encode, framed]; omega
    · simp [toWire]
  | port p =>
    refine ⟨({ id := 9, port := some p, messageSize := 7 } : Msg), (parse_framed 9 (be16 p) rest (fr _ _ hlen)).trans ?_, ?_, ?_⟩
    · unfold parseBody
      rw [if_neg (by ids), if_neg (by ids), if_neg (by ids), if_neg (by ids), if_neg (by ids), if_pos ⟨by ids, by simp⟩,
        popN_at 9 (be16 p) 0 2 (by simp)]
      simp only [Res.bind_ok, List.drop_zero]
      rw [List.take_of_length_le (by simp), beVal_be16 _ hw]
      rfl
    · simp [Wire.encode, framed]
    · rfl
  | extended id data =>
    have hd : 0 < data.length := List.length_pos_iff.mpr hw
    refine ⟨({ id := 20, extendedId := some id.toNat, extendedData := data, messageSize := data.length + 6 } : Msg), (parse_framed 20 (id :: data) rest (fr _ _ hlen)).trans ?_, ?_, ?_⟩
    · unfold parseBody
      rw [if_neg (by ids), if_neg (by ids), if_neg (by ids), if_neg (by ids), if_neg (by ids), if_neg (by ids),
        if_pos ⟨by ids, by simp; omega⟩, popN_at 20 _ 0 1 (by simp), view_at 20 _ 1 _ (by simp; omega)]
      have e1 : beVal (((id :: data).drop 0).take 1) = id.toNat := by simp [beVal]
      rw [e1, List.drop_succ_cons, List.drop_zero, List.take_of_length_le (by simp)]
      rfl
    · simp [Wire.encode, framed]; omega
    · simp [toWire]
  | handshake r i p =>
    obtain ⟨h1, h2, h3⟩ := hw
    have hpn : (ascii "BitTorrent protocol").length = 19 := by decide
    have hl : (19 :: (ascii "BitTorrent protocol" ++ r ++ i ++ p)).length = 68 := by simp [hpn]; omega
    have ht : (19 :: (ascii "BitTorrent protocol" ++ r ++ i ++ p)).take 20 = 19 :: protocolName := by
      rw [List.take_succ_cons]; simp [protocolName, List.append_assoc, List.take_left' hpn]
    refine ⟨_, (congrArg parse rfl).trans (parse_handshake _ rest hl ht), ?_, ?_⟩
    · exact hl.symm
    · have d1 : (19 :: (ascii "BitTorrent protocol" ++ r ++ i ++ p)).drop 20 = r ++ i ++ p := by
        rw [List.drop_succ_cons, List.append_assoc, List.append_assoc, List.drop_left' hpn, List.append_assoc]
      have d2 : (19 :: (ascii "BitTorrent protocol" ++ r ++ i ++ p)).drop 28 = i ++ p := by
        rw [show 28 = 20 + 8 from rfl, ← List.drop_drop, d1, List.append_assoc, List.drop_left' h1]
      have d3 : (19 :: (ascii "BitTorrent protocol" ++ r ++ i ++ p)).drop 48 = p := by
        rw [show 48 = 28 + 20 from rfl, ← List.drop_drop, d2, List.drop_left' h2]
      simp only [Wire.encode]
      rw [d1, d2, d3, List.append_assoc, List.take_left' h1, List.take_left' h2, List.take_of_length_le (by omega)]
      rfl

theorem wire_frame (w : Wire) (hw : w.Ok) : ∃ f : Frame, f.Ok ∧ f.bytes = w.encode ∧ toWire (frameMsg f) = some w := by
  have key : ∃ f : Frame, f.Ok ∧ f.bytes = w.encode := by
    obtain ⟨hl, hw⟩ := hw
    cases w with
    | handshake r i p =>
      obtain ⟨h1, h2, h3⟩ := hw
      have hpn : (ascii "BitTorrent protocol").length = 19 := by decide
      refine ⟨.handshake (19 :: (ascii "BitTorrent protocol" ++ r ++ i ++ p)), ⟨by simp [hpn]; omega, ?_⟩, rfl⟩
      rw [List.take_succ_cons]; simp [List.append_assoc, List.take_left' hpn]
    | keepAlive => exact ⟨.body [], ⟨by simp, by simp⟩, rfl⟩
    | _ =>
      refine ⟨.body _, ⟨?_, ?_⟩, rfl⟩
      · simp only [Wire.encode, framed_length] at hl; omega
      · intro j hj; simp only [List.head?_cons, Option.some.injEq] at hj; subst hj; decide
  obtain ⟨f, h1, h2⟩ := key
  refine ⟨f, h1, h2, ?_⟩
  obtain ⟨m, h3, _, h5⟩ := decode w hw []
  have := (parse_frameMsg f h1).1 []
  rw [h2, h3] at this
  cases this
  exact h5

theorem messageSize_lt (b : List UInt8) (m : Msg) (h : parse b = .ok m) : m.messageSize < 65536 := by
  unfold parse at h
  split at h
  · cases h; simp
  · split at h
    · rw [view_total (by omega), view_total (by omega), view_total (by omega)] at h
      cases h; simp
    · rw [popN_total (by omega)] at h
      simp only [Res.bind_ok] at h
      split at h
      · cases h; simp only; omega
      · split at h
        · cases h; simp only; omega
        · rename_i h1 h2
          rw [popN_total (by omega)] at h
          simp only [Res.bind_ok] at h
          obtain ⟨m', hm, _, hms⟩ := parseBody_total b { id := beVal ((b.drop 4).take 1), messageSize := (beVal ((b.drop 0).take 4) + 4) % 65536 }
            (beVal ((b.drop 0).take 4)) (by omega) (by omega)
          rw [hm] at h
          simp only [Res.bind_ok] at h
          split at h
          · cases h; simp
          · cases h; rw [hms]; simp only; omega

/-- A message of exactly 64 KiB has message size 0. -/
theorem parse_wrapped (i : UInt8) (t rest : List UInt8) (hi : i.toNat < 23) (h : (i :: t).length = 65532) :
    ∃ m, parse (framed (i :: t) ++ rest) = .ok m ∧ m.id ≠ idInvalid ∧ m.messageSize = 0 := by
  rw [parse_framed_mod i t rest (by omega)]
  obtain ⟨m, hm, hid, hms⟩ := parseBody_total (framed (i :: t)) { id := i.toNat, messageSize := ((i :: t).length + 4) % 65536 } (i :: t).length
    (by omega) (by rw [framed_length]; exact Nat.le_refl _)
  simp only at hid hms
  refine ⟨m, ?_, ?_, ?_⟩
  · rw [hm]; simp only [Res.bind]; rw [if_neg (by unfold idInvalid; omega)]
  · unfold idInvalid; omega
  · rw [hms, h]

theorem receiveLoop_stuck (buf : List UInt8) (c : Nat) (m : Msg) (h : parse (buf.drop c) = .ok m) (h1 : m.id ≠ idInvalid)
    (h2 : m.messageSize = 0) : ∀ n, receiveLoop buf n c = .diverge
  | 0 => rfl
  | n + 1 => by
    unfold receiveLoop
    rw [h]
    simp only [Res.bind_ok]
    rw [if_pos h1, h2, Nat.add_zero, receiveLoop_stuck buf c m h h1 h2 n]
    rfl

/-! ### Flags -/

theorem runFlags_append (f : Flags) (a b : List FlagOp) : (runFlags f (a ++ b)).1 = (runFlags (runFlags f a).1 b).1 := by
  induction a generalizing f with
  | nil => rfl
  | cons o a ih => cases o <;> simp only [List.cons_append, runFlags, ih]

theorem runFlags_choking (f : Flags) (ops : List FlagOp) (h : ∀ o ∈ ops, o ≠ .message 0 ∧ o ≠ .message 1) :
    (runFlags f ops).1.peerChoking = f.peerChoking := by
  induction ops generalizing f with
  | nil => rfl
  | cons o ops ih =>
    have h0 := h o (by simp)
    have ih := fun f => ih f (fun x hx => h x (by simp [hx]))
    cases o with
    | message id =>
      have h1 : id ≠ 0 := fun hc => h0.1 (by rw [hc])
      have h2 : id ≠ 1 := fun hc => h0.2 (by rw [hc])
      simp only [runFlags, ih]
      unfold handleMessage
      rw [if_neg h2, if_neg h1]
      split
      · rfl
      · split
        · rfl
        · split <;> rfl
    | interested b =>
      simp only [runFlags, ih]; unfold setInterested; split
      · rfl
      · split <;> rfl
    | choke b =>
      simp only [runFlags, ih]; unfold setChoke; split
      · rfl
      · split <;> rfl

theorem established_mono (f : Flags) (ops : List FlagOp) (h : f.established = true) : (runFlags f ops).1.established = true := by
  induction ops generalizing f with
  | nil => exact h
  | cons o ops ih =>
    cases o with
    | message id =>
      simp only [runFlags]; apply ih; unfold handleMessage
      split
      · exact h
      · split
        · exact h
        · split
          · exact h
          · split
            · exact h
            · split
              · rfl
              · exact h
    | interested b =>
      simp only [runFlags]; apply ih; unfold setInterested; split
      · exact h
      · split <;> exact h
    | choke b =>
      simp only [runFlags]; apply ih; unfold setChoke; split
      · exact h
      · split <;> exact h

theorem handle_own (f : Flags) (id : Nat) : (handleMessage f id).amInterested = f.amInterested ∧ (handleMessage f id).amChoking = f.amChoking := by
  unfold handleMessage
  split
  · exact ⟨rfl, rfl⟩
  · split
    · exact ⟨rfl, rfl⟩
    · split
      · exact ⟨rfl, rfl⟩
      · split
        · exact ⟨rfl, rfl⟩
        · split <;> exact ⟨rfl, rfl⟩

theorem getLastD_cons {α : Type} (a d : α) (l : List α) : (a :: l).getLastD d = l.getLastD a := by
  cases l <;> rfl

/-- Our flags equal the last state message sent. -/
theorem own_flags (f : Flags) (ops : List FlagOp) :
    (runFlags f ops).1.amInterested = ((runFlags f ops).2.filterMap Spec.interestSent).getLastD f.amInterested ∧
    (runFlags f ops).1.amChoking = ((runFlags f ops).2.filterMap Spec.chokeSent).getLastD f.amChoking := by
  induction ops generalizing f with
  | nil => exact ⟨rfl, rfl⟩
  | cons o ops ih =>
    cases o with
    | message id =>
      simp only [runFlags]
      obtain ⟨h1, h2⟩ := ih (handleMessage f id)
      rw [(handle_own f id).1] at h1
      rw [(handle_own f id).2] at h2
      exact ⟨h1, h2⟩
    | interested b =>
      simp only [runFlags]
      have hstep : setInterested f b = (f, []) ∨ setInterested f b = ({ f with amInterested := b }, createStateMessage (if b then 2 else 3)) := by
        unfold setInterested; split
        · exact Or.inl rfl
        · split
          · exact Or.inl rfl
          · exact Or.inr rfl
      have e0 : Spec.interestSent [] = none := rfl
      have e1 : Spec.chokeSent [] = none := rfl
      rcases hstep with h | h
      · rw [h]; simp only [List.filterMap_cons, e0, e1]; exact ih f
      · rw [h]
        have e2 : Spec.interestSent (createStateMessage (if b then 2 else 3)) = some b := by cases b <;> rfl
        have e3 : Spec.chokeSent (createStateMessage (if b then 2 else 3)) = none := by cases b <;> rfl
        simp only [List.filterMap_cons, e2, e3, getLastD_cons]
        exact ih { f with amInterested := b }
    | choke b =>
      simp only [runFlags]
      have hstep : setChoke f b = (f, []) ∨ setChoke f b = ({ f with amChoking := b }, createStateMessage (if b then 0 else 1)) := by
        unfold setChoke; split
        · exact Or.inl rfl
        · split
          · exact Or.inl rfl
          · exact Or.inr rfl
      have e0 : Spec.interestSent [] = none := rfl
      have e1 : Spec.chokeSent [] = none := rfl
      rcases hstep with h | h
      · rw [h]; simp only [List.filterMap_cons, e0, e1]; exact ih f
      · rw [h]
        have e2 : Spec.interestSent (createStateMessage (if b then 0 else 1)) = none := by cases b <;> rfl
        have e3 : Spec.chokeSent (createStateMessage (if b then 0 else 1)) = some b := by cases b <;> rfl
        simp only [List.filterMap_cons, e2, e3, getLastD_cons]
        exact ih { f with amChoking := b }

end Verif.Peer
