import Verif.Model.Metadata
import Verif.Spec.Metadata
import Verif.Proof.BencodeGet
import Mathlib.Data.List.Basic
import Mathlib.Data.List.Range

namespace Verif.Metadata
open Verif Layout Bencode Spec

theorem initLoop_eq (sz p : Nat) (rem : List Nat) :
    initLoop sz p rem = (p + mdCount sz, rem ++ List.range' p (mdCount sz)) := by
  induction sz using Nat.strongRecOn generalizing p rem with
  | _ sz ih =>
    unfold initLoop
    by_cases h : sz > 0
    · rw [if_pos h]
      by_cases h2 : sz > PieceSize
      · rw [if_pos h2]
        have hc : mdCount sz = mdCount (sz - PieceSize) + 1 := by
          unfold mdCount PieceSize at *; omega
        rw [ih _ (by unfold PieceSize at *; omega), hc]
        rw [List.range'_succ]
        simp [Nat.add_assoc]
        omega
      · rw [if_neg h2]
        have hc : mdCount sz = 1 := by unfold mdCount PieceSize at *; omega
        rw [ih 0 h, hc]
        simp [mdCount, List.range'_succ]
    · rw [if_neg h]
      have : sz = 0 := by omega
      subst this
      simp [mdCount]

theorem init_eq (sz : Nat) :
    init sz = { buffer := List.replicate sz 0, pieces := mdCount sz, remaining := List.range (mdCount sz), next := 0 } := by
  simp [init, initLoop_eq, List.range_eq_range']

/-- The reconstruction `t` of the metadata `m` after the pieces `recv`. -/
structure Good (m : List UInt8) (recv : List Nat) (t : Meta) : Prop where
  len : t.buffer.length = m.length
  pieces : t.pieces = mdCount m.length
  rem : t.remaining = (List.range (mdCount m.length)).filter (fun k => k ∉ recv)
  bytes : ∀ i, i < m.length → i / 16384 ∈ recv → t.buffer[i]? = m[i]?

theorem good_init (m : List UInt8) : Good m [] (init m.length) := by
  rw [init_eq]
  exact ⟨by simp, rfl, by simp, by simp⟩

theorem mdPiece_length (m : List UInt8) (k : Nat) : (mdPiece m k).length = min 16384 (m.length - k * 16384) := by
  simp [mdPiece]

theorem copyAt_get {b d b' : List UInt8} {off : Nat} (h : copyAt b off d = .ok b') :
    b'.length = b.length ∧
    ∀ i, b'[i]? = if off ≤ i ∧ i < off + d.length then d[i - off]? else b[i]? := by
  unfold copyAt at h
  split at h
  · rename_i hle
    cases h
    refine ⟨by simp; omega, ?_⟩
    intro i
    by_cases h1 : i < off
    · rw [if_neg (by omega), List.append_assoc, List.getElem?_append_left (by simp; omega), List.getElem?_take]
      simp [h1]
    · by_cases h2 : i < off + d.length
      · rw [if_pos (by omega), List.append_assoc, List.getElem?_append_right (by simp; omega),
          List.getElem?_append_left (by simp; omega)]
        congr 1; simp; omega
      · rw [if_neg (by omega), List.getElem?_append_right (by simp; omega), List.getElem?_drop]
        congr 1; simp; omega
  · cases h

theorem good_add {m : List UInt8} {recv : List Nat} {t : Meta} (hm : m.length < 4294967296) (h : Good m recv t)
    (data : List UInt8) (k : Nat) (hd : k < mdCount m.length → data = mdPiece m k) :
    ∃ b t', addPiece t data k = .ok (b, t') ∧ Good m (k :: recv) t' ∧
      (b = true ↔ k < mdCount m.length ∧ k ∉ recv) ∧ t'.next = t.next := by
  unfold addPiece
  by_cases hk : k ∈ t.remaining
  · rw [if_pos hk]
    have hk' : k < mdCount m.length ∧ k ∉ recv := by
      rw [h.rem] at hk; simpa using hk
    have hdk := hd hk'.1
    have hlt : k * 16384 < m.length := by unfold mdCount at hk'; omega
    have hu : u32 (k * PieceSize) = k * 16384 := by unfold u32 PieceSize; omega
    have hl := mdPiece_length m k
    have hcp : copyAt t.buffer (u32 (k * PieceSize)) data = .ok (t.buffer.take (k * 16384) ++ data ++ t.buffer.drop (k * 16384 + data.length)) := by
      rw [hu]; unfold copyAt
      rw [if_pos (by rw [hdk, hl, h.len]; omega)]
    have hg := copyAt_get hcp
    rw [hcp]
    refine ⟨true, _, rfl, ⟨?_, h.pieces, ?_, ?_⟩, by simpa using hk', rfl⟩
    · exact hg.1.trans h.len
    · simp only
      rw [h.rem, List.Nodup.erase_eq_filter (List.Pairwise.filter _ List.nodup_range), List.filter_filter]
      apply List.filter_congr
      intro x _
      simp only [List.mem_cons, not_or, Bool.decide_and, ne_eq]
      by_cases hxk : x = k <;> simp [hxk]
    · intro i hi hin
      simp only
      rw [hg.2 i, hu]
      by_cases hik : i / 16384 = k
      · rw [if_pos (by rw [hdk, hl]; omega), hdk]
        unfold mdPiece
        rw [List.getElem?_take_of_lt (by omega), List.getElem?_drop]
        congr 1; omega
      · rw [if_neg (by rw [hdk, hl]; omega)]
        exact h.bytes i hi (by simpa [hik] using hin)
  · rw [if_neg hk]
    have hk' : k < mdCount m.length → k ∈ recv := by
      intro hlt
      rw [h.rem] at hk
      simp only [List.mem_filter, List.mem_range, not_and] at hk
      simpa using hk hlt
    refine ⟨false, t, rfl, ⟨h.len, h.pieces, ?_, ?_⟩, by simp; exact hk', rfl⟩
    · rw [h.rem]
      apply List.filter_congr
      intro x hx
      have := List.mem_range.mp hx
      by_cases hxk : x = k
      · subst hxk; simp [hk' this]
      · simp [hxk]
    · intro i hi hin
      refine h.bytes i hi ?_
      rcases List.mem_cons.mp hin with he | he
      · rw [he]; apply hk'; unfold mdCount; omega
      · exact he

theorem good_next {m : List UInt8} {recv : List Nat} {t : Meta} (h : Good m recv t) : Good m recv (getMissing t).2 := by
  unfold getMissing
  split
  · exact h
  · exact ⟨h.len, h.pieces, h.rem, h.bytes⟩

theorem getMissing_mem {t : Meta} (h : t.remaining ≠ []) : (getMissing t).1 ∈ t.remaining := by
  unfold getMissing
  split
  · rename_i hl; rw [List.getLast?_eq_none_iff] at hl; exact absurd hl h
  · rename_i last hl
    have hmem := List.mem_of_getLast? hl
    simp only
    generalize hn : (if t.next > last then 0 else t.next) = n
    have hle : n ≤ last := by rw [← hn]; split <;> omega
    cases hf : t.remaining.find? (fun k => decide (n ≤ k)) with
    | none =>
      rw [List.find?_eq_none] at hf
      exact absurd (by simpa using hle) (hf last hmem)
    | some k => exact List.mem_of_find?_eq_some hf

theorem run_good {m : List UInt8} (hm : m.length < 4294967296) :
    ∀ (ops : List Op) (recv : List Nat) (t : Meta), Good m recv t →
      (∀ data k, Op.add data k ∈ ops → k < mdCount m.length → data = mdPiece m k) →
      ∃ as t', run t ops = .ok (as, t') ∧ ∃ recv', Good m recv' t' ∧ ∀ k, k ∈ recv' ↔ k ∈ recv ∨ k ∈ arrivals ops
  | [], recv, t, h, _ => ⟨[], t, rfl, recv, h, by simp [arrivals]⟩
  | .add data k :: ops, recv, t, h, hd => by
    obtain ⟨b, t1, h1, h2, _, _⟩ := good_add hm h data k (hd data k (by simp))
    obtain ⟨as, t', h3, recv', h4, h5⟩ := run_good hm ops _ t1 h2 (fun d k hk => hd d k (by simp [hk]))
    refine ⟨as, t', ?_, recv', h4, ?_⟩
    · unfold run; rw [h1]; exact h3
    · intro x; rw [h5, List.mem_cons, arrivals, List.mem_cons]; tauto
  | .next :: ops, recv, t, h, hd => by
    obtain ⟨as, t', h3, recv', h4, h5⟩ := run_good hm ops _ _ (good_next h) (fun d k hk => hd d k (by simp [hk]))
    refine ⟨(getMissing t).1 :: as, t', ?_, recv', h4, h5⟩
    unfold run; simp only [h3]; rfl

theorem good_finished {m : List UInt8} {recv : List Nat} {t : Meta} (h : Good m recv t) :
    (finished t = true ↔ m ≠ [] ∧ ∀ k, k < mdCount m.length → k ∈ recv) := by
  unfold finished
  rw [Bool.and_eq_true, h.rem, h.pieces, List.isEmpty_iff, List.filter_eq_nil_iff]
  have : (mdCount m.length != 0) = true ↔ m ≠ [] := by
    rw [bne_iff_ne, ← List.length_pos_iff]
    unfold mdCount; omega
  rw [this]
  constructor
  · rintro ⟨h1, h2⟩
    exact ⟨h2, fun k hk => by simpa using h1 k (List.mem_range.mpr hk)⟩
  · rintro ⟨h1, h2⟩
    exact ⟨fun k hk => by simpa using h2 k (List.mem_range.mp hk), h1⟩

theorem good_complete {m : List UInt8} {recv : List Nat} {t : Meta} (h : Good m recv t)
    (hall : ∀ k, k < mdCount m.length → k ∈ recv) : t.buffer = m := by
  apply List.ext_getElem?
  intro i
  by_cases hi : i < m.length
  · exact h.bytes i hi (hall _ (by unfold mdCount; omega))
  · rw [List.getElem?_eq_none (by rw [h.len]; omega), List.getElem?_eq_none (by omega)]

/-! ### Rotation of requests -/

theorem find_hit {l : List Nat} (hs : l.Pairwise (· < ·)) {k : Nat} (hk : k ∈ l) :
    l.find? (fun j => decide (k ≤ j)) = some k := by
  induction l with
  | nil => cases hk
  | cons a l ih =>
    rw [List.pairwise_cons] at hs
    rcases List.mem_cons.mp hk with rfl | hk'
    · simp
    · have := hs.1 k hk'
      rw [List.find?_cons_of_neg (by simp; omega)]
      exact ih hs.2 hk'

theorem sorted_last {l : List Nat} (hs : l.Pairwise (· < ·)) {k last : Nat} (hk : k ∈ l) (hl : l.getLast? = some last) :
    k ≤ last := by
  obtain ⟨ys, rfl⟩ : ∃ ys, l = ys ++ [last] := by
    rw [List.getLast?_eq_some_iff] at hl; exact hl
  rcases List.mem_append.mp hk with h | h
  · exact Nat.le_of_lt ((List.pairwise_append.mp hs).2.2 k h last (by simp))
  · have := List.mem_singleton.mp h; omega

/-- Asking `d` times when the counter is `d` steps below the piece. -/
theorem ask_up {t : Meta} (hs : t.remaining.Pairwise (· < ·)) {k last : Nat} (hk : k ∈ t.remaining)
    (hlast : t.remaining.getLast? = some last) (h32 : last < 4294967295) :
    ∀ (d : Nat) (n : Nat), n + d = k →
      ∃ as t', run { t with next := n } (List.replicate (d + 1) .next) = .ok (as, t') ∧ k ∈ as := by
  have hkl := sorted_last hs hk hlast
  intro d
  induction d with
  | zero =>
    intro n hn
    have hn : n = k := by omega
    subst hn
    simp only [List.replicate, run, getMissing, hlast]
    rw [if_neg (by omega), find_hit hs hk]
    exact ⟨_, _, rfl, by simp⟩
  | succ d ih =>
    intro n hn
    obtain ⟨as, t', h1, h2⟩ := ih (n + 1) (by omega)
    rw [List.replicate_succ]
    unfold run
    simp only [getMissing, hlast]
    rw [if_neg (by omega), show u32 (n + 1) = n + 1 by unfold u32; omega, h1]
    exact ⟨_, t', rfl, by simp [h2]⟩

theorem run_more {t : Meta} {k : Nat} : ∀ (a b : Nat), a ≤ b →
    (∃ as t', run t (List.replicate a .next) = .ok (as, t') ∧ k ∈ as) →
    ∃ as t', run t (List.replicate b .next) = .ok (as, t') ∧ k ∈ as := by
  have tot : ∀ (b : Nat) (t : Meta), ∃ as t', run t (List.replicate b .next) = .ok (as, t') := by
    intro b
    induction b with
    | zero => intro t; exact ⟨_, _, rfl⟩
    | succ b ih =>
      intro t
      obtain ⟨as, t', h⟩ := ih (getMissing t).2
      rw [List.replicate_succ]; unfold run; simp only [h]
      exact ⟨_, _, rfl⟩
  intro a
  induction a generalizing t with
  | zero =>
    rintro b _ ⟨as, t', h, hk⟩
    simp only [List.replicate, run, Res.ok.injEq, Prod.mk.injEq] at h
    rw [← h.1] at hk; cases hk
  | succ a ih =>
    rintro b hb ⟨as, t', h, hk⟩
    obtain ⟨b, rfl⟩ : ∃ c, b = c + 1 := ⟨b - 1, by omega⟩
    rw [List.replicate_succ] at h ⊢
    unfold run at h ⊢
    obtain ⟨as2, t2, h2⟩ := tot a (getMissing t).2
    simp only [h2, Res.bind_ok, Res.pure_eq, Res.ok.injEq, Prod.mk.injEq] at h
    rw [← h.1] at hk
    rcases List.mem_cons.mp hk with hk | hk
    · obtain ⟨as3, t3, h3⟩ := tot b (getMissing t).2
      simp only [h3]
      exact ⟨_, _, rfl, by simp [hk]⟩
    · obtain ⟨as3, t3, h3, h4⟩ := ih b (by omega) ⟨as2, t2, h2, hk⟩
      simp only [h3]
      exact ⟨_, _, rfl, by simp [h4]⟩

theorem ask_all {t : Meta} (hs : t.remaining.Pairwise (· < ·)) {k last : Nat} (hk : k ∈ t.remaining)
    (hlast : t.remaining.getLast? = some last) (h32 : last < 4294967295) :
    ∀ (d n : Nat), last + 1 - n = d →
      ∃ as t', run { t with next := n } (List.replicate (d + k + 1) .next) = .ok (as, t') ∧ k ∈ as := by
  have hkl := sorted_last hs hk hlast
  intro d
  induction d with
  | zero =>
    intro n hn
    -- the counter is past the end and starts again at 0
    obtain ⟨as, t', h1, h2⟩ := ask_up hs hk hlast h32 k 0 (by omega)
    rw [Nat.zero_add]
    refine ⟨as, t', ?_, h2⟩
    rw [← h1, List.replicate_succ]
    unfold run
    simp only [getMissing, hlast]
    rw [if_pos (by omega), if_neg (by omega)]
  | succ d ih =>
    intro n hn
    obtain ⟨as, t', h1, h2⟩ := ih (n + 1) (by omega)
    rw [show d + 1 + k + 1 = (d + k + 1) + 1 by omega, List.replicate_succ]
    unfold run
    simp only [getMissing, hlast]
    rw [if_neg (by omega), show u32 (n + 1) = n + 1 by unfold u32; omega, h1]
    exact ⟨_, t', rfl, by simp [h2]⟩

/-! ### Messages -/

/-- The dictionary of a piece message. -/
def pieceDict (index total : Nat) : BVal :=
  .dict [(ascii "msg_type", .int 1), (ascii "piece", .int index), (ascii "total_size", .int total)]

theorem pieceResponse_eq (index : Nat) (data : List UInt8) (total : Nat) :
    pieceResponse index data total = (pieceDict index total).enc ++ data := by
  simp only [pieceResponse, pieceDict, BVal.enc, encDict, encStr, addRawData, endMap, addRawItemNumber, addNumber, startMap]
  have h1 : ascii "8:msg_type" = dec (ascii "msg_type").length ++ chr ':' :: ascii "msg_type" := by decide +kernel
  have h2 : ascii "5:piece" = dec (ascii "piece").length ++ chr ':' :: ascii "piece" := by decide +kernel
  have h3 : ascii "10:total_size" = dec (ascii "total_size").length ++ chr ':' :: ascii "total_size" := by decide +kernel
  rw [h1, h2, h3]
  simp

theorem load_response (index total : Nat) (data after : List UInt8) (hi : index < 2147483648) (ht : 0 < total)
    (ht2 : total < 2147483648) (hd : data.length ≤ 16384) (hne : data ++ after ≠ []) (fuel : Nat)
    (hfuel : (pieceResponse index data total).length ≤ fuel) :
    load fuel (pieceResponse index data total) after =
      .ok (true, { type := some 1, piece := some index, metadata := data, totalSize := some total }) := by
  rw [pieceResponse_eq] at *
  generalize hv : pieceDict index total = v at *
  have hfits : v.fits := by
    rw [← hv]
    simp only [pieceDict, BVal.fits, fitsDict]
    refine ⟨by decide, by omega, by decide, by omega, by decide, by omega, trivial⟩
  have hcnt : v.count < 65536 := by rw [← hv]; simp [pieceDict, BVal.count, countDict]
  obtain ⟨p, h1, h2, h3, h4, h5⟩ := parseAt_enc v fuel ((v.enc ++ data) ++ after) 0 (v.enc ++ data).length (data ++ after)
    (by simp) hne (by simp) hfits hcnt (by simp at hfuel; omega)
  obtain ⟨o, h6, h7⟩ := root_at h5
  unfold load
  rw [show parse fuel (v.enc ++ data) after = .ok p from h1]
  simp only [Res.bind_ok, h6]
  have hvt : v.ty = .dictionary := by rw [← hv]; rfl
  rw [hvt] at h7
  rw [if_neg (by rw [h7]; simp)]
  have h5' : AtPos ((v.enc ++ data) ++ after) p.objs 0
      (.dict [(ascii "msg_type", .int 1), (ascii "piece", .int index), (ascii "total_size", .int total)]) 0 := by
    rw [← hv] at h5 ⊢; exact h5
  have hl1 : lookup [(ascii "msg_type", BVal.int 1), (ascii "piece", .int index), (ascii "total_size", .int total)] (ascii "msg_type") .number =
      some (.int 1) := by simp [lookup, BVal.ty]
  have hl2 : lookup [(ascii "msg_type", BVal.int 1), (ascii "piece", .int index), (ascii "total_size", .int total)] (ascii "piece") .number =
      some (.int index) := by
    simp [lookup, BVal.ty, show ascii "msg_type" ≠ ascii "piece" by decide]
  have hl3 : lookup [(ascii "msg_type", BVal.int 1), (ascii "piece", .int index), (ascii "total_size", .int total)] (ascii "total_size") .number =
      some (.int total) := by
    simp [lookup, BVal.ty, show ascii "msg_type" ≠ ascii "total_size" by decide, show ascii "piece" ≠ ascii "total_size" by decide]
  have hk1 := findKey_lookup h5' (ascii "msg_type") .number
  rw [hl1] at hk1
  obtain ⟨_, j, pos', hj, hj2⟩ := hk1
  obtain ⟨oj, hj3, hj4, _⟩ := hj2.int
  have hg2 := getIntKey_dict h5' (ascii "piece") (by intro n hn; rw [hl2] at hn; cases hn; omega)
  have hg3 := getIntKey_dict h5' (ascii "total_size") (by intro n hn; rw [hl3] at hn; cases hn; omega)
  rw [hl2] at hg2
  rw [hl3] at hg3
  simp only at hg2 hg3
  rw [toInt32_id (by omega) (by omega)] at hg2 hg3
  rw [hj]
  simp only [Res.bind_ok, hj3, hj4 (by omega), show toInt32 ((1 : Nat) : Int) = 1 by decide, hg2, hg3]
  have e1 : ((index : Int) % 4294967296).toNat = index := by omega
  have e2 : ((total : Int) % 4294967296).toNat = total := by omega
  have hrem : p.remaining = data.length := by rw [h3]; simp
  have hbe : p.bodyEnd = v.enc.length := by rw [h2]; simp
  rw [if_neg (by decide), if_pos trivial, e1, e2, hrem, hbe, if_pos ⟨by omega, hd⟩]
  simp

/-! ### Download -/

theorem handshake_init (d : Dl) (m : List UInt8) (hm : m ≠ []) (h : d.md.pieces = 0) :
    (handshake d m.length).md = init m.length := by
  have : m.length ≠ 0 := by have := List.length_pos_iff.mpr hm; omega
  simp [handshake, this, h]

theorem receiveAll_ok (size : Nat) (hs : size < 4294967296) : ∀ (ms : List (Bool × Msg)) (d : Dl),
    d.md.buffer.length = size → (∀ k ∈ d.md.remaining, k < mdCount size) → (∀ m ∈ ms, Fits size m) →
    ∃ d', receiveAll d ms = .ok d' ∧ d'.md.buffer.length = size
  | [], d, h1, _, _ => ⟨d, rfl, h1⟩
  | m :: ms, d, h1, h2, h3 => by
    have key : ∃ d1, receive d m.1 m.2 = .ok d1 ∧ d1.md.buffer.length = size ∧ ∀ k ∈ d1.md.remaining, k < mdCount size := by
      unfold receive
      by_cases ha : d.active
      · simp only [ha, Bool.not_true, Bool.false_eq_true, if_false]
        by_cases hm : m.1
        · simp only [hm, Bool.not_true, Bool.false_eq_true, if_false]
          obtain ⟨hf1, hf2⟩ := h3 m (by simp) hm
          cases ht : m.2.type with
          | none => exact absurd ht hf1
          | some t =>
            by_cases ht1 : t = 1
            · subst ht1
              obtain ⟨piece, total, e1, e2, e3⟩ := hf2 ht
              simp only [e1, e2]
              by_cases hsz : d.md.buffer.length ≠ total
              · rw [if_pos hsz]; exact ⟨d, rfl, h1, h2⟩
              · rw [if_neg hsz]
                have hle := e3 (by omega)
                unfold addPiece
                by_cases hk : piece ∈ d.md.remaining
                · have hu : u32 (piece * PieceSize) = piece * 16384 := by
                    have := h2 piece hk
                    unfold u32 PieceSize mdCount at *; omega
                  rw [if_pos hk, hu]
                  have hcp : copyAt d.md.buffer (piece * 16384) m.2.metadata = .ok (d.md.buffer.take (piece * 16384) ++ m.2.metadata ++
                      d.md.buffer.drop (piece * 16384 + m.2.metadata.length)) := by
                    unfold copyAt; rw [if_pos (by omega)]
                  have hl := (copyAt_get hcp).1
                  rw [hcp]
                  simp only [Res.bind_ok, Res.pure_eq]
                  split
                  · exact ⟨_, rfl, by simp only; omega, fun k hk' => h2 k (List.mem_of_mem_erase hk')⟩
                  · exact ⟨_, rfl, by simp only; omega, fun k hk' => h2 k (List.mem_of_mem_erase hk')⟩
                · rw [if_neg hk]
                  simp only [Res.bind_ok, Res.pure_eq]
                  split
                  · exact ⟨_, rfl, h1, h2⟩
                  · exact ⟨_, rfl, h1, h2⟩
            · split
              · rename_i h; cases h
              · rename_i h; cases h; exact absurd rfl ht1
              · exact ⟨d, rfl, h1, h2⟩
        · simp only [hm, Bool.not_false, if_true]; exact ⟨d, rfl, h1, h2⟩
      · simp only [ha, Bool.not_false, if_true]; exact ⟨d, rfl, h1, h2⟩
    obtain ⟨d1, k1, k2, k3⟩ := key
    obtain ⟨d', k4, k5⟩ := receiveAll_ok size hs ms d1 k2 k3 (fun x hx => h3 x (by simp [hx]))
    exact ⟨d', by unfold receiveAll; rw [k1]; exact k4, k5⟩

theorem addPiece_pieces {m : Meta} {data : List UInt8} {index : Nat} {r : Bool × Meta} (h : addPiece m data index = .ok r) :
    r.2.pieces = m.pieces := by
  unfold addPiece at h
  split at h
  · cases hc : copyAt m.buffer (u32 (index * PieceSize)) data with
    | ok b => rw [hc] at h; simp only [Res.bind_ok, Res.pure_eq] at h; cases h; rfl
    | ub => rw [hc] at h; cases h
    | diverge => rw [hc] at h; cases h
  · cases h; rfl

theorem receive_pieces {d d' : Dl} {ok : Bool} {msg : Msg} (h : receive d ok msg = .ok d') : d'.md.pieces = d.md.pieces := by
  unfold receive at h
  split at h
  · cases h; rfl
  · split at h
    · cases h; rfl
    · split at h
      · cases h
      · split at h
        · split at h
          · cases h; rfl
          · rename_i piece total _ _ _
            cases ha : addPiece d.md msg.metadata piece with
            | ok r =>
              rw [ha] at h
              simp only [Res.bind_ok, Res.pure_eq] at h
              split at h <;> · cases h; exact addPiece_pieces ha
            | ub => rw [ha] at h; cases h
            | diverge => rw [ha] at h; cases h
        · cases h
      · cases h; rfl

theorem receiveAll_pieces : ∀ (ms : List (Bool × Msg)) {d d' : Dl}, receiveAll d ms = .ok d' → d'.md.pieces = d.md.pieces
  | [], d, d', h => by cases h; rfl
  | m :: ms, d, d', h => by
    unfold receiveAll at h
    cases hr : receive d m.1 m.2 with
    | ok d1 => rw [hr] at h; exact (receiveAll_pieces ms h).trans (receive_pieces hr)
    | ub => rw [hr] at h; cases h
    | diverge => rw [hr] at h; cases h

end Verif.Metadata
