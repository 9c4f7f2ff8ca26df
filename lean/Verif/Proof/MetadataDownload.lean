import Verif.Model.MetadataDownload
import Verif.Proof.Metadata

namespace Verif.Metadata
open Verif Layout Bencode Spec

theorem asks_append (a b : List Out) : asks (a ++ b) = asks a ++ asks b := by
  induction a with
  | nil => rfl
  | cons x xs ih => cases x <;> simp [asks, ih]

/-- How many of the requests on their way are for pieces that are there. -/
def stale (t : Meta) (fl : List (Nat × Nat)) : Nat := (fl.filter fun q => q.2 ∉ t.remaining).length

/-- What holds of the download with peers that have the metadata `m`: before the first handshake, and after it. -/
structure Ready (m : List UInt8) (w : World) : Prop where
  active : w.s.d.active = true
  good : ∃ recv, Good m recv w.s.d.md
  flag : w.s.d.finishedFlag = finished w.s.d.md
  len : w.flight.length ≤ w.asked
  known : ∀ q ∈ w.flight, q.2 < mdCount m.length
  count : w.answers + stale w.s.d.md w.flight ≤ (mdCount m.length - w.s.d.md.remaining.length) * w.asked
  rem : w.s.d.md.remaining.length ≤ mdCount m.length
  posted : w.s.d.stopPosted = w.s.d.finishedFlag

/-- Before the first handshake. -/
structure Fresh (w : World) : Prop where
  active : w.s.d.active = true
  pieces : w.s.d.md = {}
  flag : w.s.d.finishedFlag = false
  comms : w.s.comms = []
  flight : w.flight = []
  answers : w.answers = 0
  asked : w.asked = 0
  posted : w.s.d.stopPosted = false

theorem good_rem_lt {m : List UInt8} {recv : List Nat} {t : Meta} (h : Good m recv t) : ∀ k ∈ t.remaining, k < mdCount m.length := by
  intro k hk
  rw [h.rem] at hk
  exact List.mem_range.1 (List.mem_filter.1 hk).1

theorem getMissing_rem (t : Meta) : (getMissing t).2.remaining = t.remaining ∧ (getMissing t).2.pieces = t.pieces ∧
    (getMissing t).2.buffer = t.buffer := by
  unfold getMissing
  split <;> exact ⟨rfl, rfl, rfl⟩

theorem getMissing_finished (t : Meta) : finished (getMissing t).2 = finished t := by
  unfold finished
  rw [(getMissing_rem t).1, (getMissing_rem t).2.1]

theorem unfinished_rem {m : List UInt8} {recv : List Nat} {t : Meta} (hm : m ≠ []) (h : Good m recv t) (hf : finished t = false) :
    t.remaining ≠ [] := by
  unfold finished at hf
  intro he
  rw [he, h.pieces] at hf
  have : 0 < m.length := List.length_pos_iff.2 hm
  have : 0 < mdCount m.length := by unfold mdCount; omega
  simp at hf
  omega

theorem stale_append (t : Meta) (a b : List (Nat × Nat)) : stale t (a ++ b) = stale t a + stale t b := by
  unfold stale; rw [List.filter_append, List.length_append]

theorem stale_le (t : Meta) (a : List (Nat × Nat)) : stale t a ≤ a.length := by
  unfold stale; exact List.length_filter_le _ _

theorem stale_sublist (t : Meta) {a b : List (Nat × Nat)} (h : a.Sublist b) : stale t a ≤ stale t b := by
  unfold stale; exact (h.filter _).length_le

theorem stale_congr {t t' : Meta} (h : t'.remaining = t.remaining) (a : List (Nat × Nat)) : stale t' a = stale t a := by
  unfold stale; rw [h]

/-- One request: sent if not finished, for a piece that is missing. -/
theorem requestPiece_spec {m : List UInt8} {recv : List Nat} {s : Net} (hm : m ≠ []) (ha : s.d.active = true) (hg : Good m recv s.d.md)
    (hfl : s.d.finishedFlag = finished s.d.md) (p now : Nat) :
    (requestPiece s p now).1.d.active = true ∧ Good m recv (requestPiece s p now).1.d.md ∧
    (requestPiece s p now).1.d.finishedFlag = finished (requestPiece s p now).1.d.md ∧
    (requestPiece s p now).1.d.md.remaining = s.d.md.remaining ∧ (requestPiece s p now).1.comms = s.comms ∧
    (requestPiece s p now).1.d.finishedFlag = s.d.finishedFlag ∧
    (finished s.d.md = false → ∃ k ∈ s.d.md.remaining, asks (requestPiece s p now).2 = [(p, k)]) ∧
    (finished s.d.md = true → asks (requestPiece s p now).2 = []) ∧
    (requestPiece s p now).1.d.stopPosted = s.d.stopPosted := by
  unfold requestPiece
  cases hf : finished s.d.md with
  | true =>
    rw [if_neg (by rw [hfl, hf]; simp)]
    exact ⟨ha, hg, hfl, rfl, rfl, rfl, by simp, by simp [asks], rfl⟩
  | false =>
    rw [if_pos (by rw [ha, hfl, hf]; rfl)]
    refine ⟨ha, good_next hg, ?_, (getMissing_rem _).1, rfl, rfl, ?_, by simp, rfl⟩
    · simp only [getMissing_finished]; exact hfl
    · intro _
      exact ⟨_, getMissing_mem (unfinished_rem hm hg hf), rfl⟩

/-- The loop of the timer. -/
theorem askAll_spec {m : List UInt8} {recv : List Nat} (hm : m ≠ []) (now : Nat) : ∀ (ps : List Nat) {s : Net}, s.d.active = true →
    Good m recv s.d.md → s.d.finishedFlag = finished s.d.md → finished s.d.md = false →
    (askAll ps now s).1.d.active = true ∧ Good m recv (askAll ps now s).1.d.md ∧
    (askAll ps now s).1.d.finishedFlag = finished (askAll ps now s).1.d.md ∧
    (askAll ps now s).1.d.md.remaining = s.d.md.remaining ∧ (askAll ps now s).1.comms = s.comms ∧
    (asks (askAll ps now s).2).map Prod.fst = ps ∧ (∀ q ∈ asks (askAll ps now s).2, q.2 ∈ s.d.md.remaining) ∧
    (askAll ps now s).1.d.stopPosted = s.d.stopPosted ∧ (askAll ps now s).1.d.finishedFlag = s.d.finishedFlag
  | [], s, ha, hg, hfl, hf => by unfold askAll; exact ⟨ha, hg, hfl, rfl, rfl, rfl, by simp [asks], rfl, rfl⟩
  | p :: ps, s, ha, hg, hfl, hf => by
    obtain ⟨a1, a2, a3, a4, a5, a6, a7, -, a9⟩ := requestPiece_spec hm ha hg hfl p now
    obtain ⟨k, hk, hq⟩ := a7 hf
    have hf' : finished (requestPiece s p now).1.d.md = false := by rw [← a3, a6, hfl, hf]
    obtain ⟨b1, b2, b3, b4, b5, b6, b7, b8, b9⟩ := askAll_spec hm now ps a1 a2 a3 hf'
    unfold askAll
    refine ⟨b1, b2, b3, b4.trans a4, b5.trans a5, ?_, ?_, b8.trans a9, b9.trans a6⟩
    · simp only [asks_append, hq, List.map_append, b6]; rfl
    · intro q hq'
      simp only [asks_append, hq, List.mem_append, List.mem_singleton] at hq'
      rcases hq' with rfl | hq'
      · exact hk
      · rw [a4] at b7; exact b7 q hq'

/-- More requests for pieces that are missing. -/
theorem Ready.more {m : List UInt8} {w : World} (h : Ready m w) {s' : Net} {fl : List (Nat × Nat)} (h1 : s'.d.active = true)
    (h2 : ∃ recv, Good m recv s'.d.md) (h3 : s'.d.finishedFlag = finished s'.d.md) (h4 : s'.d.md.remaining = w.s.d.md.remaining)
    (h5 : ∀ q ∈ fl, q.2 ∈ w.s.d.md.remaining) (h7 : s'.d.stopPosted = s'.d.finishedFlag) :
    Ready m { w with s := s', flight := w.flight ++ fl, asked := w.asked + fl.length } := by
  obtain ⟨recv, hg⟩ := h.good
  have h0 : stale s'.d.md fl = 0 := by
    unfold stale
    rw [List.length_eq_zero_iff, List.filter_eq_nil_iff]
    intro q hq
    have := h5 q hq
    rw [h4]; simp [this]
  refine ⟨h1, h2, h3, by simp only [List.length_append]; have := h.len; omega, ?_, ?_, by simp only [h4]; exact h.rem, h7⟩
  · intro q hq
    rcases List.mem_append.1 hq with hq | hq
    · exact h.known q hq
    · exact good_rem_lt hg _ (h5 q hq)
  · rw [stale_congr h4] at h0
    simp only [stale_append, h0, stale_congr h4, h4]
    have := h.count
    have h6 : (mdCount m.length - w.s.d.md.remaining.length) * w.asked ≤
        (mdCount m.length - w.s.d.md.remaining.length) * (w.asked + fl.length) := Nat.mul_le_mul_left _ (by omega)
    omega

/-- Fewer requests on their way. -/
theorem Ready.less {m : List UInt8} {w : World} (h : Ready m w) {comms : List Nat} {fl : List (Nat × Nat)} (h1 : fl.Sublist w.flight) :
    Ready m { w with s := { w.s with comms := comms }, flight := fl } := by
  refine ⟨h.active, h.good, h.flag, ?_, ?_, ?_, h.rem, h.posted⟩
  · have := h1.length_le; have := h.len; simp only; omega
  · intro q hq; exact h.known q (h1.subset hq)
  · have := stale_sublist w.s.d.md h1
    have := h.count
    simp only
    omega

theorem addPiece_rem {t t' : Meta} {data : List UInt8} {k : Nat} {b : Bool} (h : addPiece t data k = .ok (b, t')) :
    t'.remaining = if k ∈ t.remaining then t.remaining.erase k else t.remaining := by
  unfold addPiece at h
  by_cases hk : k ∈ t.remaining
  · rw [if_pos hk] at h ⊢
    cases hc : copyAt t.buffer (u32 (k * PieceSize)) data with
    | ok x =>
      rw [hc] at h
      simp only [Res.bind_ok, Res.pure_eq, Res.ok.injEq, Prod.mk.injEq] at h
      rw [← h.2]
    | ub => rw [hc] at h; cases h
    | diverge => rw [hc] at h; cases h
  · rw [if_neg hk] at h ⊢
    simp only [Res.ok.injEq, Prod.mk.injEq] at h
    rw [← h.2]

theorem stale_erase (t : Meta) {fl : List (Nat × Nat)} {i : Nat} {q : Nat × Nat} (h : fl[i]? = some q) (hq : q.2 ∉ t.remaining) :
    stale t (fl.eraseIdx i) + 1 = stale t fl := by
  have hi : i < fl.length := (List.getElem?_eq_some_iff.1 h).1
  have e : fl = fl.take i ++ q :: fl.drop (i + 1) := by
    have h2 := List.drop_eq_getElem_cons hi
    rw [(List.getElem?_eq_some_iff.1 h).2] at h2
    rw [← h2, List.take_append_drop]
  have h1 : stale t fl = stale t (fl.take i) + (stale t [q] + stale t (fl.drop (i + 1))) := by
    rw [show stale t [q] + stale t (fl.drop (i + 1)) = stale t (q :: fl.drop (i + 1)) from (stale_append t [q] _).symm, ← stale_append, ← e]
  rw [List.eraseIdx_eq_take_drop_succ, stale_append, h1]
  have : stale t [q] = 1 := by unfold stale; simp [hq]
  omega

/-- One answer. -/
theorem message_spec {m : List UInt8} (hm : m ≠ []) (hl : m.length < 4294967296) {w : World} (h : Ready m w) {i p k : Nat}
    (hi : w.flight[i]? = some (p, k)) (now : Nat) :
    ∃ r, message w.s true { type := some 1, piece := some k, metadata := mdPiece m k, totalSize := some m.length } p now = .ok r ∧
      Ready m { w with s := r.1, flight := w.flight.eraseIdx i ++ asks r.2, answers := w.answers + 1 } ∧ r.1.comms = w.s.comms ∧
      (finished r.1.d.md = false → ∃ k', asks r.2 = [(p, k')]) ∧
      r.1.d.md.remaining = (if k ∈ w.s.d.md.remaining then w.s.d.md.remaining.erase k else w.s.d.md.remaining) := by
  obtain ⟨recv, hg⟩ := h.good
  have hkm : k < mdCount m.length := h.known _ (List.mem_of_getElem? hi)
  obtain ⟨b, t', ha, hg', -, -⟩ := good_add hl hg (mdPiece m k) k (fun _ => rfl)
  have hrem := addPiece_rem ha
  have hlen0 := h.len
  have hilt : i < w.flight.length := (List.getElem?_eq_some_iff.1 hi).1
  have hel : (w.flight.eraseIdx i).length = w.flight.length - 1 := List.length_eraseIdx_of_lt hilt
  have hcount := h.count
  have hremle := h.rem
  -- the count for the requests that remain
  have hcnt : w.answers + 1 + stale t' (w.flight.eraseIdx i) ≤ (mdCount m.length - t'.remaining.length) * w.asked ∧
      t'.remaining.length ≤ mdCount m.length := by
    by_cases hk : k ∈ w.s.d.md.remaining
    · rw [if_pos hk] at hrem
      have h1 : t'.remaining.length = w.s.d.md.remaining.length - 1 := by rw [hrem, List.length_erase_of_mem hk]
      have h2 := stale_le t' (w.flight.eraseIdx i)
      have h3 : 0 < w.s.d.md.remaining.length := List.length_pos_of_mem hk
      have h4 : mdCount m.length - t'.remaining.length = (mdCount m.length - w.s.d.md.remaining.length) + 1 := by omega
      refine ⟨?_, by omega⟩
      rw [h4, Nat.add_mul]
      omega
    · rw [if_neg hk] at hrem
      have h1 := stale_erase w.s.d.md hi hk
      rw [stale_congr hrem, hrem]
      exact ⟨by omega, hremle⟩
  have hknown : ∀ q ∈ w.flight.eraseIdx i, q.2 < mdCount m.length := fun q hq => h.known q (List.mem_of_mem_eraseIdx hq)
  unfold message
  rw [if_neg (by rw [h.active]; simp), if_neg (by simp)]
  simp only
  rw [if_neg (by rw [hg.len]; simp), ha]
  simp only [Res.bind_ok, Res.pure_eq]
  by_cases hf : finished t' = true
  · rw [if_pos hf]
    refine ⟨_, rfl, ⟨h.active, ⟨_, hg'⟩, hf.symm, ?_, ?_, ?_, hcnt.2, ?_⟩, rfl, ?_, hrem⟩
    · simp only [asks, List.append_nil, hel]; omega
    · intro q hq
      simp only [asks, List.append_nil] at hq
      exact hknown q hq
    · simp only [asks, List.append_nil]; exact hcnt.1
    · simp only; rw [h.posted]; cases w.s.d.finishedFlag <;> rfl
    · intro h0; rw [hf] at h0; cases h0
  · rw [if_neg hf]
    have hf' : finished t' = false := by simpa using hf
    have hfl : w.s.d.finishedFlag = false := by
      rw [h.flag]
      cases hh : finished w.s.d.md with
      | false => rfl
      | true =>
        exfalso
        apply hf
        have h1 := (good_finished hg).1 hh
        exact (good_finished hg').2 ⟨h1.1, fun j hj => List.mem_cons_of_mem _ (h1.2 j hj)⟩
    obtain ⟨a1, a2, a3, a4, a5, a6, a7, -, a9⟩ := requestPiece_spec (s := { w.s with d := { w.s.d with md := t' } }) hm h.active hg'
      (by simp only; rw [hfl, hf']) p now
    obtain ⟨k', hk', hq⟩ := a7 hf'
    refine ⟨_, rfl, ⟨a1, ⟨_, a2⟩, a3, ?_, ?_, ?_, ?_, by simp only [a9, a6]; exact h.posted⟩, a5, fun _ => ⟨k', hq⟩, ?_⟩
    · simp only [hq, List.length_append, List.length_singleton, hel]; omega
    · intro q hqm
      simp only [hq, List.mem_append, List.mem_singleton] at hqm
      rcases hqm with hqm | rfl
      · exact hknown q hqm
      · exact good_rem_lt hg' _ hk'
    · have h0 : stale t' [(p, k')] = 0 := by
        unfold stale
        simp only at hk'
        simp [hk']
      have h1 := stale_congr a4 (w.flight.eraseIdx i ++ [(p, k')])
      have h2 := stale_append t' (w.flight.eraseIdx i) [(p, k')]
      simp only at h1
      simp only [hq, a4]
      rw [h1, h2, h0]
      exact hcnt.1
    · simp only [a4]; exact hcnt.2
    · simp only [a4]; exact hrem

theorem extShook_spec {m : List UInt8} (hm : m ≠ []) {w : World} (h : Ready m w ∨ Fresh w) (p now : Nat) :
    Ready m { w with
      s := (extShook w.s p m.length true now).1
      flight := w.flight ++ asks (extShook w.s p m.length true now).2
      asked := w.asked + (asks (extShook w.s p m.length true now).2).length } ∧
    (extShook w.s p m.length true now).1.comms = w.s.comms ++ [p] ∧
    (finished (extShook w.s p m.length true now).1.d.md = false → ∃ k, asks (extShook w.s p m.length true now).2 = [(p, k)]) := by
  have hlen : m.length ≠ 0 := by have := List.length_pos_iff.2 hm; omega
  have hcpos : 0 < mdCount m.length := by unfold mdCount; omega
  unfold extShook
  rw [if_pos ⟨hlen, rfl⟩]
  -- the state the request starts from
  have hw : Ready m { w with s := { w.s with d := handshake w.s.d m.length, comms := w.s.comms ++ [p] } } := by
    rcases h with h | h
    · obtain ⟨recv, hg⟩ := h.good
      have e : handshake w.s.d m.length = w.s.d := by
        unfold handshake; rw [if_neg (by rw [hg.pieces]; omega)]
      rw [e]
      exact ⟨h.active, ⟨recv, hg⟩, h.flag, h.len, h.known, h.count, h.rem, h.posted⟩
    · have e : (handshake w.s.d m.length).md = init m.length := handshake_init _ _ hm (by rw [h.pieces])
      have e2 : handshake w.s.d m.length = { w.s.d with md := init m.length } := by
        unfold handshake; rw [if_pos ⟨hlen, by rw [h.pieces]⟩]
      have hg := good_init m
      have hr : (init m.length).remaining.length = mdCount m.length := by rw [hg.rem]; simp
      refine ⟨by rw [e2]; exact h.active, ⟨[], by simp only; rw [e]; exact hg⟩, ?_, ?_, ?_, ?_, ?_, by rw [e2]; simp only; rw [h.posted, h.flag]⟩
      · rw [e2]
        simp only
        rw [h.flag]
        symm
        cases hh : finished (init m.length) with
        | false => rfl
        | true => exact absurd (((good_finished hg).1 hh).2 0 hcpos) (by simp)
      · simp only; rw [h.flight]; simp
      · simp only; rw [h.flight]; simp
      · simp only; rw [h.flight, h.answers]; simp [stale]
      · simp only; rw [e, hr]
  obtain ⟨recv, hg⟩ := hw.good
  obtain ⟨a1, a2, a3, a4, a5, a6, a7, a8, a9⟩ := requestPiece_spec hm hw.active hg hw.flag p now
  simp only at a1 a2 a3 a4 a5 a6 a7 a8 a9
  refine ⟨?_, a5, ?_⟩
  · have hpo := hw.posted
    simp only at hpo
    refine hw.more a1 ⟨recv, a2⟩ a3 a4 ?_ (by rw [a9, a6]; exact hpo)
    intro q hq
    cases hf : finished (handshake w.s.d m.length).md with
    | true => rw [a8 hf] at hq; simp at hq
    | false =>
      obtain ⟨k, hk, e⟩ := a7 hf
      rw [e, List.mem_singleton] at hq
      rw [hq]; exact hk
  · intro hf
    have : finished (handshake w.s.d m.length).md = false := by
      have h1 := hw.flag
      simp only at h1
      rw [← h1, ← a6, a3]; exact hf
    obtain ⟨k, -, e⟩ := a7 this
    exact ⟨k, e⟩

theorem step_none {m : List UInt8} {w : World} {i : Nat} (hi : w.flight[i]? = none) (now : Nat) : w.step m (.answer i now) = .ok w := by
  simp only [World.step, hi]

theorem step_some {m : List UInt8} {w : World} {i p k now : Nat} (hi : w.flight[i]? = some (p, k)) {r : Net × List Out}
    (hr : message w.s true { type := some 1, piece := some k, metadata := mdPiece m k, totalSize := some m.length } p now = .ok r) :
    w.step m (.answer i now) = .ok { w with s := r.1, flight := w.flight.eraseIdx i ++ asks r.2, answers := w.answers + 1 } := by
  simp only [World.step, hi, hr, Res.bind_ok, Res.pure_eq]

theorem step_tick {m : List UInt8} (w : World) (now : Nat) :
    w.step m (.tick now) = .ok (if w.s.d.active && !w.s.d.finishedFlag && (w.s.last + 5) % 18446744073709551616 < now then
      { w with
        s := (askAll w.s.comms now w.s).1
        flight := w.flight ++ asks (askAll w.s.comms now w.s).2
        asked := w.asked + (asks (askAll w.s.comms now w.s).2).length }
      else w) := by
  simp only [World.step, Metadata.tick]
  by_cases h : (w.s.d.active && !w.s.d.finishedFlag && decide ((w.s.last + 5) % 18446744073709551616 < now)) = true
  · rw [if_pos h, if_pos h]
  · rw [if_neg h, if_neg h]; simp [asks]

/-- Every event keeps it. -/
theorem step_ready {m : List UInt8} (hm : m ≠ []) (hl : m.length < 4294967296) {w : World} (h : Ready m w ∨ Fresh w) (e : Ev) :
    ∃ w', w.step m e = .ok w' ∧ (Ready m w' ∨ Fresh w') := by
  cases e with
  | join p now =>
    unfold World.step
    by_cases hp : p ∈ w.s.comms
    · simp only [hp, if_true]; exact ⟨w, rfl, h⟩
    · simp only [hp, if_false]; exact ⟨_, rfl, Or.inl (extShook_spec hm h p now).1⟩
  | answer i now =>
    cases hi : w.flight[i]? with
    | none => exact ⟨w, step_none hi now, h⟩
    | some q =>
      obtain ⟨p, k⟩ := q
      rcases h with h | h
      · obtain ⟨r, hr, h1, -⟩ := message_spec hm hl h hi now
        exact ⟨_, step_some hi hr, Or.inl h1⟩
      · rw [h.flight] at hi; simp at hi
  | tick now =>
    rw [step_tick]
    rcases h with h | h
    · obtain ⟨recv, hg⟩ := h.good
      split
      · next hc =>
        simp only [Bool.and_eq_true, Bool.not_eq_true'] at hc
        have hf : finished w.s.d.md = false := by rw [← h.flag]; exact hc.1.2
        obtain ⟨b1, b2, b3, b4, b5, b6, b7, b8, b9⟩ := askAll_spec hm now w.s.comms h.active hg h.flag hf
        exact ⟨_, rfl, Or.inl (h.more b1 ⟨recv, b2⟩ b3 b4 b7 (by rw [b8, b9]; exact h.posted))⟩
      · exact ⟨_, rfl, Or.inl h⟩
    · split
      · refine ⟨_, rfl, Or.inr ?_⟩
        rw [h.comms]
        exact ⟨h.active, h.pieces, h.flag, h.comms, by simp [askAll, asks, h.flight], h.answers, by simp [askAll, asks, h.asked], h.posted⟩
      · exact ⟨_, rfl, Or.inr h⟩
  | leave p =>
    refine ⟨_, rfl, ?_⟩
    rcases h with h | h
    · exact Or.inl (h.less List.filter_sublist)
    · exact Or.inr ⟨h.active, h.pieces, h.flag, by simp [gone, h.comms], by simp [h.flight], h.answers, h.asked, h.posted⟩
  | lose i =>
    refine ⟨_, rfl, ?_⟩
    rcases h with h | h
    · have := h.less (comms := w.s.comms) (List.eraseIdx_sublist w.flight i)
      exact Or.inl this
    · exact Or.inr ⟨h.active, h.pieces, h.flag, h.comms, by simp [h.flight], h.answers, h.asked, h.posted⟩

theorem run_ready {m : List UInt8} (hm : m ≠ []) (hl : m.length < 4294967296) : ∀ (es : List Ev) {w : World}, Ready m w ∨ Fresh w →
    ∃ w', World.run m w es = .ok w' ∧ (Ready m w' ∨ Fresh w')
  | [], w, h => ⟨w, rfl, h⟩
  | e :: es, w, h => by
    obtain ⟨w1, h1, h2⟩ := step_ready hm hl h e
    obtain ⟨w', h3, h4⟩ := run_ready hm hl es h2
    exact ⟨w', by unfold World.run; rw [h1]; exact h3, h4⟩

theorem start_fresh : Fresh {} := ⟨rfl, rfl, rfl, rfl, rfl, rfl, rfl, rfl⟩

/-- Nobody who is there is left without a request, if nothing is lost. -/
structure Waits (w : World) : Prop where
  nodup : w.s.comms.Nodup
  waits : finished w.s.d.md = false → ∀ p ∈ w.s.comms, ∃ k, (p, k) ∈ w.flight

theorem finished_mono_erase {m : List UInt8} {w : World} (hm : m ≠ []) {t : Meta} (hg : ∃ recv, Good m recv t)
    (hsub : ∀ k ∈ t.remaining, k ∈ w.s.d.md.remaining) (hf : finished t = false) : finished w.s.d.md = false := by
  obtain ⟨recv, hg⟩ := hg
  have h1 := unfinished_rem hm hg hf
  obtain ⟨k, hk⟩ := List.exists_mem_of_ne_nil _ h1
  have h2 := hsub k hk
  unfold finished
  cases hr : w.s.d.md.remaining with
  | nil => rw [hr] at h2; simp at h2
  | cons a b => simp

theorem mem_eraseIdx_ne {fl : List (Nat × Nat)} {i : Nat} {q x : Nat × Nat} (h : fl[i]? = some q) (hx : x ∈ fl) (hne : x ≠ q) :
    x ∈ fl.eraseIdx i := by
  have hi : i < fl.length := (List.getElem?_eq_some_iff.1 h).1
  have e : fl = fl.take i ++ q :: fl.drop (i + 1) := by
    have h2 := List.drop_eq_getElem_cons hi
    rw [(List.getElem?_eq_some_iff.1 h).2] at h2
    rw [← h2, List.take_append_drop]
  rw [e] at hx
  rw [List.eraseIdx_eq_take_drop_succ]
  rcases List.mem_append.1 hx with hx | hx
  · exact List.mem_append_left _ hx
  · rcases List.mem_cons.1 hx with hx | hx
    · exact absurd hx hne
    · exact List.mem_append_right _ hx

theorem step_waits {m : List UInt8} (hm : m ≠ []) (hl : m.length < 4294967296) {w w' : World} (h : Ready m w ∨ Fresh w) (hw : Waits w) (e : Ev)
    (hne : ∀ i, e ≠ .lose i) (he : w.step m e = .ok w') : Waits w' := by
  cases e with
  | lose i => exact absurd rfl (hne i)
  | join p now =>
    unfold World.step at he
    by_cases hp : p ∈ w.s.comms
    · simp only [hp, if_true, Res.ok.injEq] at he; rw [← he]; exact hw
    · simp only [hp, if_false, Res.ok.injEq] at he
      obtain ⟨h1, h2, h3⟩ := extShook_spec hm h p now
      rw [← he]
      refine ⟨by simp only [h2]; exact List.nodup_append.2 ⟨hw.nodup, by simp, by intro a ha b hb; simp at hb; subst hb; exact fun e => hp (e ▸ ha)⟩, ?_⟩
      intro hf q hq
      simp only [h2] at hq hf
      obtain ⟨k, hk⟩ := h3 hf
      rcases List.mem_append.1 hq with hq | hq
      · have hold : finished w.s.d.md = false := by
          rcases h with h | h
          · obtain ⟨recv, hg⟩ := h1.good
            refine finished_mono_erase hm ⟨recv, hg⟩ ?_ hf
            intro j hj
            obtain ⟨recv0, hg0⟩ := h.good
            have hpc : w.s.d.md.pieces ≠ 0 := by
              rw [hg0.pieces]
              have := List.length_pos_iff.2 hm
              unfold mdCount; omega
            have ee : handshake w.s.d m.length = w.s.d := by unfold handshake; rw [if_neg (fun hh => hpc hh.2)]
            have hlen : m.length ≠ 0 := by have := List.length_pos_iff.2 hm; omega
            simp only [extShook, ee] at hj
            rw [if_pos ⟨hlen, trivial⟩] at hj
            have := (requestPiece_spec (s := { w.s with d := w.s.d, comms := w.s.comms ++ [p] }) hm h.active hg0 h.flag p now).2.2.2.1
            rw [this] at hj
            exact hj
          · rw [h.comms] at hq; simp at hq
        obtain ⟨k', hk'⟩ := hw.waits hold q hq
        exact ⟨k', List.mem_append_left _ hk'⟩
      · rw [List.mem_singleton] at hq
        subst hq
        exact ⟨k, List.mem_append_right _ (by rw [hk]; simp)⟩
  | answer i now =>
    cases hi : w.flight[i]? with
    | none => rw [step_none hi] at he; simp only [Res.ok.injEq] at he; rw [← he]; exact hw
    | some q =>
      obtain ⟨p, k⟩ := q
      rcases h with h | h
      · obtain ⟨r, hr, h1, h2, h3, h4⟩ := message_spec hm hl h hi now
        rw [step_some hi hr] at he
        simp only [Res.ok.injEq] at he
        rw [← he]
        refine ⟨by simp only [h2]; exact hw.nodup, ?_⟩
        intro hf x hx
        simp only at hf hx
        rw [h2] at hx
        obtain ⟨k', hk'⟩ := h3 hf
        by_cases hxp : x = p
        · exact ⟨k', List.mem_append_right _ (by rw [hk', hxp]; simp)⟩
        · have hold : finished w.s.d.md = false := by
            refine finished_mono_erase hm h1.good ?_ hf
            intro j hj
            simp only at hj
            rw [h4] at hj
            split at hj
            · exact List.mem_of_mem_erase hj
            · exact hj
          obtain ⟨k2, hk2⟩ := hw.waits hold x hx
          exact ⟨k2, List.mem_append_left _ (mem_eraseIdx_ne hi hk2 (by intro e; injection e; contradiction))⟩
      · rw [h.flight] at hi; simp at hi
  | tick now =>
    rw [step_tick] at he
    split at he
    · next hc =>
      simp only [Bool.and_eq_true, Bool.not_eq_true'] at hc
      rcases h with h | h
      · obtain ⟨recv, hg⟩ := h.good
        have hf0 : finished w.s.d.md = false := by rw [← h.flag]; exact hc.1.2
        obtain ⟨b1, b2, b3, b4, b5, b6, b7, b8, b9⟩ := askAll_spec hm now w.s.comms h.active hg h.flag hf0
        simp only [Res.ok.injEq] at he
        rw [← he]
        refine ⟨by simp only [b5]; exact hw.nodup, ?_⟩
        intro _ x hx
        simp only [b5] at hx
        obtain ⟨k, hk⟩ := hw.waits hf0 x hx
        exact ⟨k, List.mem_append_left _ hk⟩
      · rw [h.comms] at he
        simp only [askAll, asks, Res.ok.injEq] at he
        rw [← he]
        refine ⟨hw.nodup, ?_⟩
        intro _ x hx
        simp only [h.comms] at hx
        simp at hx
    · simp only [Res.ok.injEq] at he
      rw [← he]
      exact hw
  | leave p =>
    unfold World.step gone at he
    simp only [Res.ok.injEq] at he
    rw [← he]
    refine ⟨hw.nodup.sublist List.erase_sublist, ?_⟩
    intro hf x hx
    simp only at hf hx
    obtain ⟨k, hk⟩ := hw.waits hf x (List.mem_of_mem_erase hx)
    refine ⟨k, List.mem_filter.2 ⟨hk, ?_⟩⟩
    have : x ≠ p := by
      intro e
      rw [e] at hx
      exact (hw.nodup.not_mem_erase) hx
    simpa using this

/-- With the wrong size nothing that comes is used. -/
structure Wrong (n : Nat) (w : World) : Prop where
  len : w.s.d.md.buffer.length = n
  pieces : w.s.d.md.pieces ≠ 0
  flag : w.s.d.finishedFlag = false

theorem requestPiece_wrong {s : Net} (p now : Nat) :
    (requestPiece s p now).1.d.md.buffer = s.d.md.buffer ∧ (requestPiece s p now).1.d.md.pieces = s.d.md.pieces ∧
    (requestPiece s p now).1.d.finishedFlag = s.d.finishedFlag := by
  unfold requestPiece
  split
  · exact ⟨(getMissing_rem _).2.2, (getMissing_rem _).2.1, rfl⟩
  · exact ⟨rfl, rfl, rfl⟩

theorem askAll_wrong (now : Nat) : ∀ (ps : List Nat) (s : Net),
    (askAll ps now s).1.d.md.buffer = s.d.md.buffer ∧ (askAll ps now s).1.d.md.pieces = s.d.md.pieces ∧
    (askAll ps now s).1.d.finishedFlag = s.d.finishedFlag
  | [], s => ⟨rfl, rfl, rfl⟩
  | p :: ps, s => by
    obtain ⟨a1, a2, a3⟩ := requestPiece_wrong (s := s) p now
    obtain ⟨b1, b2, b3⟩ := askAll_wrong now ps (requestPiece s p now).1
    unfold askAll
    exact ⟨b1.trans a1, b2.trans a2, b3.trans a3⟩

theorem step_wrong {m : List UInt8} {n : Nat} (hn : n ≠ m.length) {w : World} (h : Wrong n w) (e : Ev) :
    ∃ w', w.step m e = .ok w' ∧ Wrong n w' := by
  cases e with
  | join p now =>
    unfold World.step
    by_cases hp : p ∈ w.s.comms
    · simp only [hp, if_true]; exact ⟨w, rfl, h⟩
    · simp only [hp, if_false]
      refine ⟨_, rfl, ?_⟩
      unfold extShook
      have ee : handshake w.s.d m.length = w.s.d := by unfold handshake; rw [if_neg (fun hh => h.pieces hh.2)]
      split
      · rw [ee]
        obtain ⟨a1, a2, a3⟩ := requestPiece_wrong (s := { w.s with d := w.s.d, comms := w.s.comms ++ [p] }) p now
        exact ⟨by simp only [a1]; exact h.len, by simp only [a2]; exact h.pieces, by simp only [a3]; exact h.flag⟩
      · exact ⟨h.len, h.pieces, h.flag⟩
  | answer i now =>
    cases hi : w.flight[i]? with
    | none => exact ⟨w, step_none hi now, h⟩
    | some q =>
      obtain ⟨p, k⟩ := q
      have hmsg : message w.s true { type := some 1, piece := some k, metadata := mdPiece m k, totalSize := some m.length } p now =
          .ok (w.s, []) := by
        unfold message
        by_cases ha : w.s.d.active = true
        · rw [if_neg (by rw [ha]; simp), if_neg (by simp)]
          simp only
          rw [if_pos (by rw [h.len]; exact hn)]
        · rw [if_pos (by simpa using ha)]
      exact ⟨_, step_some hi hmsg, h.len, h.pieces, h.flag⟩
  | tick now =>
    rw [step_tick]
    split
    · obtain ⟨a1, a2, a3⟩ := askAll_wrong now w.s.comms w.s
      exact ⟨_, rfl, by simp only [a1]; exact h.len, by simp only [a2]; exact h.pieces, by simp only [a3]; exact h.flag⟩
    · exact ⟨_, rfl, h⟩
  | leave p => exact ⟨_, rfl, h.len, h.pieces, h.flag⟩
  | lose i => exact ⟨_, rfl, h.len, h.pieces, h.flag⟩

theorem run_wrong {m : List UInt8} {n : Nat} (hn : n ≠ m.length) : ∀ (es : List Ev) {w : World}, Wrong n w →
    ∃ w', World.run m w es = .ok w' ∧ Wrong n w'
  | [], w, h => ⟨w, rfl, h⟩
  | e :: es, w, h => by
    obtain ⟨w1, h1, h2⟩ := step_wrong hn h e
    obtain ⟨w', h3, h4⟩ := run_wrong hn es h2
    exact ⟨w', by unfold World.run; rw [h1]; exact h3, h4⟩

end Verif.Metadata
