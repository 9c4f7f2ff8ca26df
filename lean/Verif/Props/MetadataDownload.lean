import Verif.Proof.MetadataDownload
/-! C98: the download of metadata gets done.

`World.run m {} es` is a download from peers that have the metadata `m` and say so, with the events `es`: peers come, answer one of the requests
on their way and leave, the timer fires, messages are lost.  `answers` counts answers, `asked` the requests that were sent upon a handshake or by the timer. -/

namespace Verif
open Verif.Metadata Spec

/-- C98 (partial: all peers tell the right size, see `C98_liar_violated`): in every history, as long as the download is not finished, there were at most
so many answers as peers were asked, times the number of pieces less one.  When it is finished, the stop is on its way and the buffer is the metadata. -/
theorem C98_done_partial (m : List UInt8) (hm : m ≠ []) (hl : m.length < 4294967296) (es : List Ev) :
    ∃ w, World.run m {} es = .ok w ∧
      (w.s.d.finishedFlag = false → w.answers ≤ (mdCount m.length - 1) * w.asked ∧ w.s.d.stopPosted = false) ∧
      (w.s.d.finishedFlag = true → w.s.d.md.buffer = m ∧ w.s.d.stopPosted = true) := by
  obtain ⟨w, h1, h2⟩ := run_ready hm hl es (Or.inr start_fresh)
  refine ⟨w, h1, ?_, ?_⟩
  · intro hf
    rcases h2 with h | h
    · obtain ⟨recv, hg⟩ := h.good
      have h3 := unfinished_rem hm hg (by rw [← h.flag]; exact hf)
      have h4 : 0 < w.s.d.md.remaining.length := List.length_pos_iff.2 h3
      have h5 := h.count
      have h6 : (mdCount m.length - w.s.d.md.remaining.length) * w.asked ≤ (mdCount m.length - 1) * w.asked :=
        Nat.mul_le_mul_right _ (by omega)
      exact ⟨by omega, by rw [h.posted]; exact hf⟩
    · exact ⟨by rw [h.answers]; omega, h.posted⟩
  · intro hf
    rcases h2 with h | h
    · obtain ⟨recv, hg⟩ := h.good
      have h3 := (good_finished hg).1 (by rw [← h.flag]; exact hf)
      exact ⟨good_complete hg h3.2, by rw [h.posted]; exact hf⟩
    · rw [h.flag] at hf; cases hf

/-- C98 (partial as above): if nothing is lost, until it is finished every peer that is there has a request to answer; so the download never stands
still. -/
theorem C98_waits_partial (m : List UInt8) (hm : m ≠ []) (hl : m.length < 4294967296) (es : List Ev) (hes : ∀ i, Ev.lose i ∉ es) (w : World)
    (hw : World.run m {} es = .ok w) (hf : w.s.d.finishedFlag = false) : ∀ p ∈ w.s.comms, ∃ k, (p, k) ∈ w.flight := by
  have key : ∀ (es : List Ev) (v : World), (∀ i, Ev.lose i ∉ es) → (Ready m v ∨ Fresh v) → Waits v → World.run m v es = .ok w →
      (Ready m w ∨ Fresh w) ∧ Waits w := by
    intro es
    induction es with
    | nil =>
      intro v _ h1 h2 h3
      have : v = w := by simpa [World.run] using h3
      rw [← this]; exact ⟨h1, h2⟩
    | cons e es ih =>
      intro v h0 h1 h2 h3
      obtain ⟨v1, e1, e2⟩ := step_ready hm hl h1 e
      unfold World.run at h3
      rw [e1] at h3
      simp only [Res.bind_ok] at h3
      exact ih v1 (fun i hi => h0 i (List.mem_cons_of_mem _ hi)) e2
        (step_waits hm hl h1 h2 e (fun i hi => h0 i (by rw [hi]; exact List.mem_cons_self)) e1) h3
  obtain ⟨h1, h2⟩ := key es {} hes (Or.inr start_fresh) ⟨by simp, by intro _ p hp; simp at hp⟩ hw
  rcases h1 with h | h
  · exact h2.waits (by rw [← h.flag]; exact hf)
  · rw [h.comms]; simp

/-- C98 (partial as above): whatever was lost, if the timer fires more than five seconds after the last request, every peer that is there is asked for a
piece that is missing. -/
theorem C98_retry_partial (m : List UInt8) (hm : m ≠ []) (hl : m.length < 4294967296) (es : List Ev) (w : World)
    (hw : World.run m {} es = .ok w) (hf : w.s.d.finishedFlag = false) (now : Nat) (hnow : w.s.last + 5 < now)
    (h64 : now < 18446744073709551616) :
    ∃ w', w.step m (.tick now) = .ok w' ∧ ∃ l, w'.flight = w.flight ++ l ∧ l.map Prod.fst = w.s.comms ∧
      ∀ q ∈ l, q.2 ∈ w'.s.d.md.remaining ∧ q.2 < mdCount m.length := by
  obtain ⟨w2, e1, e2⟩ := run_ready hm hl es (Or.inr start_fresh)
  rw [hw] at e1
  injection e1 with e1
  rw [← e1] at e2
  rw [step_tick]
  refine ⟨_, rfl, ?_⟩
  have ha : w.s.d.active = true := by rcases e2 with h | h <;> exact h.active
  rw [if_pos (by rw [ha, hf]; simp only [Bool.not_false, Bool.and_self, Bool.true_and, decide_eq_true_eq]; omega)]
  refine ⟨_, rfl, ?_⟩
  rcases e2 with h | h
  · obtain ⟨recv, hg⟩ := h.good
    obtain ⟨b1, b2, b3, b4, b5, b6, b7, b8, b9⟩ := askAll_spec hm now w.s.comms h.active hg h.flag (by rw [← h.flag]; exact hf)
    refine ⟨b6, ?_⟩
    intro q hq
    exact ⟨by simp only [b4]; exact b7 q hq, good_rem_lt hg _ (b7 q hq)⟩
  · rw [h.comms]; simp [askAll, asks]

/-- C98 (partial as above): whoever cannot give metadata is let go: peers without extensions, without this extension or without a size, and those that
reject. -/
theorem C98_useless_partial (s : Net) (p size now : Nat) (utm : Bool) (piece : Option Nat) (ha : s.d.active = true) :
    (shook s p false).2 = [.disconnect p] ∧ (shook s p true).2 = [] ∧
    (size = 0 ∨ utm = false → extShook s p size utm now = (s, [.disconnect p])) ∧
    message s true { type := some 2, piece := piece } p now = .ok (s, [.disconnect p]) := by
  refine ⟨rfl, rfl, ?_, ?_⟩
  · intro h
    unfold extShook
    rw [if_neg]
    rintro ⟨h1, h2⟩
    rcases h with h | h
    · exact h1 h
    · rw [h] at h2; cases h2
  · unfold message
    rw [if_neg (by rw [ha]; simp), if_neg (by simp)]
    rfl

theorem request_last {s : Net} {p now : Nat} (h : asks (requestPiece s p now).2 ≠ []) : (requestPiece s p now).1.last = now := by
  unfold requestPiece at h ⊢
  split
  · rfl
  · next hc => rw [if_neg hc] at h; exact absurd rfl h

theorem askAll_last (now : Nat) : ∀ (ps : List Nat) (s : Net), s.last = now ∨ asks (askAll ps now s).2 ≠ [] → (askAll ps now s).1.last = now
  | [], s, h => by
    rcases h with h | h
    · exact h
    · exact absurd rfl h
  | p :: ps, s, h => by
    unfold askAll at h ⊢
    apply askAll_last now ps
    by_cases hr : asks (requestPiece s p now).2 = []
    · rcases h with h | h
      · left
        unfold requestPiece
        split
        · rfl
        · exact h
      · right
        simp only [asks_append, hr, List.nil_append] at h
        exact h
    · exact Or.inl (request_last hr)

/-- C98 (partial as above): nobody is pressed: when a request was sent, upon a handshake, an answer or by the timer, the timer sends none in the next five
seconds. -/
theorem C98_patience_partial (s s' : Net) (out : List Out) (now later : Nat) (h64 : now + 5 < 18446744073709551616) (hl : later ≤ now + 5)
    (h : (∃ p size utm, extShook s p size utm now = (s', out)) ∨ (∃ ok msg p, message s ok msg p now = .ok (s', out)) ∨ tick s now = (s', out))
    (hout : asks out ≠ []) : tick s' later = (s', []) := by
  have hlast : s'.last = now := by
    rcases h with ⟨p, size, utm, h⟩ | ⟨ok, msg, p, h⟩ | h
    · unfold extShook at h
      split at h
      · rw [show s' = (requestPiece { s with d := handshake s.d size, comms := s.comms ++ [p] } p now).1 by rw [h]]
        exact request_last (by rw [h]; exact hout)
      · injection h with _ h; rw [← h] at hout; exact absurd rfl hout
    · unfold message at h
      split at h
      · injection h with h; injection h with _ h; rw [← h] at hout; exact absurd rfl hout
      split at h
      · injection h with h; injection h with _ h; rw [← h] at hout; exact absurd rfl hout
      split at h
      · cases h
      · split at h
        · next piece total _ _ =>
          split at h
          · injection h with h; injection h with _ h; rw [← h] at hout; exact absurd rfl hout
          · cases ha : addPiece s.d.md msg.metadata piece with
            | ub => rw [ha] at h; cases h
            | diverge => rw [ha] at h; cases h
            | ok r =>
              rw [ha] at h
              simp only [Res.bind_ok, Res.pure_eq] at h
              split at h
              · injection h with h; injection h with _ h; rw [← h] at hout; exact absurd rfl hout
              · injection h with h
                rw [show s' = (requestPiece { s with d := { s.d with md := r.2 } } p now).1 by rw [h]]
                exact request_last (by rw [h]; exact hout)
        · cases h
      · injection h with h; injection h with _ h; rw [← h] at hout; exact absurd rfl hout
      · injection h with h; injection h with _ h; rw [← h] at hout; exact absurd rfl hout
    · unfold tick at h
      split at h
      · rw [show s' = (askAll s.comms now s).1 by rw [h]]
        exact askAll_last now s.comms s (Or.inr (by rw [h]; exact hout))
      · injection h with _ h; rw [← h] at hout; exact absurd rfl hout
  unfold tick
  rw [if_neg]
  rw [hlast, Nat.mod_eq_of_lt h64]
  simp only [Bool.and_eq_true, decide_eq_true_eq]
  omega

/-! Non-vacuity: two peers, both requests are lost, the timer asks again, one answers. -/
example : (World.run [1, 2, 3] {} [.join 1 100, .join 2 100, .lose 0, .lose 0, .tick 105]).map'
      (fun w => (w.s.d.finishedFlag, w.flight)) = .ok (false, []) ∧
    (World.run [1, 2, 3] {} [.join 1 100, .join 2 100, .lose 0, .lose 0, .tick 106]).map'
      (fun w => (w.s.d.finishedFlag, w.flight)) = .ok (false, [(1, 0), (2, 0)]) ∧
    (World.run [1, 2, 3] {} [.join 1 100, .join 2 100, .lose 0, .lose 0, .tick 106, .answer 1 107]).map'
      (fun w => (w.s.d.finishedFlag, w.s.d.md.buffer, w.flight, w.answers, w.asked)) = .ok (true, [1, 2, 3], [(1, 0)], 1, 4) := by
  decide +kernel

/-- C98 fails: if the first peer tells a wrong size, the download never finishes, whatever the others, who have the metadata, answer, and whether it leaves or not. -/
theorem C98_liar_violated (m : List UInt8) (n : Nat) (h0 : n ≠ 0) (hn : n ≠ m.length) (liar now : Nat) (es : List Ev) :
    ∃ w, World.run m { s := (extShook {} liar n true now).1, flight := asks (extShook {} liar n true now).2 } es = .ok w ∧
      w.s.d.finishedFlag = false := by
  have hst : Wrong n { s := (extShook {} liar n true now).1, flight := asks (extShook {} liar n true now).2 } := by
    have ee : handshake (({} : Net).d) n = { md := init n } := by unfold handshake; rw [if_pos ⟨h0, rfl⟩]
    have hx : extShook {} liar n true now = requestPiece { d := { md := init n }, comms := [liar] } liar now := by
      unfold extShook
      rw [if_pos ⟨h0, rfl⟩, ee]
      rfl
    rw [hx]
    obtain ⟨a1, a2, a3⟩ := requestPiece_wrong (s := { d := { md := init n }, comms := [liar] }) liar now
    refine ⟨?_, ?_, a3⟩
    · rw [a1]
      simp only [init_eq]
      simp
    · rw [a2]
      simp only [init_eq]
      unfold mdCount; omega
  obtain ⟨w, h1, h2⟩ := run_wrong hn es hst
  exact ⟨w, h1, h2.flag⟩

end Verif
