import Verif.Proof.Uploader
import Verif.Proof.Storage
/-! Loading a block for a peer stays inside the buffer. -/

namespace Verif.Uploader
open Verif Storage Layout Spec

/-- A file does not end before it starts. -/
structure SaneFile (f : File) : Prop where
  order : f.startPieceIndex = f.endPieceIndex → f.startPiecePos ≤ f.endPiecePos
  spos : f.startPiecePos < 4294967296
  epos : f.endPiecePos < 4294967296

theorem sane_geo {ps off : Nat} (hps : ps < 2147483648) {files : List File} {sizes : List Nat} (h : Geo ps off files sizes) : ∀ f ∈ files, SaneFile f := by
  induction h with
  | nil => simp
  | cons off f fs s ss g _ ih =>
    intro x hx
    rcases List.mem_cons.mp hx with rfl | hx
    · refine ⟨fun he => ?_, by have := g.spos; omega, by have := g.epos'; omega⟩
      have h1 := g.start
      have h2 := g.fin
      rw [he] at h1
      omega
    · exact ih x hx

theorem position_fits (i : Info) {f : File} (hf : SaneFile f) (idx : Nat) {b n : Nat} (hb : b < 4294967296) (hn : n < 4294967296) :
    0 < (getFileBlockPosition i f idx b n).dataSize →
    (getFileBlockPosition i f idx b n).dataPos + (getFileBlockPosition i f idx b n).dataSize ≤ n := by
  obtain ⟨h1, h2, h3⟩ := hf
  have h4 : f.startPieceIndex = idx → f.endPieceIndex = idx → f.startPiecePos ≤ f.endPiecePos := fun ha hb => h1 (ha.trans hb.symm)
  unfold getFileBlockPosition
  by_cases hs : f.startPieceIndex = idx <;> by_cases he : f.endPieceIndex = idx <;> by_cases c1 : f.startPiecePos > (b + n) % 4294967296 <;>
    by_cases c2 : f.startPiecePos > b <;> by_cases c3 : f.endPiecePos < b <;> by_cases c4 : f.endPiecePos < (b + n) % 4294967296 <;>
    simp only [hs, he, c1, c2, c3, c4, if_true, if_false, u32, sub32] <;> simp only [hs, he, true_implies, forall_const] at h4 <;> omega

theorem loadFile_ok (i : Info) {f : File} (hf : SaneFile f) (c : Option Content) (idx : Nat) {b n : Nat} (hb : b < 4294967296) (hn : n < 4294967296)
    (buf : List UInt8) (hbuf : buf.length = n) : ∃ st buf', loadFile i f c idx b [⟨b, n⟩] buf = .ok (st, buf') ∧ buf'.length = n := by
  unfold loadFile
  cases c with
  | none => exact ⟨_, buf, rfl, hbuf⟩
  | some c =>
    simp only [loadOffsets]
    have hp := position_fits i hf idx hb hn
    generalize getFileBlockPosition i f idx b n = p at hp
    by_cases h0 : p.dataSize > 0
    · rw [if_pos h0]
      have h1 := hp h0
      simp only [Bool.false_eq_true, if_false]
      rw [if_neg (by omega)]
      generalize (if idx = f.endPieceIndex ∧ c.length < f.size then u32 (sub32 i.pieceSize f.startPiecePos + b) else p.fileDataPos) = pos
      have hd : ((c.drop pos).take p.dataSize).length ≤ p.dataSize := by rw [List.length_take]; omega
      generalize (c.drop pos).take p.dataSize = d at hd
      unfold putBuf
      rw [if_pos (by omega)]
      refine ⟨_, _, rfl, ?_⟩
      simp
      omega
    · rw [if_neg h0]
      exact ⟨_, buf, rfl, hbuf⟩

theorem loadLoop_ok (i : Info) (idx : Nat) {b n : Nat} (hb : b < 4294967296) (hn : n < 4294967296) (files : List File) (hf : ∀ f ∈ files, SaneFile f) :
    ∀ (fs : Fs) (st : Status) (buf : List UInt8), buf.length = n → ∃ st' buf', loadLoop i idx b [⟨b, n⟩] files fs st buf = .ok (st', buf') ∧ buf'.length = n := by
  induction files with
  | nil => intro fs st buf h; exact ⟨st, buf, by simp [loadLoop], h⟩
  | cons f files ih =>
    intro fs st buf h
    cases fs with
    | nil => exact ⟨st, buf, by simp [loadLoop], h⟩
    | cons c cs =>
      simp only [loadLoop]
      split
      · exact ⟨_, _, rfl, h⟩
      · obtain ⟨st1, buf1, e, h1⟩ := loadFile_ok i (hf f (by simp)) c idx hb hn buf h
        rw [e, Res.bind_ok]
        exact ih (fun x hx => hf x (by simp [hx])) cs st1 buf1 h1

theorem load_ok {i : Info} (hi : ∀ f ∈ i.files, SaneFile f) (fs : Fs) (b : BlockInfo) (hb : b.begin < 4294967296) (hn : b.length < 4294967296) (buf : List UInt8)
    (h : buf.length = b.length) : ∃ st buf', loadPieceBlock i fs b buf = .ok (st, buf') ∧ buf'.length = b.length := by
  unfold loadPieceBlock loadPieceBlocks
  exact loadLoop_ok i b.index hb hn _ (fun f hf => hi f (List.mem_of_mem_drop hf)) _ _ _ h

theorem resize_length (buf : List UInt8) (n : Nat) : (resize buf n).length = n := by simp [resize]; omega

theorem turns_ok {i : Info} (hi : ∀ f ∈ i.files, SaneFile f) (fs : Fs) (est : List Nat) (rs : List Req)
    (hr : ∀ r ∈ rs, r.block.begin < 4294967296 ∧ r.block.length < 4294967296) : ∀ p, ∃ p', turns i fs est p rs = .ok p' := by
  induction rs with
  | nil => intro p; exact ⟨p, rfl⟩
  | cons r rs ih =>
    intro p
    have ih := ih (fun x hx => hr x (by simp [hx]))
    simp only [turns, turn]
    split
    · split
      · obtain ⟨st, buf, e, _⟩ := load_ok hi fs r.block (hr r (by simp)).1 (hr r (by simp)).2 _ (resize_length p.buffer r.block.length)
        rw [e]
        simp only [Res.bind_ok, Res.pure_eq]
        exact ih _
      · simp only [Res.bind_ok, Res.pure_eq]
        exact ih _
    · simp only [Res.bind_ok, Res.pure_eq]
      exact ih _

def Small (s : State) : Prop := ∀ r ∈ s.pending, r.block.begin < 4294967296 ∧ r.block.length < 4294967296

theorem step_ok {i : Info} (hi : ∀ f ∈ i.files, SaneFile f) (e : Ev) (s : State) (hs : Small s)
    (he : ∀ q ∈ asked [e], q.2.begin < 4294967296 ∧ q.2.length < 4294967296) : ∃ s' L got, step i s e = .ok (s', L, got) ∧ Small s' := by
  cases e with
  | request p b now =>
    refine ⟨(pieceRequest s p b now).1, [], (pieceRequest s p b now).2, rfl, ?_⟩
    intro r hr
    have h3 := (requestBytes_spec s b.length now).2.2.1
    simp only [pieceRequest] at hr
    generalize requestBytes s b.length now = o at hr h3
    obtain ⟨s1, g⟩ := o
    simp only at hr h3
    have hr : r ∈ s.pending ∨ r = ⟨s1.count, p, b⟩ := by
      split at hr <;> simpa [h3] using hr
    rcases hr with hr | rfl
    · exact hs r hr
    · exact he (p, b) (by simp [asked])
  | grant a =>
    refine ⟨assignBandwidth s a, [], 0, rfl, ?_⟩
    intro r hr
    refine hs r ?_
    unfold assignBandwidth at hr
    simp only at hr
    split at hr <;> exact hr
  | send fs est now =>
    simp only [step]
    split
    · exact ⟨_, _, _, rfl, hs⟩
    · have : ∃ o, sendRequests i { s with posted := s.posted - 1 } fs est now = .ok o := by
        unfold sendRequests
        obtain ⟨p', e⟩ := turns_ok hi fs est s.pending hs { buffer := s.buffer, available := s.available, uploaded := s.uploaded }
        simp only [e, Res.bind_ok]
        split
        · exact ⟨_, rfl⟩
        · exact ⟨_, rfl⟩
      obtain ⟨⟨s', L, got⟩, e⟩ := this
      refine ⟨s', L, got, e, ?_⟩
      obtain ⟨p', K, ht, P, hq⟩ := send_inv e
      have hpend : s'.pending = K := by
        rcases hq with ⟨_, hr⟩ | ⟨_, rfl, _⟩
        · have := (requestBytes_spec { s with posted := s.posted - 1, pending := K, buffer := p'.buffer, available := p'.available, uploaded := p'.uploaded } p'.wanted now).2.2.1
          rw [← hr] at this
          exact this
        · rfl
      intro r hr
      rw [hpend] at hr
      exact hs r (P.subK.subset hr)
  | cancel p => exact ⟨_, _, _, rfl, fun r hr => hs r (List.mem_of_mem_filter hr)⟩
  | refresh est => exact ⟨_, _, _, rfl, fun r hr => hs r (List.mem_of_mem_filter hr)⟩
  | stop => exact ⟨_, _, _, rfl, fun r hr => by simp at hr⟩

theorem run_ok {i : Info} (hi : ∀ f ∈ i.files, SaneFile f) (es : List Ev) : ∀ s, Small s →
    (∀ q ∈ asked es, q.2.begin < 4294967296 ∧ q.2.length < 4294967296) → ∃ o, run i s es = .ok o := by
  induction es with
  | nil => intro s _ _; exact ⟨_, rfl⟩
  | cons e es ih =>
    intro s hs he
    rw [asked_cons] at he
    obtain ⟨s1, L, got, h1, h2⟩ := step_ok hi e s hs (fun q hq => he q (List.mem_append_left _ hq))
    obtain ⟨⟨s2, L2, g2⟩, h3⟩ := ih s1 h2 (fun q hq => he q (List.mem_append_right _ hq))
    exact ⟨(s2, L ++ L2, got + g2), by simp [run, h1, h3, Res.bind_ok]⟩

/-- What is sent is what the load left in the buffer. -/
theorem turns_loaded {i : Info} {fs : Fs} {est : List Nat} (rs : List Req) : ∀ {p p' : Pass}, turns i fs est p rs = .ok p' →
    ∀ x ∈ p'.sent, x ∈ p.sent ∨ ∃ buf st, buf.length = x.block.length ∧ loadPieceBlock i fs x.block buf = .ok (st, x.data) := by
  induction rs with
  | nil => intro p p' h x hx; cases h; exact .inl hx
  | cons r rs ih =>
    intro p p' h x hx
    simp only [turns] at h
    cases ht : turn i fs est p r with
    | ub => rw [ht] at h; cases h
    | diverge => rw [ht] at h; cases h
    | ok p1 =>
      rw [ht, Res.bind_ok] at h
      rcases ih h x hx with h1 | h1
      · unfold turn at ht
        split at ht
        · split at ht
          · cases hl : loadPieceBlock i fs r.block (resize p.buffer r.block.length) with
            | ub => rw [hl] at ht; cases ht
            | diverge => rw [hl] at ht; cases ht
            | ok l =>
              rw [hl] at ht
              cases ht
              rcases List.mem_append.mp h1 with h1 | h1
              · exact .inl h1
              · rw [List.mem_singleton.mp h1]
                exact .inr ⟨_, l.1, resize_length _ _, hl⟩
          · cases ht; exact .inl h1
        · cases ht; exact .inl h1
      · exact .inr h1

theorem sent_loaded {i : Info} {fs : Fs} {s s' : State} {est : List Nat} {now : Bool} {sent : List Sent} {got : Nat}
    (h : step i s (.send fs est now) = .ok (s', sent, got)) (x : Sent) (hx : x ∈ sent) :
    ∃ buf st, buf.length = x.block.length ∧ loadPieceBlock i fs x.block buf = .ok (st, x.data) := by
  simp only [step] at h
  split at h
  · simp only [Res.pure_eq, Res.ok.injEq, Prod.mk.injEq] at h
    rw [← h.2.1] at hx
    cases hx
  · obtain ⟨p', K, ht, P, _⟩ := send_inv h
    have hs : p'.sent = sent := by rw [P.sent]; rfl
    rcases turns_loaded _ ht x (by rw [hs]; exact hx) with h1 | h1
    · cases h1
    · exact h1

end Verif.Uploader
