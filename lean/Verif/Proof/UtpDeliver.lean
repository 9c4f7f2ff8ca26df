import Verif.Proof.UtpStep
/-! What arrives is delivered in order. -/
namespace Verif.Utp
open Verif Spec

/-- A step that leaves the receiving side alone. -/
structure RFrame (s s' : Stream) : Prop where
  receivedData : s'.receivedData = s.receivedData
  ack : s'.ack = s.ack
  out : delivered s' = delivered s
  bufs : ∀ i b, i ∉ s.idxs → s.buffers[i]? = some b → b ≠ [] → s'.buffers[i]? = some b
  idxs : ∀ i, i ∈ s'.idxs → i ∈ s.idxs ∨ ¬Used s.buffers i

theorem Frame.r {s s' : Stream} (h : Frame s s') : RFrame s s' := ⟨h.receivedData, h.ack, by unfold delivered; rw [h.taken, h.receiveBuffer], h.bufs, h.idxs⟩

theorem RFrame.of {s s' : Stream} (h1 : s'.receivedData = s.receivedData) (h2 : s'.ack = s.ack) (h3 : delivered s' = delivered s) (h4 : s'.idxs = s.idxs) (h5 : s'.buffers = s.buffers) : RFrame s s' :=
  ⟨h1, h2, h3, fun i b _ hb _ => by rw [h5]; exact hb, fun i hi => Or.inl (by rw [← h4]; exact hi)⟩

theorem RFrame.trans {a b c : Stream} (h : RFrame a b) (g : RFrame b c) : RFrame a c := by
  refine ⟨g.receivedData.trans h.receivedData, g.ack.trans h.ack, g.out.trans h.out, ?_, ?_⟩
  · intro i x hi hx hne
    refine g.bufs i x ?_ (h.bufs i x hi hx hne) hne
    intro hb
    rcases h.idxs i hb with hb | hb
    · exact hi hb
    · exact hb ⟨x, hx, hne⟩
  · intro i hi
    rcases g.idxs i hi with hi | hi
    · exact h.idxs i hi
    · by_cases ha : i ∈ a.idxs
      · exact Or.inl ha
      · refine Or.inr ?_
        rintro ⟨x, hx, hne⟩
        exact hi ⟨x, h.bufs i x ha hx hne, hne⟩

theorem Holds.rframe {s0 : Nat} {ps : List (List UInt8)} (hne : ∀ p ∈ ps, p ≠ []) {s s' : Stream} {d k : Nat} {e : Stored} (h : Holds s0 ps s d k e) (f : RFrame s s') :
    Holds s0 ps s' d k e := by
  have hk : ps[k]? = some (ps[k]'h.len) := List.getElem?_eq_getElem h.len
  have hb := h.buf
  rw [hk] at hb
  have hn : ps[k]'h.len ≠ [] := hne _ (List.getElem_mem h.len)
  refine ⟨h.lo, h.hi, h.len, h.seq, ?_, ?_⟩
  · intro hi
    rcases f.idxs _ hi with h1 | h1
    · exact h.own h1
    · exact h1 ⟨_, hb, hn⟩
  · rw [hk]; exact f.bufs _ _ h.own hb hn

theorem RInv.rframe {s0 : Nat} {ps : List (List UInt8)} (hne : ∀ p ∈ ps, p ≠ []) {C : Prop} {arr : List Nat} {s s' : Stream} {d : Nat} {A B : List Stored} {ks : List Nat} (h : RInv s0 ps C arr s d A B ks)
    (f : RFrame s s') : RInv s0 ps C arr s' d A B ks :=
  ⟨f.receivedData.trans h.split, h.stuck, f.ack.trans h.ack, h.len, f.out.trans h.out,
    forall₂_imp h.holds fun _ _ _ _ hx => hx.rframe hne f, h.sorted, h.pre, h.kept, h.full⟩

theorem RInv.weaken {s0 : Nat} {ps : List (List UInt8)} {C C' : Prop} {arr : List Nat} {s : Stream} {d : Nat} {A B : List Stored} {ks : List Nat} (h : RInv s0 ps C arr s d A B ks) (hc : C' → C) :
    RInv s0 ps C' arr s d A B ks :=
  ⟨h.split, h.stuck, h.ack, h.len, h.out, h.holds, h.sorted, h.pre, h.kept, fun c => h.full (hc c)⟩

theorem clearSend_rframe {s s' : Stream} (h : s.clearSend = .ok s') : RFrame s s' ∧ s'.step = s.step := by
  obtain ⟨e, _, e2⟩ := clearSend_ok h
  refine ⟨⟨by rw [e], by rw [e], by rw [e]; rfl, fun i b hi hb _ => by rw [e2 i hi]; exact hb, fun i hi => ?_⟩, by rw [e]⟩
  rw [e] at hi
  simp [Stream.idxs] at hi

theorem close_rframe (s : Stream) : RFrame s s.close := by
  rw [close_congr]; exact RFrame.of rfl rfl rfl rfl rfl

theorem refresh_rframe {s s' : Stream} (ho : Open s) (hr : s.refresh = .ok s') : RFrame s s' ∧ s'.step = s.step := by
  unfold Stream.refresh at hr
  split at hr
  · split at hr
    · obtain ⟨t0, h0, hr⟩ := bind_ok_inv hr
      obtain ⟨t, _, hr⟩ := bind_ok_inv hr
      cases h0
      cases hr
      rw [close_congr]
      exact ⟨RFrame.of rfl rfl rfl rfl rfl, rfl⟩
    · split at hr
      · split at hr
        · obtain ⟨t0, h0, hr⟩ := bind_ok_inv hr
          obtain ⟨t, _, hr⟩ := bind_ok_inv hr
          cases h0
          cases hr
          exact ⟨RFrame.of rfl rfl rfl rfl rfl, rfl⟩
        · rename_i p ps hsd
          obtain ⟨s1, h1, hr⟩ := bind_ok_inv hr
          obtain ⟨t, _, hr⟩ := bind_ok_inv hr
          cases hr
          have f := resend_frame h1
          have f0 : RFrame s { s with sentData := (p :: ps).map fun q => { q with needResend := true } } := by
            refine RFrame.of rfl rfl rfl ?_ rfl
            simp only [Stream.idxs, List.map_map]
            rw [← hsd]; rfl
          exact ⟨(f0.trans f.r).trans (RFrame.of rfl rfl rfl rfl rfl), f.step⟩
      · split at hr
        · rename_i hs; exact absurd hs ho.2
        · split at hr
          · split at hr
            · obtain ⟨t0, h0, hr⟩ := bind_ok_inv hr
              obtain ⟨t, _, hr⟩ := bind_ok_inv hr
              cases h0
              cases hr
              rw [close_congr]
              exact ⟨RFrame.of rfl rfl rfl rfl rfl, rfl⟩
            · obtain ⟨s1, h1, hr⟩ := bind_ok_inv hr
              obtain ⟨t, _, hr⟩ := bind_ok_inv hr
              cases hr
              rw [sendState_congr h1]
              exact ⟨RFrame.of rfl rfl rfl rfl rfl, rfl⟩
          · obtain ⟨t0, h0, hr⟩ := bind_ok_inv hr
            obtain ⟨t, _, hr⟩ := bind_ok_inv hr
            cases h0
            cases hr
            exact ⟨RFrame.of rfl rfl rfl rfl rfl, rfl⟩
  · cases hr; exact ⟨RFrame.of rfl rfl rfl rfl rfl, rfl⟩

/-- What a step does to the receiving side. -/
def RStep (s0 : Nat) (ps : List (List UInt8)) (arr : List Nat) (s' : Stream) : Prop :=
  ∃ d A B ks, RInv s0 ps (s'.step ≠ .closed) arr s' d A B ks

/-- A data packet. -/
theorem handleData_recv {s0 : Nat} {ps : List (List UInt8)} (hne : ∀ p ∈ ps, p ≠ []) {arr : List Nat} {s s' : Stream} {d : Nat} {A B : List Stored} {ks : List Nat}
    (h : RInv s0 ps (s.step ≠ .closed) arr s d A B ks) (ho : Open s) {q0 : Nat} {cs : List (List UInt8)} {kk : List Nat} (hs : SInv q0 cs kk s)
    {p : Packet} (ht : p.head.typ = 0) {k : Nat} (hc : Carries s0 ps p k) (hk : k < d + 32768 ∧ d ≤ k + 32768)
    (hr : s.handleData p = .ok s') : RStep s0 ps (k :: arr) s' ∧ Open s' ∧ (s.step = .closed → s'.step = .closed) := by
  obtain ⟨_, hseq, hdata⟩ := hc
  have hklen : k < ps.length := by
    rcases Nat.lt_or_ge k ps.length with hl | hl
    · exact hl
    · rw [List.getElem?_eq_none hl] at hdata; cases hdata
  have hdne : p.data ≠ [] := hne _ (List.mem_of_getElem? hdata)
  -- the packet changes nothing
  have skip : ∀ {s1 : Stream}, RInv s0 ps (s.step ≠ .closed) arr s1 d A B ks → (s1.step = .closed ∨ (NoWrap s0 ps → k < d)) → (s1.step = .closed ↔ s.step = .closed) →
      RStep s0 ps (k :: arr) s1 := by
    intro s1 h1 hcl hiff
    refine ⟨d, A, B, ks, h1.split, h1.stuck, h1.ack, h1.len, h1.out, h1.holds, h1.sorted, fun j hj => List.mem_cons_of_mem _ (h1.pre j hj), fun j hj => List.mem_cons_of_mem _ (h1.kept j hj), fun c w => ?_⟩
    obtain ⟨f1, f2⟩ := h1.full (fun hh => c (hiff.mpr hh)) w
    refine ⟨f1, fun j hj => ?_⟩
    rcases List.mem_cons.mp hj with rfl | hj
    · rcases hcl with hcl | hcl
      · exact absurd hcl c
      · exact Or.inl (hcl w)
    · exact f2 j hj
  unfold Stream.handleData at hr
  rw [if_neg hdne] at hr
  obtain ⟨u, h1, hr⟩ := bind_ok_inv hr
  split at hr
  · cases hr
    refine ⟨skip h (Or.inr fun _ => ?_) Iff.rfl, ho, id⟩
    unfold Stream.updateState at h1
    split at h1
    · rename_i hl
      have := hl.2
      rw [hseq, h.ack] at this
      unfold idLower at this
      simp only [decide_eq_true_eq] at this
      omega
    · obtain ⟨a, _, h1⟩ := bind_ok_inv h1
      simp only at h1
      obtain ⟨b, _, h1⟩ := bind_ok_inv h1
      obtain ⟨c, _, h1⟩ := bind_ok_inv h1
      obtain ⟨e, _, h1⟩ := bind_ok_inv h1
      cases h1
  · rename_i s1
    obtain ⟨i1, i2, i3⟩ := h.updateState hne ho h1
    obtain ⟨ks1, cs1, g1, _, _, _⟩ := updateState_sent hs (Or.inl ht) h1
    split at hr
    · rename_i hcl
      cases hr
      exact ⟨skip i1 (Or.inl hcl) i3, i2, i3.mpr⟩
    · rename_i hncl
      have hnc : s.step ≠ .closed := fun hh => hncl (i3.mpr hh)
      split at hr
      · rename_i hnext
        have hkd : k = d := by
          rw [hseq, i1.ack] at hnext; unfold inc16 at hnext; omega
        subst hkd
        obtain ⟨s2, h2, hr⟩ := bind_ok_inv hr
        have hdE := dataEnd_congr hr
        unfold Stream.flushReceived at h2
        obtain ⟨r, h3, h2⟩ := bind_ok_inv h2
        cases h2
        obtain ⟨d', A', B', ks', r1, r2, r3, r4, r5, r6, r7, r8, r9, r10, r11, r12⟩ := recvLoop_ok s0 ps B i1.stuck A ks { s1 with receiveBuffer := s1.receiveBuffer ++ p.data, ack := inc16 s1.ack } (k + 1) r
          (forall₂_imp i1.holds fun _ _ _ _ hx => hx.congr rfl rfl) i1.sorted (by simp only [i1.ack]; unfold inc16; omega) (by omega) (by omega)
          (by rw [take_succ_flatten hdata, ← i1.out]; simp [delivered, List.append_assoc]) (by rw [← i1.split]; exact h3)
        have hstep : s'.step = s1.step := by rw [hdE]; simp only; rw [r9]
        refine ⟨⟨d', A', B', ks', ?_, r2, ?_, r5, ?_, ?_, r8, ?_, ?_, ?_⟩, ?_, ?_⟩
        · rw [hdE]; exact r1
        · rw [hdE]; exact r3
        · rw [hdE]; exact r6
        · refine forall₂_imp r7 fun a x _ _ hx => hx.congr ?_ ?_
          · rw [hdE]; simp only [Stream.idxs]; rw [r9]
          · rw [hdE]; simp only; rw [r9]
        · intro j hj
          rcases Nat.lt_trichotomy j k with hl | hl | hl
          · exact List.mem_cons_of_mem _ (i1.pre j hl)
          · subst hl; exact List.mem_cons_self
          · exact List.mem_cons_of_mem _ (i1.kept j (r11 j (by omega) hj))
        · intro j hj; exact List.mem_cons_of_mem _ (i1.kept j (r12 j hj))
        · intro _ w
          obtain ⟨f1, f2⟩ := i1.full hnc w
          obtain ⟨f3, f4⟩ := r10 w f1
          refine ⟨f3, fun j hj => ?_⟩
          rcases List.mem_cons.mp hj with rfl | hj
          · left; omega
          · rcases f2 j hj with hj | hj
            · left; omega
            · exact f4 j hj
        · unfold Open; rw [hstep]; exact i2
        · intro hh; exact absurd hh hnc
      · rename_i hnn
        split at hr
        · rename_i hhi
          have hkd : d + 1 ≤ k := by
            rw [hseq, i1.ack] at hhi hnn
            unfold idHigher at hhi; unfold inc16 at hnn
            simp only [decide_eq_true_eq] at hhi
            omega
          obtain ⟨s2, h2, hr⟩ := bind_ok_inv hr
          have hdE := dataEnd_congr hr
          unfold Stream.store at h2
          obtain ⟨b, hb, h2⟩ := bind_ok_inv h2
          obtain ⟨b1, b2, b3, b4⟩ := createBuffer_ok hb
          have hbown : b.2 ∉ s1.idxs := fun hi => b1 (g1.used hi)
          have hm : List.Forall₂ (Holds s0 ps { s1 with buffers := b.1 } (d + 1)) ks A := by
            refine forall₂_imp i1.holds fun a x _ _ hx => ⟨hx.lo, hx.hi, hx.len, hx.seq, hx.own, ?_⟩
            simp only
            rw [b4, hx.buf]
            intro he
            have hk' : ps[a]? = some (ps[a]'hx.len) := List.getElem?_eq_getElem hx.len
            have hbuf := hx.buf
            rw [hk', he] at hbuf
            exact b1 ⟨_, hbuf, hne _ (List.getElem_mem hx.len)⟩
          have hx : Holds s0 ps { s1 with buffers := b.1 } (d + 1) k ⟨b.2, p.head.seq⟩ :=
            ⟨hkd, by omega, hklen, hseq, hbown, by simp only; rw [b2, hdata]⟩
          have ins := insertStored_ok s0 ps { s1 with buffers := b.1 } d k B i1.stuck ⟨b.2, p.head.seq⟩ hx A ks hm i1.sorted
          rw [← i1.split] at ins
          split at h2
          · rename_i l hl
            cases h2
            rw [hl] at ins
            simp only at ins
            obtain ⟨A', B', ks', e1, e2, e3, e4, e5, e6⟩ := ins
            refine ⟨⟨d, A', B', ks', by rw [hdE]; exact e1, e2, by rw [hdE]; exact i1.ack, i1.len, by rw [hdE]; exact i1.out, ?_, e4, fun j hj => List.mem_cons_of_mem _ (i1.pre j hj), ?_, ?_⟩, ?_, fun hh => absurd hh hnc⟩
            · rw [hdE]; exact forall₂_imp e3 fun _ _ _ _ hx => hx.congr rfl rfl
            · intro j hj
              rcases e5 j hj with rfl | hj
              · exact List.mem_cons_self
              · exact List.mem_cons_of_mem _ (i1.kept j hj)
            · intro _ w
              obtain ⟨f1, f2⟩ := i1.full hnc w
              obtain ⟨f3, f4, f5⟩ := e6 f1
              refine ⟨f3, fun j hj => ?_⟩
              rcases List.mem_cons.mp hj with rfl | hj
              · exact Or.inr f4
              · exact (f2 j hj).imp id (f5 j)
            · rw [hdE]; exact i2
          · rename_i hl
            cases h2
            rw [hl] at ins
            simp only at ins
            refine ⟨⟨d, A, B, ks, by rw [hdE]; exact i1.split, i1.stuck, by rw [hdE]; exact i1.ack, i1.len, by rw [hdE]; exact i1.out, ?_, i1.sorted, fun j hj => List.mem_cons_of_mem _ (i1.pre j hj),
              fun j hj => List.mem_cons_of_mem _ (i1.kept j hj), ?_⟩, ?_, fun hh => absurd hh hnc⟩
            · rw [hdE]; exact forall₂_imp hm fun _ _ _ _ hx => hx.congr rfl rfl
            · intro _ w
              obtain ⟨f1, f2⟩ := i1.full hnc w
              refine ⟨f1, fun j hj => ?_⟩
              rcases List.mem_cons.mp hj with rfl | hj
              · exact Or.inr (ins f1)
              · exact f2 j hj
            · rw [hdE]; exact i2
        · rename_i hhi
          cases hr
          refine ⟨skip i1 (Or.inr fun w => ?_) i3, i2, i3.mpr⟩
          have hw := w.2
          rw [hseq, i1.ack] at hhi hnn
          unfold idHigher at hhi; unfold inc16 at hnn
          simp only [decide_eq_true_eq] at hhi
          omega

theorem checkEof_rframe {s s' : Stream} (h : s.checkEof = .ok s') : RFrame s s' ∧ s'.step = s.step := by
  rw [checkEof_congr h]; exact ⟨RFrame.of rfl rfl rfl rfl rfl, rfl⟩

/-- What arrives with an event: the places in the stream. -/
def Brings (s0 : Nat) (ps : List (List UInt8)) (e : Event) (l : List Nat) : Prop :=
  (∀ k ∈ l, ∃ p, e = .packet p ∧ Carries s0 ps p k) ∧ ∀ p, e = .packet p → p.head.typ = 0 → p.data ≠ [] → ∃ k ∈ l, Carries s0 ps p k

theorem Brings.none {s0 : Nat} {ps : List (List UInt8)} {e : Event} (h : ∀ p, e = .packet p → p.head.typ = 0 → p.data = []) : Brings s0 ps e [] :=
  ⟨(fun _ h => by cases h), fun p he ht hd => absurd (h p he ht) hd⟩

theorem next_recv {s0 : Nat} {ps : List (List UInt8)} (hne : ∀ p ∈ ps, p ≠ []) {arr : List Nat} {s s' : Stream} {d : Nat} {A B : List Stored} {ks : List Nat}
    (h : RInv s0 ps (s.step ≠ .closed) arr s d A B ks) (ho : Open s) {q0 : Nat} {cs : List (List UInt8)} {kk : List Nat} (hs : SInv q0 cs kk s) {e : Event}
    (hf : ∀ p, e = .packet p → p.head.typ = 0 → p.data ≠ [] → ∃ k, Carries s0 ps p k ∧ ∀ d, delivered s = (ps.take d).flatten → d ≤ ps.length → k < d + 32768 ∧ d ≤ k + 32768)
    (hr : s.next e = .ok s') : ∃ l, Brings s0 ps e l ∧ RStep s0 ps (l ++ arr) s' ∧ Open s' ∧ (s.step = .closed → s'.step = .closed) := by
  -- the receiving side is left alone
  have keep : ∀ {s1 : Stream}, RFrame s s1 → (s.step = .closed → s1.step = .closed) → RStep s0 ps arr s1 := fun f g =>
    ⟨d, A, B, ks, (h.rframe hne f).weaken fun c hh => c (g hh)⟩
  cases e with
  | tick t => cases hr; exact ⟨[], .none (fun p he => by cases he), keep (RFrame.of rfl rfl rfl rfl rfl) id, ho, id⟩
  | finish used =>
    obtain ⟨hc, hd⟩ := readFinish_congr hr
    have hstep : s'.step = s.step := by rw [hc]
    refine ⟨[], .none (fun p he => by cases he), keep ?_ (fun hh => hstep.trans hh), ?_, fun hh => hstep.trans hh⟩
    · rw [hc] at hd ⊢; exact RFrame.of rfl rfl hd rfl rfl
    · unfold Open; rw [hstep]; exact ho
  | write data grow =>
    have f := write_frame hr
    exact ⟨[], .none (fun p he => by cases he), keep f.r (fun hh => f.step.trans hh), by unfold Open; rw [f.step]; exact ho, fun hh => f.step.trans hh⟩
  | refresh =>
    obtain ⟨f, hstep⟩ := refresh_rframe ho hr
    exact ⟨[], .none (fun p he => by cases he), keep f (fun hh => hstep.trans hh), by unfold Open; rw [hstep]; exact ho, fun hh => hstep.trans hh⟩
  | close =>
    cases hr
    have hstep : s.close.step = s.step := by rw [close_congr]
    exact ⟨[], .none (fun p he => by cases he), keep (close_rframe s) (fun hh => hstep.trans hh), by unfold Open; rw [hstep]; exact ho, fun hh => hstep.trans hh⟩
  | runClose =>
    cases hr
    refine ⟨[], .none (fun p he => by cases he), keep ?_ ?_, ?_, ?_⟩
    · unfold Stream.runClose; split <;> exact RFrame.of rfl rfl rfl rfl rfl
    · unfold Stream.runClose; split <;> simp
    · unfold Stream.runClose Open; split
      · simp
      · exact ho
    · unfold Stream.runClose; split <;> simp
  | packet p =>
    have fb : RFrame s { s with bytesSize := s.bytesSize + p.data.length } := RFrame.of rfl rfl rfl rfl rfl
    have hb := h.rframe hne fb
    have hsb : SInv q0 cs kk { s with bytesSize := s.bytesSize + p.data.length } := hs.congr rfl rfl rfl rfl rfl rfl rfl rfl
    simp only [Stream.next, Stream.readPacket] at hr
    split at hr
    · rename_i ht
      by_cases hdn : p.data = []
      · rw [Stream.handleData, if_pos hdn] at hr
        cases hr
        exact ⟨[], .none (fun q he _ => by cases he; exact hdn), keep fb id, ho, id⟩
      · obtain ⟨k, hc, hk⟩ := hf p rfl ht hdn
        obtain ⟨r1, r2, r3⟩ := handleData_recv (s := { s with bytesSize := s.bytesSize + p.data.length }) hne hb ho hsb ht hc (hk d h.out h.len) hr
        exact ⟨[k], ⟨fun j hj => ⟨p, rfl, by rw [List.mem_singleton.mp hj]; exact hc⟩, fun q he _ _ => by cases he; exact ⟨k, List.mem_singleton.mpr rfl, hc⟩⟩, r1, r2, r3⟩
    · rename_i ht
      have nb : Brings s0 ps (.packet p) [] := .none (fun q he hq => by cases he; rw [ht] at hq; cases hq)
      unfold Stream.handleFin at hr
      split at hr
      · rename_i hnc
        obtain ⟨s1, h1, hr⟩ := bind_ok_inv hr
        obtain ⟨f1, e1⟩ := clearSend_rframe h1
        obtain ⟨f2, e2⟩ := checkEof_rframe hr
        have f0 : RFrame s { s with bytesSize := s.bytesSize + p.data.length, eofAck := p.head.seq, step := .closing } := RFrame.of rfl rfl rfl rfl rfl
        have hst : s'.step = .closing := by rw [e2, e1]
        exact ⟨[], nb, keep ((f0.trans f1).trans f2) (fun hh => absurd hh hnc), by unfold Open; rw [hst]; simp, fun hh => absurd hh hnc⟩
      · obtain ⟨f2, e2⟩ := checkEof_rframe hr
        exact ⟨[], nb, keep (fb.trans f2) (fun hh => e2.trans hh), by unfold Open; rw [e2]; exact ho, fun hh => e2.trans hh⟩
    · rename_i ht
      have nb : Brings s0 ps (.packet p) [] := .none (fun q he hq => by cases he; rw [ht] at hq; cases hq)
      obtain ⟨u, h1, hr⟩ := bind_ok_inv hr
      split at hr
      · cases hr; exact ⟨[], nb, keep fb id, ho, id⟩
      · cases hr
        obtain ⟨i1, i2, i3⟩ := hb.updateState hne ho h1
        exact ⟨[], nb, ⟨d, A, B, ks, i1.weaken fun c hh => c (i3.mpr hh)⟩, i2, i3.mpr⟩
    · rename_i ht
      have nb : Brings s0 ps (.packet p) [] := .none (fun q he hq => by cases he; rw [ht] at hq; cases hq)
      obtain ⟨s1, h1, hr⟩ := bind_ok_inv hr
      cases hr
      obtain ⟨f1, e1⟩ := clearSend_rframe h1
      have hst : s1.close.step = s.step := by rw [close_congr]; exact e1
      exact ⟨[], nb, keep ((fb.trans f1).trans (close_rframe s1)) (fun hh => hst.trans hh), by unfold Open; rw [hst]; exact ho, fun hh => hst.trans hh⟩
    · rename_i h0 _ _ _
      cases hr
      exact ⟨[], .none (fun q he hq => by cases he; exact absurd hq h0), keep fb id, ho, id⟩

theorem updateState_open {s s' : Stream} {p : Packet} (ho : Open s) (h : s.updateState p = .ok (some s')) : Open s' := by
  obtain ⟨_, s1, f1, f2⟩ := updateState_split h
  have ho1 : Open s1 := by unfold Open; rw [f1.step]; exact ho
  obtain ⟨_, _, _, _, _, c6, _⟩ := setConnected_congr (h := p.head) ho1
  unfold Open; rw [f2.step]; exact c6

theorem store_congr {s s' : Stream} {seq : Nat} {data : List UInt8} (h : s.store seq data = .ok s') : s'.step = s.step := by
  unfold Stream.store at h
  obtain ⟨b, _, h⟩ := bind_ok_inv h
  split at h <;> (cases h; rfl)

/-- A stream past its opening stays so. -/
theorem utp_open {s s' : Stream} {e : Event} (ho : Open s) (hr : s.next e = .ok s') : Open s' := by
  cases e with
  | tick t => cases hr; exact ho
  | finish used =>
    rw [(readFinish_congr hr).1]; exact ho
  | write data grow => unfold Open; rw [(write_frame hr).step]; exact ho
  | refresh => unfold Open; rw [(refresh_rframe ho hr).2]; exact ho
  | close => cases hr; rw [close_congr]; exact ho
  | runClose =>
    cases hr
    unfold Stream.runClose Open; split
    · simp
    · exact ho
  | packet p =>
    simp only [Stream.next, Stream.readPacket] at hr
    split at hr
    · unfold Stream.handleData at hr
      split at hr
      · cases hr; exact ho
      · obtain ⟨u, h1, hr⟩ := bind_ok_inv hr
        split at hr
        · cases hr; exact ho
        · rename_i s1
          have h2 : Open s1 := updateState_open (s := { s with bytesSize := s.bytesSize + p.data.length }) ho h1
          split at hr
          · cases hr; exact h2
          · split at hr
            · obtain ⟨s2, h3, hr⟩ := bind_ok_inv hr
              rw [dataEnd_congr hr]
              unfold Open; simp only
              rw [flushReceived_congr h3]
              exact h2
            · split at hr
              · obtain ⟨s2, h3, hr⟩ := bind_ok_inv hr
                rw [dataEnd_congr hr]
                unfold Open; simp only
                rw [store_congr h3]; exact h2
              · cases hr; exact h2
    · unfold Stream.handleFin at hr
      split at hr
      · obtain ⟨s1, h1, hr⟩ := bind_ok_inv hr
        obtain ⟨_, e1⟩ := clearSend_rframe h1
        unfold Open
        rw [(checkEof_rframe hr).2, e1]; simp
      · unfold Open
        rw [(checkEof_rframe hr).2]; exact ho
    · obtain ⟨u, h1, hr⟩ := bind_ok_inv hr
      split at hr
      · cases hr; exact ho
      · cases hr
        exact updateState_open (s := { s with bytesSize := s.bytesSize + p.data.length }) ho h1
    · obtain ⟨s1, h1, hr⟩ := bind_ok_inv hr
      cases hr
      rw [close_congr]
      unfold Open; simp only
      rw [(clearSend_rframe h1).2]; exact ho
    · cases hr; exact ho

theorem resendLoop_wire (last : Nat) : ∀ (ps : List Sent) {s : Stream} {r : List Sent × Stream}, resendLoop last ps s = .ok r → ∃ rest, r.2.wire = s.wire ++ rest
  | [], s, r, h => by rw [resendLoop] at h; cases h; exact ⟨[], by simp⟩
  | p :: ps, s, r, h => by
    rw [resendLoop] at h
    split at h
    · cases h; exact ⟨[], by simp⟩
    · split at h
      · obtain ⟨r', h1, h2⟩ := bind_ok_inv h
        cases h2
        obtain ⟨rest, hw⟩ := resendLoop_wire last ps h1
        exact ⟨rest, hw⟩
      · obtain ⟨b, h1, h2⟩ := bind_ok_inv h
        split at h2
        · cases h2
        · obtain ⟨r', h3, h4⟩ := bind_ok_inv h2
          cases h4
          obtain ⟨rest, hw⟩ := resendLoop_wire last ps h3
          exact ⟨patch b s.ack s.now32 s.replyDelay :: rest, by rw [hw]; simp⟩

/-- The first packet kept is sent again. -/
theorem resend_first {s s' : Stream} {p : Sent} {ps : List Sent} (hs : s.sentData = p :: ps) (hn : p.needResend = true) (h : s.resend p.seq = .ok s') :
    ∃ b rest, s.buffers[p.idx]? = some b ∧ s'.wire = s.wire ++ patch b s.ack s.now32 s.replyDelay :: rest := by
  unfold Stream.resend at h
  obtain ⟨r, h1, h⟩ := bind_ok_inv h
  cases h
  rw [hs, resendLoop, if_neg (by unfold idHigher; simp), if_neg (by rw [hn]; simp)] at h1
  obtain ⟨b, h2, h1⟩ := bind_ok_inv h1
  split at h1
  · cases h1
  · obtain ⟨r', h3, h1⟩ := bind_ok_inv h1
    cases h1
    obtain ⟨rest, hw⟩ := resendLoop_wire _ _ h3
    exact ⟨b, rest, rd_ok h2, by simp only; rw [hw]; simp⟩

theorem run_sent {q0 : Nat} : ∀ (es : List Event) {s s' : Stream} {cs : List (List UInt8)} {ks : List Nat}, SInv q0 cs ks s → Open s → Stream.run es s = .ok s' → ∃ cs' ks', SInv q0 cs' ks' s' ∧ Open s'
  | [], s, s', cs, ks, h, ho, hr => by rw [Stream.run] at hr; cases hr; exact ⟨cs, ks, h, ho⟩
  | e :: es, s, s', cs, ks, h, ho, hr => by
    rw [Stream.run] at hr
    obtain ⟨s1, h1, hr⟩ := bind_ok_inv hr
    obtain ⟨k1, c1, g1, _, _⟩ := next_sent h ho h1
    exact run_sent es g1 (utp_open ho h1) hr

end Verif.Utp
