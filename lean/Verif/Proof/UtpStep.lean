import Verif.Proof.UtpRecv
/-! Every step of a stream. -/
namespace Verif.Utp
open Verif Spec

theorem sackByte_names {first : Nat} {b : UInt8} {q : Nat} (h : q ∈ sackByte first b) : ∃ j, j < 8 ∧ b.toNat.testBit j = true ∧ q = (first + j) % 65536 := by
  unfold sackByte at h
  obtain ⟨j, hj, h⟩ := List.mem_filterMap.mp h
  split at h
  · rename_i hb
    cases h
    refine ⟨j, List.mem_range.mp hj, ?_, rfl⟩
    rw [Nat.testBit_eq_decide_div_mod_eq]; simpa using hb
  · cases h

theorem sackSeqs_names : ∀ (bs : List UInt8) {first q : Nat}, q ∈ sackSeqs first bs →
    ∃ i j b, bs[i]? = some b ∧ j < 8 ∧ b.toNat.testBit j = true ∧ q = (first + 8 * i + j) % 65536
  | [], first, q, h => by rw [sackSeqs] at h; cases h
  | b :: bs, first, q, h => by
    rw [sackSeqs] at h
    rcases List.mem_append.mp h with h | h
    · obtain ⟨j, h1, h2, h3⟩ := sackByte_names h
      exact ⟨0, j, b, rfl, h1, h2, by simpa using h3⟩
    · obtain ⟨i, j, x, h1, h2, h3, h4⟩ := sackSeqs_names bs h
      exact ⟨i + 1, j, x, h1, h2, h3, by rw [h4]; congr 1; omega⟩

theorem not_higher_ack {q a : Nat} (h : idHigher q a = false) (hq : q < 65536) : (a + 65536 - q) % 65536 ≤ 32768 := by
  unfold idHigher at h
  simp only [decide_eq_false_iff_not] at h
  omega

theorem updateState_sent {q0 : Nat} {cs : List (List UInt8)} {ks : List Nat} {s s' : Stream} {p : Packet} (h : SInv q0 cs ks s) (ht : p.head.typ = 0 ∨ p.head.typ = 2)
    (hr : s.updateState p = .ok (some s')) :
    ∃ ks1 cs', SInv q0 (cs ++ cs') (ks1 ++ List.range' cs.length cs'.length) s' ∧ (∀ k ∈ ks1, k ∈ ks) ∧ (∀ k ∈ ks, k ∈ ks1 ∨ Acknowledges p ((q0 + k) % 65536)) ∧
      cs'.flatten ++ s'.unsent = s.unsent := by
  unfold Stream.updateState at hr
  split at hr
  · cases hr
  · obtain ⟨a, h1, hr⟩ := bind_ok_inv hr
    simp only at hr
    obtain ⟨b, h2, hr⟩ := bind_ok_inv hr
    obtain ⟨c, h3, hr⟩ := bind_ok_inv hr
    obtain ⟨e, h4, hr⟩ := bind_ok_inv hr
    cases hr
    obtain ⟨k1, i1, i2, i3, i4⟩ := ackSent_sent h h1
    have i1' : SInv q0 cs k1 (Stream.setConnected { a with replyDelay := (a.now32 + 4294967296 - p.head.ts) % 4294967296, peerWnd := p.head.wnd } p.head) := by
      unfold Stream.setConnected
      split <;> exact i1.congr rfl rfl rfl rfl rfl rfl rfl rfl
    obtain ⟨k2, j1, j2, j3, j4⟩ := handleExts_sent p.exts i1' h2
    obtain ⟨cs', f1, f2⟩ := flushSend_sent j1 h3
    have j2' : b.unsent = a.unsent := by
      rw [j2]; unfold Stream.setConnected; split <;> rfl
    unfold Stream.schedule at h4
    obtain ⟨t, _, h4⟩ := bind_ok_inv h4
    cases h4
    refine ⟨k2, cs', f1.congr rfl rfl rfl rfl rfl rfl rfl rfl, fun k hk => i3 k (j3 k hk), fun k hk => ?_, ?_⟩
    · rcases i4 k hk with hk | hk
      · rcases j4 k hk with hk | ⟨x, hx, hx1, hx2⟩
        · exact Or.inl hk
        · obtain ⟨i, j, y, y1, y2, y3, y4⟩ := sackSeqs_names _ hx2
          exact Or.inr ⟨ht, Or.inr ⟨x, hx, hx1, i, j, y, y1, y2, y3, y4⟩⟩
      · exact Or.inr ⟨ht, Or.inl (not_higher_ack hk (by omega))⟩
    · rw [← i2, ← j2']; exact f2

theorem SInv.store {q0 : Nat} {cs : List (List UInt8)} {ks : List Nat} {s s' : Stream} (h : SInv q0 cs ks s) {seq : Nat} {data : List UInt8} (hr : s.store seq data = .ok s') :
    SInv q0 cs ks s' ∧ s'.unsent = s.unsent := by
  unfold Stream.store at hr
  obtain ⟨b, hb, hr⟩ := bind_ok_inv hr
  obtain ⟨h1, h2, h3, h4⟩ := createBuffer_ok hb
  have hk : List.Forall₂ (Kept q0 s.idSend b.1 cs) ks s.sentData :=
    forall₂_imp h.kept fun k p _ _ hx => hx.congr rfl rfl (h4 _ fun he => h1 (he ▸ hx.used))
  have hs := createBuffer_size hb h.size
  split at hr <;> (cases hr; exact ⟨⟨h.seq, hk, h.sorted, h.own, hs, h.inflight, h.lo, h.hi, h.parts, h.pos⟩, rfl⟩)

theorem recvLoop_congr : ∀ (l : List Stored) {s : Stream} {r : List Stored × Stream}, recvLoop l s = .ok r → r.2 = { s with ack := r.2.ack, receiveBuffer := r.2.receiveBuffer }
  | [], s, r, h => by rw [recvLoop] at h; cases h; rfl
  | d :: ds, s, r, h => by
    rw [recvLoop] at h
    split at h
    · obtain ⟨b, _, h⟩ := bind_ok_inv h
      rw [recvLoop_congr ds h]
    · cases h; rfl

theorem flushReceived_congr {s s' : Stream} (h : s.flushReceived = .ok s') : s' = { s with ack := s'.ack, receiveBuffer := s'.receiveBuffer, receivedData := s'.receivedData } := by
  unfold Stream.flushReceived at h
  obtain ⟨r, h1, h⟩ := bind_ok_inv h
  cases h
  have := recvLoop_congr _ h1
  rw [this]

theorem clear_others : ∀ (l : List Sent) (bufs : List (List UInt8)), (l.foldl (fun b p => b.set p.idx []) bufs).length = bufs.length ∧
    ∀ i, i ∉ l.map (·.idx) → (l.foldl (fun b p => b.set p.idx []) bufs)[i]? = bufs[i]?
  | [], bufs => ⟨rfl, fun _ _ => rfl⟩
  | p :: l, bufs => by
    obtain ⟨h1, h2⟩ := clear_others l (bufs.set p.idx [])
    refine ⟨by rw [List.foldl_cons, h1, List.length_set], fun i hi => ?_⟩
    simp only [List.map_cons, List.mem_cons, not_or] at hi
    rw [List.foldl_cons, h2 i hi.2, List.getElem?_set_ne (Ne.symm hi.1)]

theorem clearSend_ok {s s' : Stream} (h : s.clearSend = .ok s') :
    s' = { s with prepared := [], preparedPos := 0, unacked := 0, sentData := [], buffers := s'.buffers } ∧ s'.buffers.length = s.buffers.length ∧
      ∀ i, i ∉ s.idxs → s'.buffers[i]? = s.buffers[i]? := by
  unfold Stream.clearSend at h
  split at h
  · cases h
    obtain ⟨h1, h2⟩ := clear_others s.sentData s.buffers
    exact ⟨rfl, h1, h2⟩
  · cases h

theorem SInv.clear {q0 : Nat} {cs : List (List UInt8)} {ks : List Nat} {s s' : Stream} (h : SInv q0 cs ks s) (hr : s.clearSend = .ok s') : SInv q0 cs [] s' := by
  obtain ⟨e, e1, e2⟩ := clearSend_ok hr
  have hl := h.size
  rw [← e1] at hl
  rw [e]
  exact ⟨h.seq, .nil, .nil, by simp [Stream.idxs], hl, rfl, h.lo, h.hi, h.parts, Nat.le_refl _⟩

/-- What a step does to the sending side. -/
def SStep (q0 : Nat) (cs : List (List UInt8)) (ks : List Nat) (s : Stream) (e : Event) (s' : Stream) : Prop :=
  ∃ ks1 cs', SInv q0 (cs ++ cs') (ks1 ++ List.range' cs.length cs'.length) s' ∧ (∀ k ∈ ks1, k ∈ ks) ∧
    (¬PeerEnds e → (∀ k ∈ ks, k ∈ ks1 ∨ ∃ p, e = .packet p ∧ Acknowledges p ((q0 + k) % 65536)) ∧
      cs'.flatten ++ s'.unsent = s.unsent ++ match e with | .write data _ => if s.step = .closed then [] else data | _ => [])

theorem SStep.same {q0 : Nat} {cs : List (List UInt8)} {ks : List Nat} {s s' : Stream} {e : Event} (h : SInv q0 cs ks s') (hu : s'.unsent = s.unsent) (he : ∀ d g, e ≠ .write d g) : SStep q0 cs ks s e s' := by
  refine ⟨ks, [], by simpa using h, fun _ h => h, fun _ => ⟨fun _ h => Or.inl h, ?_⟩⟩
  cases e <;> simp_all

theorem SStep.cut {q0 : Nat} {cs : List (List UInt8)} {ks ks1 : List Nat} {s s' : Stream} {e : Event} (h : SInv q0 cs ks1 s') (hk : ∀ k ∈ ks1, k ∈ ks) (he : PeerEnds e) : SStep q0 cs ks s e s' :=
  ⟨ks1, [], by simpa using h, hk, fun hn => absurd he hn⟩

theorem close_congr (s : Stream) : s.close = { s with closePosted := s.close.closePosted } := by
  unfold Stream.close; split <;> rfl

theorem sendState_congr {s s' : Stream} (h : s.sendState = .ok s') : s' = { s with wire := s'.wire } := by
  unfold Stream.sendState at h
  obtain ⟨b, _, h⟩ := bind_ok_inv h
  cases h; rfl

/-- The part of `refresh` before the timer is set again. -/
theorem refresh_sent {q0 : Nat} {cs : List (List UInt8)} {ks : List Nat} {s s' : Stream} (h : SInv q0 cs ks s) (ho : Open s) (hr : s.refresh = .ok s') : SInv q0 cs ks s' ∧ s'.unsent = s.unsent := by
  unfold Stream.refresh at hr
  split at hr
  · split at hr
    · obtain ⟨t0, h0, hr⟩ := bind_ok_inv hr
      obtain ⟨t, _, hr⟩ := bind_ok_inv hr
      cases h0
      cases hr
      rw [close_congr]
      exact ⟨h.congr rfl rfl rfl rfl rfl rfl rfl rfl, rfl⟩
    · split at hr
      · split at hr
        · obtain ⟨t0, h0, hr⟩ := bind_ok_inv hr
          obtain ⟨t, _, hr⟩ := bind_ok_inv hr
          cases h0
          cases hr
          exact ⟨h.congr rfl rfl rfl rfl rfl rfl rfl rfl, rfl⟩
        · rename_i p ps hsd
          obtain ⟨s1, h1, hr⟩ := bind_ok_inv hr
          obtain ⟨t, _, hr⟩ := bind_ok_inv hr
          cases hr
          have hi : SInv q0 cs ks { s with sentData := (p :: ps).map fun q => { q with needResend := true } } := by
            refine ⟨h.seq, ?_, h.sorted, ?_, h.size, h.inflight, h.lo, h.hi, h.parts, h.pos⟩
            · simp only
              rw [← hsd, List.forall₂_map_right_iff]
              exact forall₂_imp h.kept fun _ _ _ _ hx => hx.congr rfl rfl rfl
            · simp only [Stream.idxs, List.map_map]
              rw [← hsd]; exact h.own
          obtain ⟨i1, i2⟩ := resend_sent hi h1
          exact ⟨i1.congr rfl rfl rfl rfl rfl rfl rfl rfl, i2⟩
      · split at hr
        · rename_i hs; exact absurd hs ho.2
        · split at hr
          · split at hr
            · obtain ⟨t0, h0, hr⟩ := bind_ok_inv hr
              obtain ⟨t, _, hr⟩ := bind_ok_inv hr
              cases h0
              cases hr
              rw [close_congr]
              exact ⟨h.congr rfl rfl rfl rfl rfl rfl rfl rfl, rfl⟩
            · obtain ⟨s1, h1, hr⟩ := bind_ok_inv hr
              obtain ⟨t, _, hr⟩ := bind_ok_inv hr
              cases hr
              rw [sendState_congr h1]
              exact ⟨h.congr rfl rfl rfl rfl rfl rfl rfl rfl, rfl⟩
          · obtain ⟨t0, h0, hr⟩ := bind_ok_inv hr
            obtain ⟨t, _, hr⟩ := bind_ok_inv hr
            cases h0
            cases hr
            exact ⟨h.congr rfl rfl rfl rfl rfl rfl rfl rfl, rfl⟩
  · cases hr; exact ⟨h, rfl⟩

theorem SInv.checkEof {q0 : Nat} {cs : List (List UInt8)} {ks : List Nat} {s s' : Stream} (h : SInv q0 cs ks s) (hr : s.checkEof = .ok s') : SInv q0 cs ks s' ∧ s'.unsent = s.unsent := by
  rw [checkEof_congr hr]; exact ⟨h.congr rfl rfl rfl rfl rfl rfl rfl rfl, rfl⟩

theorem SInv.dataEnd {q0 : Nat} {cs : List (List UInt8)} {ks : List Nat} {s s' : Stream} (h : SInv q0 cs ks s) (hr : s.dataEnd = .ok s') : SInv q0 cs ks s' ∧ s'.unsent = s.unsent := by
  rw [dataEnd_congr hr]; exact ⟨h.congr rfl rfl rfl rfl rfl rfl rfl rfl, rfl⟩

theorem packet_sent {q0 : Nat} {cs : List (List UInt8)} {ks : List Nat} {s s' : Stream} {p : Packet} (h : SInv q0 cs ks s) (hr : s.readPacket p = .ok s') : SStep q0 cs ks s (.packet p) s' := by
  have hb : SInv q0 cs ks { s with bytesSize := s.bytesSize + p.data.length } := h.congr rfl rfl rfl rfl rfl rfl rfl rfl
  unfold Stream.readPacket at hr
  simp only at hr
  split at hr
  · rename_i ht
    unfold Stream.handleData at hr
    split at hr
    · cases hr; exact SStep.same hb rfl (fun _ _ => by simp)
    · obtain ⟨u, h1, hr⟩ := bind_ok_inv hr
      split at hr
      · cases hr; exact SStep.same hb rfl (fun _ _ => by simp)
      · rename_i s1
        obtain ⟨ks1, cs', i1, i2, i3, i4⟩ := updateState_sent hb (Or.inl ht) h1
        have done : ∀ s2 : Stream, SInv q0 (cs ++ cs') (ks1 ++ List.range' cs.length cs'.length) s2 ∧ s2.unsent = s1.unsent → SStep q0 cs ks s (.packet p) s2 := by
          rintro s2 ⟨g1, g2⟩
          refine ⟨ks1, cs', g1, i2, fun _ => ⟨fun k hk => (i3 k hk).imp id fun ha => ⟨p, rfl, ha⟩, ?_⟩⟩
          rw [g2]; exact i4.trans (List.append_nil _).symm
        split at hr
        · cases hr; exact done _ ⟨i1, rfl⟩
        · split at hr
          · obtain ⟨s2, h2, hr⟩ := bind_ok_inv hr
            have hc := flushReceived_congr h2
            have g1 : SInv q0 (cs ++ cs') (ks1 ++ List.range' cs.length cs'.length) { s2 with appended := true } := by
              rw [hc]; exact i1.congr rfl rfl rfl rfl rfl rfl rfl rfl
            have g2 : s2.unsent = s1.unsent := by rw [hc]; rfl
            obtain ⟨f1, f2⟩ := g1.dataEnd hr
            exact done _ ⟨f1, f2.trans g2⟩
          · split at hr
            · obtain ⟨s2, h2, hr⟩ := bind_ok_inv hr
              obtain ⟨g1, g2⟩ := i1.store h2
              obtain ⟨f1, f2⟩ := g1.dataEnd hr
              exact done _ ⟨f1, f2.trans g2⟩
            · cases hr; exact done _ ⟨i1, rfl⟩
  · rename_i ht
    unfold Stream.handleFin at hr
    split at hr
    · obtain ⟨s1, h1, hr⟩ := bind_ok_inv hr
      have i1 : SInv q0 cs [] s1 := by
        refine SInv.clear (ks := ks) ?_ h1
        exact hb.congr rfl rfl rfl rfl rfl rfl rfl rfl
      exact SStep.cut (i1.checkEof hr).1 (fun _ h => by cases h) (Or.inl ht)
    · exact SStep.cut (hb.checkEof hr).1 (fun _ h => h) (Or.inl ht)
  · rename_i ht
    obtain ⟨u, h1, hr⟩ := bind_ok_inv hr
    split at hr
    · cases hr; exact SStep.same hb rfl (fun _ _ => by simp)
    · cases hr
      obtain ⟨ks1, cs', i1, i2, i3, i4⟩ := updateState_sent hb (Or.inr ht) h1
      exact ⟨ks1, cs', i1, i2, fun _ => ⟨fun k hk => (i3 k hk).imp id fun ha => ⟨p, rfl, ha⟩, i4.trans (List.append_nil _).symm⟩⟩
  · rename_i ht
    obtain ⟨s1, h1, hr⟩ := bind_ok_inv hr
    cases hr
    refine SStep.cut (ks1 := []) ?_ (fun _ h => by cases h) (Or.inr ht)
    rw [close_congr]
    exact (hb.clear h1).congr rfl rfl rfl rfl rfl rfl rfl rfl
  · cases hr; exact SStep.same hb rfl (fun _ _ => by simp)

theorem readFinish_congr {s s' : Stream} {used : Option Nat} (h : s.readFinish used = .ok s') :
    s' = { s with wire := s'.wire, taken := s'.taken, receiveBuffer := s'.receiveBuffer, received := false, appended := false } ∧ delivered s' = delivered s := by
  unfold Stream.readFinish at h
  have key : ∀ s1 : Stream, s1 = { s with wire := s1.wire } →
      (pure { (match s1.appended, used with
        | true, some n => { s1 with taken := s1.taken ++ s1.receiveBuffer.take n, receiveBuffer := s1.receiveBuffer.drop n }
        | _, _ => s1) with received := false, appended := false } : Res Stream) = .ok s' →
      s' = { s with wire := s'.wire, taken := s'.taken, receiveBuffer := s'.receiveBuffer, received := false, appended := false } ∧ delivered s' = delivered s := by
    intro s1 hs h
    have hd : delivered s1 = delivered s := by rw [hs]; rfl
    cases h
    split
    · refine ⟨by rw [hs], ?_⟩
      rw [← hd]
      simp [delivered]
    · exact ⟨by rw [hs], hd⟩
  split at h
  · obtain ⟨s1, h1, h⟩ := bind_ok_inv h
    exact key s1 (sendState_congr h1) h
  · exact key s rfl h

theorem next_sent {q0 : Nat} {cs : List (List UInt8)} {ks : List Nat} {s s' : Stream} {e : Event} (h : SInv q0 cs ks s) (ho : Open s) (hr : s.next e = .ok s') : SStep q0 cs ks s e s' := by
  cases e with
  | tick t => cases hr; exact SStep.same (h.congr rfl rfl rfl rfl rfl rfl rfl rfl) rfl (fun _ _ => by simp)
  | packet p => exact packet_sent h hr
  | finish used =>
    have hc := (readFinish_congr hr).1
    rw [hc]
    exact SStep.same (h.congr rfl rfl rfl rfl rfl rfl rfl rfl) rfl (fun _ _ => by simp)
  | write data grow =>
    simp only [Stream.next, Stream.write] at hr
    split at hr
    · rename_i hc
      cases hr
      exact ⟨ks, [], by simpa using h, fun _ h => h, fun _ => ⟨fun _ h => Or.inl h, by simp [hc]⟩⟩
    · rename_i hc
      obtain ⟨cs', i1, i2⟩ := writeLoop_sent _ h hr
      exact ⟨ks, cs', i1, fun _ h => h, fun _ => ⟨fun _ h => Or.inl h, by simpa [hc] using i2⟩⟩
  | refresh =>
    obtain ⟨i1, i2⟩ := refresh_sent h ho hr
    exact SStep.same i1 i2 (fun _ _ => by simp)
  | close =>
    cases hr
    rw [close_congr]
    exact SStep.same (h.congr rfl rfl rfl rfl rfl rfl rfl rfl) rfl (fun _ _ => by simp)
  | runClose =>
    cases hr
    unfold Stream.runClose
    split <;> exact SStep.same (h.congr rfl rfl rfl rfl rfl rfl rfl rfl) rfl (fun _ _ => by simp)

end Verif.Utp

namespace Verif.Utp
open Verif Spec

theorem run_append : ∀ (a b : List Event) (s : Stream), Stream.run (a ++ b) s = (Stream.run a s >>= fun s' => Stream.run b s')
  | [], b, s => rfl
  | e :: a, b, s => by
    rw [List.cons_append, Stream.run, Stream.run]
    cases s.next e with
    | ok s1 => rw [Res.bind_ok, Res.bind_ok, run_append a b s1]
    | ub => rfl
    | diverge => rfl

end Verif.Utp
