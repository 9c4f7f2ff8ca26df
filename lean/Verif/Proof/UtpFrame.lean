import Verif.Spec.Utp
/-! What the sending side of a stream leaves alone. -/
namespace Verif.Utp
open Verif Spec

/-- The buffers of packets not yet acknowledged. -/
def Stream.idxs (s : Stream) : List Nat := s.sentData.map (·.idx)

/-- A buffer in use. -/
def Used (bufs : List (List UInt8)) (i : Nat) : Prop := ∃ b, bufs[i]? = some b ∧ b ≠ []

/-- A step of the sending side: the receiving side is as before, and buffers in use that are not of packets
sent are left alone. -/
structure Frame (s s' : Stream) : Prop where
  ack : s'.ack = s.ack
  receivedData : s'.receivedData = s.receivedData
  receiveBuffer : s'.receiveBuffer = s.receiveBuffer
  taken : s'.taken = s.taken
  step : s'.step = s.step
  received : s'.received = s.received
  appended : s'.appended = s.appended
  closePosted : s'.closePosted = s.closePosted
  eofAck : s'.eofAck = s.eofAck
  clock : s'.clock = s.clock
  timeoutCount : s'.timeoutCount = s.timeoutCount
  bufs : ∀ i b, i ∉ s.idxs → s.buffers[i]? = some b → b ≠ [] → s'.buffers[i]? = some b
  idxs : ∀ i, i ∈ s'.idxs → i ∈ s.idxs ∨ ¬Used s.buffers i

theorem Frame.refl (s : Stream) : Frame s s := ⟨rfl, rfl, rfl, rfl, rfl, rfl, rfl, rfl, rfl, rfl, rfl, fun _ _ _ h _ => h, fun _ h => Or.inl h⟩

theorem Frame.trans {a b c : Stream} (h : Frame a b) (g : Frame b c) : Frame a c := by
  refine ⟨g.ack.trans h.ack, g.receivedData.trans h.receivedData, g.receiveBuffer.trans h.receiveBuffer, g.taken.trans h.taken, g.step.trans h.step,
    g.received.trans h.received, g.appended.trans h.appended, g.closePosted.trans h.closePosted, g.eofAck.trans h.eofAck, g.clock.trans h.clock,
    g.timeoutCount.trans h.timeoutCount, ?_, ?_⟩
  · intro i x hi hx hne
    refine g.bufs i x ?_ (h.bufs i x hi hx hne) hne
    intro hb
    rcases h.idxs i hb with hb | hb
    · exact hi hb
    · exact hb ⟨x, hx, hne⟩
  · intro i hi
    rcases g.idxs i hi with hi | hi
    · exact h.idxs i hi
    · by_cases ha : i ∈ a.idxs
      · exact Or.inl ha
      · refine Or.inr ?_
        rintro ⟨x, hx, hne⟩
        exact hi ⟨x, h.bufs i x ha hx hne, hne⟩

theorem bind_ok_inv {α β} {r : Res α} {f : α → Res β} {b : β} (h : (r >>= f) = .ok b) : ∃ a, r = .ok a ∧ f a = .ok b := by
  cases r with
  | ok a => exact ⟨a, rfl, h⟩
  | ub => cases h
  | diverge => cases h

theorem findIdx?_empty {bufs : List (List UInt8)} {i : Nat} (h : bufs.findIdx? (· == []) = some i) : bufs[i]? = some [] := by
  rw [List.findIdx?_eq_some_iff_getElem] at h
  obtain ⟨h1, h2, _⟩ := h
  rw [List.getElem?_eq_getElem h1]
  simpa using h2

/-- The buffer created was not in use, and it is the only one that changes. -/
theorem createBuffer_ok {bufs : List (List UInt8)} {b : List UInt8} {r : List (List UInt8) × Nat} (h : createBuffer bufs b = .ok r) :
    ¬Used bufs r.2 ∧ r.1[r.2]? = some b ∧ (∀ i, i ≠ r.2 → ∀ x, bufs[i]? = some x → r.1[i]? = some x) ∧ (∀ i, i ≠ r.2 → r.1[i]? = bufs[i]?) := by
  unfold createBuffer at h
  split at h
  · rename_i i hi
    cases h
    have := findIdx?_empty hi
    have hlt : i < bufs.length := by
      rcases Nat.lt_or_ge i bufs.length with hl | hl
      · exact hl
      · rw [List.getElem?_eq_none hl] at this; cases this
    refine ⟨?_, ?_, ?_, ?_⟩
    · rintro ⟨x, hx, hne⟩
      rw [this] at hx; cases hx; exact hne rfl
    · simp only; rw [List.getElem?_set_self hlt]
    · intro j hj x hx; simp only at hj ⊢; rw [List.getElem?_set_ne (Ne.symm hj)]; exact hx
    · intro j hj; simp only at hj ⊢; rw [List.getElem?_set_ne (Ne.symm hj)]
  · split at h
    · cases h
    · cases h
      have hnn : ∀ j, j ≠ bufs.length → (bufs ++ [b])[j]? = bufs[j]? := by
        intro j hj
        rcases Nat.lt_or_ge j bufs.length with hl | hl
        · exact List.getElem?_append_left hl
        · rw [List.getElem?_eq_none (by simp; omega), List.getElem?_eq_none hl]
      refine ⟨?_, ?_, ?_, hnn⟩
      · rintro ⟨x, hx, hne⟩
        rw [List.getElem?_eq_none (Nat.le_refl _)] at hx; cases hx
      · simp
      · intro j hj x hx
        simp only at hj ⊢
        rw [hnn j hj]; exact hx

theorem sendData_frame {s : Stream} {data : List UInt8} {r : Stream × Nat} (h : s.sendData data = .ok r) : Frame s r.1 := by
  unfold Stream.sendData at h
  obtain ⟨b, hb, h⟩ := bind_ok_inv h
  cases h
  obtain ⟨h1, h2, h3, h4⟩ := createBuffer_ok hb
  refine ⟨rfl, rfl, rfl, rfl, rfl, rfl, rfl, rfl, rfl, rfl, rfl, ?_, ?_⟩
  · intro i x _ hx hne
    refine h3 i ?_ x hx
    rintro rfl
    exact h1 ⟨x, hx, hne⟩
  · intro i hi
    simp only [Stream.idxs, List.map_append, List.mem_append, List.map_cons, List.map_nil, List.mem_singleton] at hi ⊢
    rcases hi with hi | rfl
    · exact Or.inl hi
    · exact Or.inr h1

theorem writeLoop_frame : ∀ (n : Nat) {s s' : Stream} {data : List UInt8} {grow : Bool}, Stream.writeLoop n s data grow = .ok s' → Frame s s'
  | n, s, s', [], grow, h => by
    have : s = s' := by cases n <;> (rw [Stream.writeLoop] at h; cases h; rfl)
    rw [this]; exact Frame.refl _
  | 0, s, s', _ :: _, grow, h => by rw [Stream.writeLoop] at h; cases h; simp
  | n + 1, s, s', x :: xs, grow, h => by
    rw [Stream.writeLoop] at h
    split at h
    · split at h <;> (cases h; exact ⟨rfl, rfl, rfl, rfl, rfl, rfl, rfl, rfl, rfl, rfl, rfl, fun _ _ _ h _ => h, fun _ h => Or.inl h⟩)
    · obtain ⟨r, h1, h2⟩ := bind_ok_inv h
      exact (sendData_frame h1).trans (writeLoop_frame n h2)
    · simp

theorem write_frame {s s' : Stream} {data : List UInt8} {grow : Bool} (h : s.write data grow = .ok s') : Frame s s' := by
  unfold Stream.write at h
  split at h
  · cases h; exact Frame.refl _
  · exact writeLoop_frame _ h

theorem resendLoop_frame (last : Nat) : ∀ (ps : List Sent) {s : Stream} {r : List Sent × Stream}, resendLoop last ps s = .ok r →
    r.1.map (·.idx) = ps.map (·.idx) ∧ (∀ i, i ∉ ps.map (·.idx) → r.2.buffers[i]? = s.buffers[i]?) ∧
      r.2 = { s with buffers := r.2.buffers, wire := r.2.wire }
  | [], s, r, h => by rw [resendLoop] at h; cases h; exact ⟨rfl, fun _ _ => rfl, rfl⟩
  | p :: ps, s, r, h => by
    rw [resendLoop] at h
    split at h
    · cases h; exact ⟨rfl, fun _ _ => rfl, rfl⟩
    · split at h
      · obtain ⟨r', h1, h2⟩ := bind_ok_inv h
        cases h2
        obtain ⟨e1, e2, e3⟩ := resendLoop_frame last ps h1
        refine ⟨by simp only [List.map_cons, e1], fun i hi => e2 i ?_, e3⟩
        intro hm; exact hi (by simp only [List.map_cons, List.mem_cons]; exact Or.inr hm)
      · obtain ⟨b, h1, h2⟩ := bind_ok_inv h
        split at h2
        · cases h2
        · obtain ⟨r', h3, h4⟩ := bind_ok_inv h2
          cases h4
          obtain ⟨e1, e2, e3⟩ := resendLoop_frame last ps h3
          refine ⟨by simp only [List.map_cons, e1], fun i hi => ?_, ?_⟩
          · simp only [List.map_cons, List.mem_cons, not_or] at hi
            rw [e2 i hi.2]
            simp only
            rw [List.getElem?_set_ne (Ne.symm hi.1)]
          · simp only; rw [e3]

theorem resend_frame {s s' : Stream} {last : Nat} (h : s.resend last = .ok s') : Frame s s' := by
  unfold Stream.resend at h
  obtain ⟨r, h1, h2⟩ := bind_ok_inv h
  cases h2
  obtain ⟨e1, e2, e3⟩ := resendLoop_frame last _ h1
  rw [e3]
  refine ⟨rfl, rfl, rfl, rfl, rfl, rfl, rfl, rfl, rfl, rfl, rfl, ?_, ?_⟩
  · intro i b hi hb _
    simp only
    rw [e2 i hi]; exact hb
  · intro i hi
    left
    simp only [Stream.idxs] at hi ⊢
    rw [← e1]; exact hi

/-- One packet is acknowledged: its buffer is emptied. -/
theorem ackPacket_ok {s s' : Stream} {p : Sent} (h : s.ackPacket p = .ok s') :
    ∃ b, s.buffers[p.idx]? = some b ∧ s'.buffers = s.buffers.set p.idx [] ∧
      s'.unacked = (s.unacked + 18446744073709551616 - b.length) % 18446744073709551616 ∧
      s' = { s with buffers := s'.buffers, unacked := s'.unacked, maxSize := s'.maxSize, probeId := s'.probeId, probeFinished := s'.probeFinished } := by
  unfold Stream.ackPacket at h
  obtain ⟨b, h1, h2⟩ := bind_ok_inv h
  cases h2
  refine ⟨b, ?_, rfl, rfl, rfl⟩
  unfold rd at h1
  split at h1
  · rename_i a ha; cases h1; exact ha
  · cases h1

theorem ackLoop_frame (ack : Nat) : ∀ (ps : List Sent) {s : Stream} {r : List Sent × Stream}, ackLoop ack ps s = .ok r →
    (∃ k, r.1 = ps.drop k) ∧ (∀ i, i ∉ ps.map (·.idx) → r.2.buffers[i]? = s.buffers[i]?) ∧
      r.2 = { s with buffers := r.2.buffers, unacked := r.2.unacked, maxSize := r.2.maxSize, probeId := r.2.probeId, probeFinished := r.2.probeFinished }
  | [], s, r, h => by rw [ackLoop] at h; cases h; exact ⟨⟨0, rfl⟩, fun _ _ => rfl, rfl⟩
  | p :: ps, s, r, h => by
    rw [ackLoop] at h
    split at h
    · cases h; exact ⟨⟨0, rfl⟩, fun _ _ => rfl, rfl⟩
    · obtain ⟨s1, h1, h2⟩ := bind_ok_inv h
      obtain ⟨b, g1, g2, g3, g4⟩ := ackPacket_ok h1
      obtain ⟨⟨k, e1⟩, e2, e3⟩ := ackLoop_frame ack ps h2
      refine ⟨⟨k + 1, e1⟩, fun i hi => ?_, ?_⟩
      · simp only [List.map_cons, List.mem_cons, not_or] at hi
        rw [e2 i hi.2, g2, List.getElem?_set_ne (Ne.symm hi.1)]
      · rw [e3, g4]

theorem ackSent_frame {s s' : Stream} {h : Header} (hh : s.ackSent h = .ok s') : Frame s s' := by
  unfold Stream.ackSent at hh
  obtain ⟨r, h1, h2⟩ := bind_ok_inv hh
  split at h2
  · cases h2
    obtain ⟨⟨k, e1⟩, e2, e3⟩ := ackLoop_frame _ _ h1
    rw [e3]
    refine ⟨rfl, rfl, rfl, rfl, rfl, rfl, rfl, rfl, rfl, rfl, rfl, ?_, ?_⟩
    · intro i b hi hb _
      simp only
      rw [e2 i hi]; exact hb
    · intro i hi
      left
      simp only [Stream.idxs, e1, List.mem_map] at hi ⊢
      obtain ⟨a, ha, rfl⟩ := hi
      exact ⟨a, List.mem_of_mem_drop ha, rfl⟩
  · split at h2 <;> (cases h2; exact ⟨rfl, rfl, rfl, rfl, rfl, rfl, rfl, rfl, rfl, rfl, rfl, fun _ _ _ h _ => h, fun _ h => Or.inl h⟩)

theorem rd_ok {α} {l : List α} {i : Nat} {a : α} (h : rd l i = .ok a) : l[i]? = some a := by
  unfold rd at h
  split at h
  · rename_i b hb; cases h; exact hb
  · cases h

theorem sackOne_frame {s s' : Stream} {q : Nat} (h : s.sackOne q = .ok s') : Frame s s' := by
  unfold Stream.sackOne at h
  split at h
  · cases h; exact Frame.refl _
  · obtain ⟨p, h1, h2⟩ := bind_ok_inv h
    split at h2
    · obtain ⟨s1, h3, h4⟩ := bind_ok_inv h2
      cases h4
      obtain ⟨b, g1, g2, g3, g4⟩ := ackPacket_ok h3
      have hp : p ∈ s.sentData := List.mem_of_getElem? (rd_ok h1)
      rw [g4]
      refine ⟨rfl, rfl, rfl, rfl, rfl, rfl, rfl, rfl, rfl, rfl, rfl, ?_, ?_⟩
      · intro i x hi hx _
        simp only
        rw [g2, List.getElem?_set_ne]
        · exact hx
        · rintro rfl; exact hi (List.mem_map.mpr ⟨p, hp, rfl⟩)
      · intro i hi
        left
        simp only [Stream.idxs, List.mem_map] at hi ⊢
        obtain ⟨a, ha, rfl⟩ := hi
        exact ⟨a, List.mem_of_mem_eraseIdx ha, rfl⟩
    · cases h2; exact Frame.refl _

theorem sackAll_frame : ∀ (qs : List Nat) {s s' : Stream}, Stream.sackAll qs s = .ok s' → Frame s s'
  | [], s, s', h => by rw [Stream.sackAll] at h; cases h; exact Frame.refl _
  | q :: qs, s, s', h => by
    rw [Stream.sackAll] at h
    obtain ⟨s1, h1, h2⟩ := bind_ok_inv h
    exact (sackOne_frame h1).trans (sackAll_frame qs h2)

theorem sack_frame {s s' : Stream} {h : Header} {bytes : List UInt8} (hh : s.sack h bytes = .ok s') : Frame s s' := by
  unfold Stream.sack at hh
  obtain ⟨s1, h1, h2⟩ := bind_ok_inv hh
  refine (sackAll_frame _ h1).trans ?_
  split at h2
  · obtain ⟨q, h3, h4⟩ := bind_ok_inv h2
    exact resend_frame h4
  · cases h2; exact Frame.refl _

theorem handleExts_frame {h : Header} : ∀ (es : List (Nat × List UInt8)) {s s' : Stream}, Stream.handleExts h es s = .ok s' → Frame s s'
  | [], s, s', hh => by rw [Stream.handleExts] at hh; cases hh; exact Frame.refl _
  | e :: es, s, s', hh => by
    rw [Stream.handleExts] at hh
    split at hh
    · obtain ⟨s1, h1, h2⟩ := bind_ok_inv hh
      exact (sack_frame h1).trans (handleExts_frame es h2)
    · exact handleExts_frame es hh

theorem flushLoop_frame (limit : Nat) : ∀ (n : Nat) {s : Stream} {data : List UInt8} {r : Stream × List UInt8}, Stream.flushLoop limit n s data = .ok r → Frame s r.1
  | n, s, [], r, h => by
    have : r.1 = s := by cases n <;> (rw [Stream.flushLoop] at h; cases h; rfl)
    rw [this]; exact Frame.refl _
  | 0, s, _ :: _, r, h => by rw [Stream.flushLoop] at h; cases h; simp
  | n + 1, s, x :: xs, r, h => by
    rw [Stream.flushLoop] at h
    split at h
    · obtain ⟨r', h1, h2⟩ := bind_ok_inv h
      exact (sendData_frame h1).trans (flushLoop_frame limit n h2)
    · cases h; exact Frame.refl _
    · simp

theorem flushResend_frame {s s' : Stream} (h : s.flushResend = .ok s') : Frame s s' := by
  unfold Stream.flushResend at h
  split at h
  · exact resend_frame h
  · simp only at h
    split at h
    · exact resend_frame h
    · cases h; exact Frame.refl _

theorem flushSend_frame {s s' : Stream} (h : s.flushSend = .ok s') : Frame s s' := by
  unfold Stream.flushSend at h
  obtain ⟨s1, h1, h⟩ := bind_ok_inv h
  obtain ⟨r, h2, h⟩ := bind_ok_inv h
  refine (flushResend_frame h1).trans ((flushLoop_frame _ _ h2).trans ?_)
  simp only at h
  split at h
  · split at h
    · cases h; exact ⟨rfl, rfl, rfl, rfl, rfl, rfl, rfl, rfl, rfl, rfl, rfl, fun _ _ _ h _ => h, fun _ h => Or.inl h⟩
    · split at h <;> (cases h; exact ⟨rfl, rfl, rfl, rfl, rfl, rfl, rfl, rfl, rfl, rfl, rfl, fun _ _ _ h _ => h, fun _ h => Or.inl h⟩)
  · cases h; exact Frame.refl _

end Verif.Utp
