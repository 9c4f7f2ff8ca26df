import Verif.Spec.Tcp

namespace Verif.Tcp
open Verif Spec.Tcp

/-- What was received and not used is in the buffer. -/
structure Holds (src taken : List UInt8) (b : Buffer) : Prop where
  pos : b.pos ≤ b.data.length
  counter : b.counter ≤ src.length
  eq : taken ++ b.data.take b.pos = src.take b.counter

theorem Holds.le {src taken : List UInt8} {b : Buffer} (h : Holds src taken b) : b.pos ≤ src.length := by
  have := congrArg List.length h.eq
  simp only [List.length_append, List.length_take] at this
  have := h.pos
  have := h.counter
  omega

theorem reserve_take (b : Buffer) (n : Nat) (h : b.pos ≤ b.data.length) : (reserve b n).data.take b.pos = b.data.take b.pos ∧
    (reserve b n).data.length = b.pos + n := by
  unfold reserve
  simp only
  constructor
  · exact List.take_left' (by simp; omega)
  · simp only [List.length_append, List.length_take, List.length_replicate]; omega

theorem reserve_holds {src taken : List UInt8} {b : Buffer} (h : Holds src taken b) (n : Nat) : Holds src taken (reserve b n) := by
  obtain ⟨h1, h2⟩ := reserve_take b n h.pos
  refine ⟨?_, h.counter, ?_⟩
  · rw [h2]; show b.pos ≤ _; omega
  · show taken ++ (reserve b n).data.take b.pos = _; rw [h1]; exact h.eq

theorem fill_holds {src taken : List UInt8} {b : Buffer} (h : Holds src taken b) (k : Nat) (hk : b.counter + k ≤ src.length) (hr : b.pos + k ≤ b.data.length) :
    ∃ b', fill b ((src.drop b.counter).take k) = .ok b' ∧ b'.pos = b.pos ∧ b'.counter = b.counter ∧ b'.data.length = b.data.length ∧
      Holds src taken (advance b' k) := by
  have hl : ((src.drop b.counter).take k).length = k := by simp; omega
  unfold fill
  rw [if_pos (by rw [hl]; exact hr)]
  refine ⟨_, rfl, rfl, rfl, ?_, ?_⟩
  · simp only [List.length_append, List.length_take, List.length_drop]; omega
  · refine ⟨?_, ?_, ?_⟩
    · simp only [advance, List.length_append, List.length_take, List.length_drop]; omega
    · simpa [advance] using hk
    · simp only [advance]
      rw [List.take_left' (by simp only [List.length_append, hl, List.length_take]; omega), ← List.append_assoc, h.eq, ← List.take_add]

theorem consume_holds {src taken : List UInt8} {b : Buffer} (h : Holds src taken b) (hs : src.length < 2 ^ 64) (n : Nat) (hn : n ≤ b.pos) :
    ∃ b', consume b n = .ok b' ∧ Holds src (taken ++ (b.data.take b.pos).take n) b' := by
  have hle := h.le
  have hp : (b.pos + 18446744073709551616 - n) % 18446744073709551616 = b.pos - n := by omega
  have hpos := h.pos
  unfold consume
  simp only [hp]
  split
  · rw [if_pos (by omega)]
    refine ⟨_, rfl, ?_, h.counter, ?_⟩
    · simp only [List.length_take, List.length_drop]; omega
    · simp only
      have hsplit : b.data.take b.pos = b.data.take n ++ (b.data.drop n).take (b.pos - n) := by
        rw [← List.take_add]; congr 1; omega
      rw [← h.eq, List.take_take, Nat.min_eq_left hn, List.append_assoc, hsplit, List.take_take, Nat.min_self]
  · rename_i hz
    refine ⟨_, rfl, ?_, h.counter, ?_⟩
    · simp only; omega
    · simp only
      rw [List.take_take, Nat.min_eq_left hn, List.append_assoc, ← h.eq]
      congr 1
      by_cases h0 : n = 0
      · subst h0; simp
      · have : b.pos - n = 0 := by
          apply Decidable.byContradiction
          intro hne
          exact hz ⟨hne, h0⟩
        rw [this, List.take_zero, List.append_nil, show n = b.pos by omega]

structure Inv (src : List UInt8) (w : World) : Prop where
  holds : Holds src w.taken w.stream.buffer
  room : w.stream.waitData = true → w.stream.buffer.pos + w.stream.requested ≤ w.stream.buffer.data.length ∧ 0 < w.stream.requested
  shown : ∀ x ∈ w.shown, x.1 ++ x.2 <+: src
  sent : w.sent ++ w.stream.queue = w.asked
  writing : w.stream.writing = if w.stream.phase = .connected then w.stream.queue.head? else none
  listening : w.stream.phase = .connected → w.stream.waitBw = true ∨ w.stream.waitData = true
  quota : w.stream.waitBw = true → w.stream.quota ≤ 1048576
  const : w.stream.expecting = 100 ∧ w.stream.last = 0

/-- What a new receive needs. -/
structure Ready (src taken : List UInt8) (s : Stream) : Prop where
  holds : Holds src taken s.buffer
  room : s.waitData = true → s.buffer.pos + s.requested ≤ s.buffer.data.length ∧ 0 < s.requested
  quota : s.waitBw = true → s.quota ≤ 1048576
  const : s.expecting = 100 ∧ s.last = 0

theorem startReceive_ready {src taken : List UInt8} {s : Stream} (h : Ready src taken s) (grant : Nat) (hg : grant < 2 ^ 31) :
    Ready src taken (startReceive s grant) ∧ (startReceive s grant).phase = s.phase ∧ (startReceive s grant).queue = s.queue ∧
      (startReceive s grant).writing = s.writing ∧
      (s.phase = .connected → (startReceive s grant).waitBw = true ∨ (startReceive s grant).waitData = true) := by
  unfold startReceive
  by_cases hp : s.phase = .connected
  · rw [if_neg (by simp [hp])]
    have hw : 1 ≤ wanted s ∧ wanted s ≤ 1048576 := by
      unfold wanted; rw [h.const.1]; omega
    have hrq : ∃ q b, requestBandwidth s (wanted s) grant = { s with quota := q, waitBw := b } ∧ (b = true → q ≤ 1048576) ∧ (b = false → 0 < q) := by
      unfold requestBandwidth
      split
      · rename_i hb
        exact ⟨s.quota, s.waitBw, rfl, h.quota, by rw [hb]; simp⟩
      · rename_i hb
        split
        · exact ⟨s.quota, s.waitBw, rfl, fun h' => absurd h' hb, fun _ => by omega⟩
        · simp only
          generalize hret : (if s.channels = 0 then wanted s - s.quota else grant) = ret
          split
          · exact ⟨s.quota, true, rfl, fun _ => by omega, by simp⟩
          · refine ⟨add32 s.quota ret, s.waitBw, rfl, fun h' => absurd h' hb, fun _ => ?_⟩
            have : ret < 2 ^ 31 := by
              rw [← hret]; split
              · omega
              · exact hg
            unfold add32
            omega
    obtain ⟨q, b, he, hq1, hq2⟩ := hrq
    rw [he]
    simp only
    split
    · rename_i hwd
      refine ⟨⟨h.holds, h.room, hq1, h.const⟩, rfl, rfl, rfl, fun _ => ?_⟩
      simp only [Bool.or_eq_true] at hwd
      exact hwd.symm
    · rename_i hwd
      simp only [Bool.or_eq_true, not_or, Bool.not_eq_true] at hwd
      refine ⟨⟨reserve_holds h.holds q, fun _ => ?_, hq1, h.const⟩, rfl, rfl, rfl, fun _ => Or.inr rfl⟩
      simp only
      rw [(reserve_take _ q h.holds.pos).2]
      exact ⟨Nat.le_refl _, hq2 hwd.2⟩
  · rw [if_pos hp]
    exact ⟨h, rfl, rfl, rfl, fun h' => absurd h' hp⟩

theorem time_ne (now : Nat) (h : now % 536870912 ≠ 0) : ¬ now % 4294967296 * 1000 % 4294967296 = 0 := by
  intro hd
  have h1 : 4294967296 ∣ now % 4294967296 * 1000 := Nat.dvd_of_mod_eq_zero hd
  have h2 : (536870912 * 8) ∣ (now % 4294967296 * 125) * 8 := by
    rw [Nat.mul_assoc]; exact h1
  have h3 := Nat.dvd_of_mul_dvd_mul_right (by decide) h2
  have h4 : 536870912 ∣ now % 4294967296 := Nat.Coprime.dvd_of_dvd_mul_right (by decide +kernel) h3
  have h5 : 536870912 ∣ now := (Nat.dvd_mod_iff ⟨8, rfl⟩).1 h4
  exact h (Nat.mod_eq_zero_of_dvd h5)

theorem appendData_ok {s : Stream} (n now : Nat) (hl : s.last = 0) (hn : Timely now) :
    ∃ sp, appendData s n now = .ok { s with buffer := advance s.buffer n, speed := sp, quota := 0 } := by
  have hs : sub32 (now % 4294967296) s.last = now % 4294967296 := by
    rw [hl]; unfold sub32; rw [Nat.zero_mod, Nat.sub_zero, Nat.add_mod_right, Nat.mod_mod]
  unfold appendData
  simp only
  rw [hs, if_neg (time_ne now hn)]
  exact ⟨_, by rw [Nat.min_zero]⟩
theorem readAvailable_ok {src taken : List UInt8} {s : Stream} (h : Holds src taken s.buffer) (hq : s.quota = 0) (hl : s.last = 0) (now a k : Nat) (error : Bool) (grant : Nat)
    (hn : Timely now) :
    ∃ b q bw sp ok, readAvailable s now ((src.drop s.buffer.counter).take a) k error grant =
      .ok ({ s with buffer := b, quota := q, waitBw := bw, speed := sp }, ok) ∧ Holds src taken b ∧ (bw = true → q = 0) ∧ s.buffer.counter ≤ b.counter ∧
      (error = false → ok = true) := by
  unfold readAvailable
  simp only
  have hrq : ∀ bytes, ∃ q b, requestBandwidth s bytes grant = { s with quota := q, waitBw := b } ∧ (b = true → q = 0) := by
    intro bytes
    unfold requestBandwidth
    split
    · exact ⟨s.quota, s.waitBw, rfl, fun _ => hq⟩
    · rename_i hb
      split
      · exact ⟨s.quota, s.waitBw, rfl, fun _ => hq⟩
      · simp only
        generalize (if s.channels = 0 then bytes - s.quota else grant) = ret
        split
        · exact ⟨s.quota, true, rfl, fun _ => hq⟩
        · exact ⟨_, s.waitBw, rfl, fun h' => absurd h' hb⟩
  obtain ⟨q, b, he, hb⟩ := hrq (((src.drop s.buffer.counter).take a).length % 4294967296)
  rw [he]
  simp only
  generalize hm : min (((src.drop s.buffer.counter).take a).length % 4294967296) q = n
  have hlen : ((src.drop s.buffer.counter).take a).length = min a (src.length - s.buffer.counter) := by simp
  have hnle : n ≤ min a (src.length - s.buffer.counter) := by omega
  split
  · exact ⟨_, _, _, _, _, rfl, h, hb, Nat.le_refl _, fun _ => rfl⟩
  · split
    · rename_i her
      exact ⟨_, _, _, _, _, rfl, reserve_holds h _, hb, Nat.le_refl _, fun h' => by rw [h'] at her; cases her⟩
    · have hc := h.counter
      have ht : ((src.drop s.buffer.counter).take a).take (min n k) = (src.drop s.buffer.counter).take (min n k) := by
        rw [List.take_take]; congr 1; omega
      obtain ⟨b', hf, hp', hc', -, hh⟩ := fill_holds (reserve_holds h n) (min n k) (by show s.buffer.counter + min n k ≤ _; omega)
        (by rw [(reserve_take _ n h.pos).2]; show s.buffer.pos + _ ≤ _; omega)
      have hc2 : (reserve s.buffer n).counter = s.buffer.counter := rfl
      rw [hc2] at hf
      rw [ht, hf]
      simp only [Res.bind_ok]
      split
      · rename_i h0
        refine ⟨_, _, _, _, _, rfl, ?_, hb, Nat.le_of_eq hc'.symm, fun _ => rfl⟩
        rw [h0] at hh
        simpa [advance] using hh
      · obtain ⟨sp, ha⟩ := appendData_ok (s := { s with buffer := b', quota := q, waitBw := b }) (min n k) now hl hn
        rw [ha]
        refine ⟨_, _, _, _, _, rfl, hh, fun _ => rfl, ?_, fun _ => rfl⟩
        show s.buffer.counter ≤ b'.counter + _
        rw [hc']
        exact Nat.le_add_right _ _

theorem doWrite_inv {src : List UInt8} {w : World} (h : Inv src w) (m : List UInt8) : ∃ w', w.step src (.write m) = .ok w' ∧ Inv src w' := by
  have hs : w.sent ++ (w.stream.queue ++ [m]) = w.asked ++ [m] := by rw [← List.append_assoc, h.sent]
  unfold World.step
  simp only
  unfold doWrite
  simp only
  cases hp : w.stream.phase with
  | connected =>
    simp only
    have hw := h.writing
    rw [if_pos hp] at hw
    cases hq : w.stream.queue with
    | nil =>
      rw [hq] at hw hs
      rw [if_neg (by simp)]
      simp only [List.nil_append, startWrite, hw, List.head?_nil, Res.bind_ok]
      exact ⟨_, rfl, h.holds, h.room, h.shown, hs, by simp [hp], fun _ => h.listening hp, h.quota, h.const⟩
    | cons a q =>
      rw [hq] at hw hs
      rw [if_pos (by simp)]
      simp only [Res.bind_ok]
      refine ⟨_, rfl, h.holds, h.room, h.shown, hs, ?_, fun _ => h.listening hp, h.quota, h.const⟩
      simp only [hp, if_true]
      rw [hw]; rfl
  | clear =>
    simp only [Res.bind_ok]
    have hw := h.writing
    rw [if_neg (by simp [hp])] at hw
    exact ⟨_, rfl, h.holds, h.room, h.shown, hs, by simp [hw], by simp, h.quota, h.const⟩
  | connecting =>
    simp only [Res.bind_ok]
    have hw := h.writing
    rw [if_neg (by simp [hp])] at hw
    exact ⟨_, rfl, h.holds, h.room, h.shown, hs, by simp [hw, hp], by simp [hp], h.quota, h.const⟩
  | disconnected =>
    simp only [Res.bind_ok]
    have hw := h.writing
    rw [if_neg (by simp [hp])] at hw
    exact ⟨_, rfl, h.holds, h.room, h.shown, hs, by simp [hw, hp], by simp [hp], h.quota, h.const⟩

theorem setConnected_ok (s : Stream) (grant : Nat) (hw : s.writing = none) :
    setConnected s true grant = .ok (startReceive { s with writing := s.queue.head? } grant) := by
  obtain ⟨ph, bu, qu, wr, _, _, _, _, _, _, _, _⟩ := s
  cases hw
  cases qu <;> rfl

theorem connected_inv {src : List UInt8} {w : World} (h : Inv src w) (grant : Nat) (hg : grant < 2 ^ 31) :
    ∃ w', w.step src (.connected grant) = .ok w' ∧ Inv src w' := by
  unfold World.step
  simp only
  by_cases hp : w.stream.phase = .connecting
  · rw [if_pos hp]
    have hw := h.writing
    rw [if_neg (by simp [hp])] at hw
    rw [setConnected_ok _ _ (by simpa [info] using hw)]
    simp only [info, if_true, Res.bind_ok, Res.pure_eq]
    obtain ⟨r, r1, r2, r3, r4⟩ := startReceive_ready (src := src) (taken := w.taken) (s := { w.stream with phase := .connected, writing := w.stream.queue.head? })
      ⟨h.holds, h.room, h.quota, h.const⟩ grant hg
    refine ⟨_, rfl, r.holds, r.room, h.shown, ?_, ?_, fun _ => r4 rfl, r.quota, r.const⟩
    · simp only; rw [r2]; exact h.sent
    · simp only; rw [r1, r2, r3]; simp
  · rw [if_neg hp]
    exact ⟨w, rfl, h⟩

/-- As `Res.bind_ok`, but not a definitional step: the kernel would compute with the numbers in the rest. -/
theorem then_ok {α β : Type} (a : α) (f : α → Res β) : (Res.ok a >>= f) = f a := by
  have h : (Res.ok a >>= f) = f a := Res.bind_ok a f
  exact h

theorem received_inv {src : List UInt8} (hsrc : src.length < 2 ^ 64) {w : World} (h : Inv src w) (k a j : Nat) (error : Bool) (now : Nat) (grants : Nat × Nat)
    (use : List UInt8 → Nat) (hf : Fair (.received k a j error now grants use)) :
    ∃ w', w.step src (.received k a j error now grants use) = .ok w' ∧ Inv src w' := by
  obtain ⟨hu, hnow, hg1, hg2⟩ := hf
  unfold World.step
  simp only
  by_cases hc : w.stream.phase = .connected ∧ w.stream.waitData = true ∧ k ≤ w.stream.requested ∧ w.stream.buffer.counter + k ≤ src.length
  · rw [if_pos hc]
    obtain ⟨hp, hwd, hk, hck⟩ := hc
    have hw := h.writing
    rw [if_pos hp] at hw
    have hroom := h.room hwd
    obtain ⟨b1, f1, p1, c1, l1, hh1⟩ := fill_holds h.holds k hck (by omega)
    have hkl : ((src.drop w.stream.buffer.counter).take k).length = k := by simp; omega
    obtain ⟨sp, ha⟩ := appendData_ok (s := { w.stream with waitData := false, buffer := b1 }) k now h.const.2 hnow
    dsimp only at ha
    unfold handleReceive
    simp only
    rw [if_neg (by simp [hp]), f1]
    simp only [then_ok, hkl]
    rw [ha]
    simp only [then_ok]
    have hcount : (advance b1 k).counter = w.stream.buffer.counter + k := by simp [advance, c1]
    have hr : ∃ b q bw sp' ok, readMore { w.stream with waitData := false, buffer := advance b1 k, speed := sp, quota := 0 } k now
          ((src.drop (w.stream.buffer.counter + k)).take a) j error grants.1 =
        .ok ({ w.stream with waitData := false, buffer := b, quota := q, waitBw := bw, speed := sp' }, ok) ∧ Holds src w.taken b ∧ (bw = true → q = 0) := by
      unfold readMore
      dsimp only
      split
      · obtain ⟨b, q, bw, sp', ok, e1, e2, e3, -, -⟩ := readAvailable_ok (s := { w.stream with waitData := false, buffer := advance b1 k, speed := sp, quota := 0 })
          hh1 rfl h.const.2 now a j error grants.1 hnow
        simp only [hcount] at e1
        exact ⟨b, q, bw, sp', ok, e1, e2, e3⟩
      · exact ⟨_, _, _, _, _, rfl, hh1, fun _ => rfl⟩
    obtain ⟨b, q, bw, sp', ok, e1, e2, e3⟩ := hr
    dsimp only at e1
    rw [e1]
    simp only [then_ok]
    cases ok with
    | false =>
      simp only [if_true, Res.pure_eq, then_ok, fail]
      exact ⟨_, rfl, e2, by simp, h.shown, h.sent, by simp, by simp, fun hb => Nat.le_trans (Nat.le_of_eq (e3 hb)) (Nat.zero_le _), h.const⟩
    | true =>
      have hle := e2.le
      have hlen : (b.data.take b.pos).length = b.pos := by rw [List.length_take]; exact Nat.min_eq_left e2.pos
      obtain ⟨b', hc', hh'⟩ := consume_holds e2 hsrc (use (b.data.take b.pos)) (by have := hu (b.data.take b.pos); omega)
      simp only [Bool.true_eq_false, if_false, hc', then_ok, Res.pure_eq]
      obtain ⟨r, r1, r2, r3, r4⟩ := startReceive_ready (src := src) (taken := w.taken ++ (b.data.take b.pos).take (use (b.data.take b.pos)))
        (s := { w.stream with waitData := false, buffer := b', quota := q, waitBw := bw, speed := sp' })
        ⟨hh', by simp, fun hb => Nat.le_trans (Nat.le_of_eq (e3 hb)) (Nat.zero_le _), h.const⟩ grants.2 hg2
      refine ⟨_, rfl, r.holds, r.room, ?_, ?_, ?_, fun _ => r4 hp, r.quota, r.const⟩
      · intro x hx
        rcases List.mem_append.1 hx with hx | hx
        · exact h.shown x hx
        · rw [List.mem_singleton] at hx
          subst hx
          simp only
          rw [e2.eq]
          exact List.take_prefix _ _
      · simp only; rw [r2]; exact h.sent
      · simp only; rw [r1, r2, r3]; exact h.writing
  · rw [if_neg hc]
    exact ⟨w, rfl, h⟩

theorem received_shown {src : List UInt8} (hsrc : src.length < 2 ^ 64) {w : World} (h : Inv src w) (k a j : Nat) (now : Nat) (grants : Nat × Nat)
    (use : List UInt8 → Nat) (hf : Fair (.received k a j false now grants use))
    (hc : w.stream.phase = .connected ∧ w.stream.waitData = true ∧ k ≤ w.stream.requested ∧ w.stream.buffer.counter + k ≤ src.length) :
    ∃ w' bs, w.step src (.received k a j false now grants use) = .ok w' ∧ w'.shown = w.shown ++ [(w.taken, bs)] ∧
      src.take (w.stream.buffer.counter + k) <+: w.taken ++ bs ∧ w'.taken = w.taken ++ bs.take (use bs) := by
  obtain ⟨hu, hnow, hg1, hg2⟩ := hf
  unfold World.step
  simp only
  rw [if_pos hc]
  obtain ⟨hp, hwd, hk, hck⟩ := hc
  have hw := h.writing
  rw [if_pos hp] at hw
  have hroom := h.room hwd
  obtain ⟨b1, f1, p1, c1, l1, hh1⟩ := fill_holds h.holds k hck (by omega)
  have hkl : ((src.drop w.stream.buffer.counter).take k).length = k := by simp; omega
  obtain ⟨sp, ha⟩ := appendData_ok (s := { w.stream with waitData := false, buffer := b1 }) k now h.const.2 hnow
  dsimp only at ha
  unfold handleReceive
  simp only
  rw [if_neg (by simp [hp]), f1]
  simp only [then_ok, hkl]
  rw [ha]
  simp only [then_ok]
  have hcount : (advance b1 k).counter = w.stream.buffer.counter + k := by simp [advance, c1]
  have hr : ∃ b q bw sp' ok, readMore { w.stream with waitData := false, buffer := advance b1 k, speed := sp, quota := 0 } k now
        ((src.drop (w.stream.buffer.counter + k)).take a) j false grants.1 =
      .ok ({ w.stream with waitData := false, buffer := b, quota := q, waitBw := bw, speed := sp' }, ok) ∧ Holds src w.taken b ∧ w.stream.buffer.counter + k ≤ b.counter ∧ ok = true := by
    unfold readMore
    dsimp only
    split
    · obtain ⟨b, q, bw, sp', ok, e1, e2, e3, e4, e5⟩ := readAvailable_ok (s := { w.stream with waitData := false, buffer := advance b1 k, speed := sp, quota := 0 })
        hh1 rfl h.const.2 now a j false grants.1 hnow
      simp only [hcount] at e1
      exact ⟨b, q, bw, sp', ok, e1, e2, Nat.le_trans (Nat.le_of_eq hcount.symm) e4, e5 rfl⟩
    · exact ⟨_, _, _, _, _, rfl, hh1, Nat.le_of_eq hcount.symm, rfl⟩
  obtain ⟨b, q, bw, sp', ok, e1, e2, e4, rfl⟩ := hr
  dsimp only at e1
  rw [e1]
  simp only [then_ok]
  have hle := e2.le
  have hlen : (b.data.take b.pos).length = b.pos := by rw [List.length_take]; exact Nat.min_eq_left e2.pos
  obtain ⟨b', hc', hh'⟩ := consume_holds e2 hsrc (use (b.data.take b.pos)) (by have := hu (b.data.take b.pos); omega)
  simp only [Bool.true_eq_false, if_false, hc', then_ok, Res.pure_eq]
  refine ⟨_, b.data.take b.pos, rfl, rfl, ?_, rfl⟩
  rw [e2.eq]
  exact List.take_prefix_take_left e4

theorem wrote_inv {src : List UInt8} {w : World} (h : Inv src w) : ∃ w', w.step src .wrote = .ok w' ∧ Inv src w' := by
  unfold World.step
  simp only
  have hw := h.writing
  cases hwr : w.stream.writing with
  | none => exact ⟨w, rfl, h⟩
  | some m =>
    simp only
    have hp : w.stream.phase = .connected := by
      apply Decidable.byContradiction
      intro hne
      rw [if_neg hne, hwr] at hw
      cases hw
    rw [if_pos hp, hwr] at hw
    have hs := h.sent
    unfold handleWrite
    cases hq : w.stream.queue with
    | nil => rw [hq] at hw; cases hw
    | cons a q =>
      rw [hq] at hw hs
      cases hw
      have hs' : (w.sent ++ [m]) ++ q = w.asked := by rw [List.append_assoc]; exact hs
      cases q with
      | nil =>
        simp only [Bool.not_true, Bool.false_eq_true, if_false, Res.bind_ok, Res.pure_eq]
        exact ⟨_, rfl, h.holds, h.room, h.shown, hs', by simp, fun _ => h.listening hp, h.quota, h.const⟩
      | cons c q =>
        simp only [Bool.not_true, Bool.false_eq_true, if_false, startWrite, Res.bind_ok, Res.pure_eq]
        exact ⟨_, rfl, h.holds, h.room, h.shown, hs', by simp [hp], fun _ => h.listening hp, h.quota, h.const⟩

theorem all_sent {src : List UInt8} : ∀ (n : Nat) (w : World), Inv src w → w.stream.phase = .connected → w.stream.queue.length = n →
    ∃ w', runFrom src (List.replicate n .wrote) w = .ok w' ∧ w'.sent = w.asked ∧ w'.stream.queue = []
  | 0, w, h, _, hn => ⟨w, rfl, by
      have := h.sent
      rw [List.eq_nil_of_length_eq_zero hn, List.append_nil] at this
      exact this, List.eq_nil_of_length_eq_zero hn⟩
  | n + 1, w, h, hp, hn => by
    obtain ⟨w1, h1, h2⟩ := wrote_inv h
    have hx : w1.stream.phase = .connected ∧ w1.stream.queue = w.stream.queue.tail ∧ w1.asked = w.asked := by
      have hw := h.writing
      rw [if_pos hp] at hw
      unfold World.step at h1
      simp only at h1
      cases hq : w.stream.queue with
      | nil => rw [hq] at hn; cases hn
      | cons m q =>
        rw [hq] at hw
        rw [hw] at h1
        unfold handleWrite at h1
        rw [hq] at h1
        cases q with
        | nil =>
          simp only [List.head?_cons, Bool.not_true, Bool.false_eq_true, if_false, Res.bind_ok, Res.pure_eq] at h1
          cases h1
          exact ⟨hp, rfl, rfl⟩
        | cons c q =>
          simp only [List.head?_cons, Bool.not_true, Bool.false_eq_true, if_false, startWrite, Res.bind_ok, Res.pure_eq] at h1
          cases h1
          exact ⟨hp, rfl, rfl⟩
    obtain ⟨w2, h3, h4, h5⟩ := all_sent n w1 h2 hx.1 (by rw [hx.2.1, List.length_tail, hn]; rfl)
    refine ⟨w2, ?_, by rw [h4, hx.2.2], h5⟩
    rw [List.replicate_succ]
    unfold runFrom
    rw [h1]
    exact h3

theorem step_inv {src : List UInt8} (hsrc : src.length < 2 ^ 64) {w : World} (h : Inv src w) (e : Event) (hf : Fair e) :
    ∃ w', w.step src e = .ok w' ∧ Inv src w' := by
  cases e with
  | connect =>
    unfold World.step connect
    simp only
    split
    · exact ⟨w, rfl, h⟩
    · rename_i hp
      have hp := Decidable.not_not.1 hp
      have hw := h.writing
      rw [if_neg (by simp [hp])] at hw
      exact ⟨_, rfl, h.holds, h.room, h.shown, h.sent, by simp [hw], by simp, h.quota, h.const⟩
  | write m => exact doWrite_inv h m
  | connected grant => exact connected_inv h grant hf
  | received k a j error now grants use => exact received_inv hsrc h k a j error now grants use hf
  | wrote => exact wrote_inv h
  | broken => exact ⟨_, rfl, h.holds, h.room, h.shown, h.sent, by simp [fail], by simp [fail], h.quota, h.const⟩
  | assigned amount grant =>
    unfold World.step
    simp only
    split
    · rename_i hb
      obtain ⟨r, r1, r2, r3, r4⟩ := startReceive_ready (src := src) (taken := w.taken)
        (s := { w.stream with waitBw := false, quota := add32 w.stream.quota amount })
        ⟨h.holds, h.room, by simp, h.const⟩ grant hf.2
      unfold assign
      refine ⟨_, rfl, r.holds, r.room, h.shown, ?_, ?_, ?_, r.quota, r.const⟩
      · simp only; rw [r2]; exact h.sent
      · simp only; rw [r1, r2, r3]; exact h.writing
      · simp only; rw [r1]; exact r4
    · exact ⟨w, rfl, h⟩

theorem runFrom_inv {src : List UInt8} (hsrc : src.length < 2 ^ 64) : ∀ (es : List Event) (w : World), Inv src w → (∀ e ∈ es, Fair e) →
    ∃ w', runFrom src es w = .ok w' ∧ Inv src w'
  | [], w, h, _ => ⟨w, rfl, h⟩
  | e :: es, w, h, hf => by
    obtain ⟨w1, h1, h2⟩ := step_inv hsrc h e (hf e (List.mem_cons_self ..))
    obtain ⟨w2, h3, h4⟩ := runFrom_inv hsrc es w1 h2 (fun x hx => hf x (List.mem_cons_of_mem _ hx))
    exact ⟨w2, by unfold runFrom; rw [h1]; exact h3, h4⟩

theorem run_inv {src : List UInt8} (hsrc : src.length < 2 ^ 64) (es : List Event) (channels : Nat) (hf : ∀ e ∈ es, Fair e) :
    ∃ w, run src es channels = .ok w ∧ Inv src w :=
  runFrom_inv hsrc es _ ⟨⟨Nat.zero_le _, Nat.zero_le _, rfl⟩, by simp, by simp, rfl, by simp, by simp, by simp, by simp⟩ hf

end Verif.Tcp
