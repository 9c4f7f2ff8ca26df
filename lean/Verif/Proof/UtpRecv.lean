import Verif.Proof.UtpSent
/-! The receiving side of a stream. -/
namespace Verif.Utp
open Verif Spec

/-- A stored packet is part `k` of the stream, in a buffer of its own. -/
structure Holds (s0 : Nat) (ps : List (List UInt8)) (s : Stream) (d k : Nat) (e : Stored) : Prop where
  lo : d ≤ k
  hi : k < d + 32768
  len : k < ps.length
  seq : e.seq = (s0 + k) % 65536
  own : e.idx ∉ s.idxs
  buf : s.buffers[e.idx]? = ps[k]?

/-- Stored packets that are never delivered: none, or behind one with number 0. -/
def Stuck (B : List Stored) : Prop := B = [] ∨ ∃ b bs, B = b :: bs ∧ b.seq = 0

def NoWrap (s0 : Nat) (ps : List (List UInt8)) : Prop := s0 + ps.length ≤ 65536 ∧ ps.length ≤ 32767

theorem higher_of {s0 a b : Nat} (h : b < a) (h2 : a - b < 32768) : idHigher ((s0 + a) % 65536) ((s0 + b) % 65536) = true := by
  unfold idHigher; simp only [decide_eq_true_eq]; omega

theorem not_higher_of {s0 a b : Nat} (h : a ≤ b) (h2 : b - a ≤ 32768) : idHigher ((s0 + a) % 65536) ((s0 + b) % 65536) = false := by
  unfold idHigher; simp only [decide_eq_false_iff_not]; omega

theorem Holds.mono {s0 : Nat} {ps : List (List UInt8)} {s : Stream} {d d' k : Nat} {e : Stored} (h : Holds s0 ps s d k e) (h1 : d ≤ d') (h2 : d' ≤ k) : Holds s0 ps s d' k e :=
  ⟨h2, by have := h.hi; omega, h.len, h.seq, h.own, h.buf⟩

theorem Holds.congr {s0 : Nat} {ps : List (List UInt8)} {s s' : Stream} {d k : Nat} {e : Stored} (h : Holds s0 ps s d k e) (h1 : s'.idxs = s.idxs) (h2 : s'.buffers = s.buffers) :
    Holds s0 ps s' d k e := ⟨h.lo, h.hi, h.len, h.seq, by rw [h1]; exact h.own, by rw [h2]; exact h.buf⟩

theorem Holds.frame {s0 : Nat} {ps : List (List UInt8)} (hne : ∀ p ∈ ps, p ≠ []) {s s' : Stream} {d k : Nat} {e : Stored} (h : Holds s0 ps s d k e) (f : Frame s s') :
    Holds s0 ps s' d k e := by
  have hk : ps[k]? = some (ps[k]'h.len) := List.getElem?_eq_getElem h.len
  have hb := h.buf
  rw [hk] at hb
  have hn : ps[k]'h.len ≠ [] := hne _ (List.getElem_mem h.len)
  refine ⟨h.lo, h.hi, h.len, h.seq, ?_, ?_⟩
  · intro hi
    rcases f.idxs _ hi with h1 | h1
    · exact h.own h1
    · exact h1 ⟨_, hb, hn⟩
  · rw [hk]; exact f.bufs _ _ h.own hb hn

theorem take_succ_flatten {ps : List (List UInt8)} {d : Nat} {b : List UInt8} (h : ps[d]? = some b) : (ps.take (d + 1)).flatten = (ps.take d).flatten ++ b := by
  rw [List.take_add_one, h]; simp

/-- Stored packets that come next are delivered. -/
theorem recvLoop_ok (s0 : Nat) (ps : List (List UInt8)) (B : List Stored) (hB : Stuck B) : ∀ (A : List Stored) (ks : List Nat) (s : Stream) (d : Nat) (r : List Stored × Stream),
    List.Forall₂ (Holds s0 ps s d) ks A → ks.Pairwise (· < ·) → s.ack = (s0 + d + 65535) % 65536 → 1 ≤ d → d ≤ ps.length →
    delivered s = (ps.take d).flatten → recvLoop (A ++ B) s = .ok r →
    ∃ d' A' B' ks', r.1 = A' ++ B' ∧ Stuck B' ∧ r.2.ack = (s0 + d' + 65535) % 65536 ∧ d ≤ d' ∧ d' ≤ ps.length ∧ delivered r.2 = (ps.take d').flatten ∧
      List.Forall₂ (Holds s0 ps s (d' + 1)) ks' A' ∧ ks'.Pairwise (· < ·) ∧ r.2 = { s with ack := r.2.ack, receiveBuffer := r.2.receiveBuffer } ∧
      (NoWrap s0 ps → B = [] → B' = [] ∧ ∀ k ∈ ks, k < d' ∨ k ∈ ks') ∧ (∀ k, d ≤ k → k < d' → k ∈ ks) ∧ ∀ k ∈ ks', k ∈ ks
  | [], ks, s, d, r, hA, hks, hack, h1, hd, hdel, h => by
    cases hA
    have hr : r = (B, s) := by
      rcases hB with rfl | ⟨b, bs, rfl, hb⟩
      · rw [List.nil_append, recvLoop] at h; cases h; rfl
      · rw [List.nil_append, recvLoop, if_neg (by omega)] at h; cases h; rfl
    subst hr
    exact ⟨d, [], B, [], rfl, hB, hack, Nat.le_refl _, hd, hdel, .nil, .nil, rfl, fun _ hb => ⟨hb, fun k hk => by cases hk⟩, fun k _ _ => by omega, fun k hk => hk⟩
  | e :: A, ks, s, d, r, hA, hks, hack, h1, hd, hdel, h => by
    cases hA with
    | cons he hA =>
      rename_i k ks
      rw [List.cons_append, recvLoop] at h
      have hks' := List.pairwise_cons.mp hks
      split at h
      · rename_i heq
        have hkd : k = d := by
          have := he.seq; have := he.lo; have := he.hi; omega
        subst hkd
        obtain ⟨b, hb, h⟩ := bind_ok_inv h
        have hbuf := rd_ok hb
        rw [he.buf] at hbuf
        have hack' : inc16 s.ack = (s0 + (k + 1) + 65535) % 65536 := by unfold inc16; omega
        obtain ⟨d', A', B', ks', r1, r2, r3, r4, r5, r6, r7, r8, r9, r10, r11, r12⟩ :=
          recvLoop_ok s0 ps B hB A ks { s with receiveBuffer := s.receiveBuffer ++ b, ack := inc16 s.ack } (k + 1) r
            (forall₂_imp hA fun a x ha _ hx => (hx.mono (Nat.le_succ _) (hks'.1 a ha)).congr rfl rfl) hks'.2 hack' (by omega)
            (by have := he.len; omega) (by
              rw [take_succ_flatten hbuf, ← hdel]
              simp [delivered, List.append_assoc]) h
        refine ⟨d', A', B', ks', r1, r2, r3, by omega, r5, r6, forall₂_imp r7 fun a x _ _ hx => hx.congr rfl rfl, r8, r9, fun hw hb => ?_, fun x hx1 hx2 => ?_, fun x hx => ?_⟩
        · obtain ⟨t1, t2⟩ := r10 hw hb
          refine ⟨t1, fun x hx => ?_⟩
          rcases List.mem_cons.mp hx with rfl | hx
          · left; omega
          · exact t2 x hx
        · by_cases hxk : x = k
          · subst hxk; exact List.mem_cons_self
          · exact List.mem_cons_of_mem _ (r11 x (by omega) hx2)
        · exact List.mem_cons_of_mem _ (r12 x hx)
      · rename_i hneq
        cases h
        by_cases hkd : k = d
        · subst hkd
          refine ⟨k, [], e :: A ++ B, [], rfl, Or.inr ⟨e, A ++ B, rfl, ?_⟩, hack, Nat.le_refl _, hd, hdel, .nil, .nil, rfl, fun hw _ => ?_, fun x _ _ => by omega, fun x hx => by cases hx⟩
          · have := he.seq; omega
          · exfalso
            have := he.seq; have := he.len; have := hw.1; omega
        · have hlt : d < k := by have := he.lo; omega
          refine ⟨d, e :: A, B, k :: ks, rfl, hB, hack, Nat.le_refl _, hd, hdel, .cons (he.mono (by omega) hlt) (forall₂_imp hA fun a x ha _ hx => ?_), hks, rfl,
            fun _ hb => ⟨hb, fun x hx => Or.inr hx⟩, fun x _ _ => by omega, fun x hx => hx⟩
          have := hks'.1 a ha
          exact hx.mono (by omega) (by omega)

/-- A packet is put in its place among those stored. -/
theorem insertStored_ok (s0 : Nat) (ps : List (List UInt8)) (s : Stream) (d k : Nat) (B : List Stored) (hB : Stuck B) (x : Stored) (hx : Holds s0 ps s (d + 1) k x) :
    ∀ (A : List Stored) (ks : List Nat), List.Forall₂ (Holds s0 ps s (d + 1)) ks A → ks.Pairwise (· < ·) →
    match insertStored x (A ++ B) with
    | some l => ∃ A' B' ks', l = A' ++ B' ∧ Stuck B' ∧ List.Forall₂ (Holds s0 ps s (d + 1)) ks' A' ∧ ks'.Pairwise (· < ·) ∧ (∀ j ∈ ks', j = k ∨ j ∈ ks) ∧
        (B = [] → B' = [] ∧ k ∈ ks' ∧ ∀ j ∈ ks, j ∈ ks')
    | none => B = [] → k ∈ ks
  | [], ks, hA, hks => by
    cases hA
    rcases hB with rfl | ⟨b, bs, rfl, hb⟩
    · simp only [List.append_nil, insertStored]
      exact ⟨[x], [], [k], rfl, Or.inl rfl, .cons hx .nil, List.pairwise_singleton _ _, fun j hj => Or.inl (List.mem_singleton.mp hj), fun _ => ⟨rfl, List.mem_singleton.mpr rfl, fun j hj => by cases hj⟩⟩
    · simp only [List.nil_append, insertStored]
      by_cases h1 : b.seq = x.seq
      · rw [if_pos h1]; intro h; cases h
      · rw [if_neg h1]
        by_cases h2 : idHigher b.seq x.seq = true
        · rw [if_pos h2]
          exact ⟨[x], b :: bs, [k], rfl, Or.inr ⟨b, bs, rfl, hb⟩, .cons hx .nil, List.pairwise_singleton _ _, fun j hj => Or.inl (List.mem_singleton.mp hj), fun h => by cases h⟩
        · rw [if_neg h2]
          cases insertStored x bs with
          | none => intro h; cases h
          | some l => exact ⟨[], b :: l, [], rfl, Or.inr ⟨b, l, rfl, hb⟩, .nil, .nil, (fun j hj => by cases hj), fun h => by cases h⟩
  | e :: A, ks, hA, hks => by
    cases hA with
    | cons he hA =>
      rename_i k1 ks
      have hks' := List.pairwise_cons.mp hks
      simp only [List.cons_append, insertStored]
      by_cases h1 : e.seq = x.seq
      · rw [if_pos h1]
        intro _
        have : k1 = k := by
          have := he.seq; have := hx.seq; have := he.lo; have := he.hi; have := hx.lo; have := hx.hi; omega
        subst this
        exact List.mem_cons_self
      · rw [if_neg h1]
        by_cases h2 : idHigher e.seq x.seq = true
        · rw [if_pos h2]
          have hlt : k < k1 := by
            rcases Nat.lt_or_ge k k1 with h | h
            · exact h
            · rw [he.seq, hx.seq, not_higher_of h (by have := hx.hi; have := he.lo; omega)] at h2
              cases h2
          refine ⟨x :: e :: A, B, k :: k1 :: ks, rfl, hB, .cons hx (.cons he hA), List.pairwise_cons.mpr ⟨?_, hks⟩, ?_, fun h => ⟨h, List.mem_cons_self, fun j hj => List.mem_cons_of_mem _ hj⟩⟩
          · intro j hj
            rcases List.mem_cons.mp hj with rfl | hj
            · exact hlt
            · have := hks'.1 j hj; omega
          · intro j hj
            rcases List.mem_cons.mp hj with rfl | hj
            · exact Or.inl rfl
            · exact Or.inr hj
        · rw [if_neg h2]
          have hlt : k1 < k := by
            rcases Nat.lt_trichotomy k1 k with h | h | h
            · exact h
            · subst h; exact absurd (he.seq.trans hx.seq.symm) h1
            · rw [he.seq, hx.seq, higher_of h (by have := hx.lo; have := he.hi; omega)] at h2
              exact absurd rfl h2
          have ih := insertStored_ok s0 ps s d k B hB x hx A ks hA hks'.2
          revert ih
          cases insertStored x (A ++ B) with
          | none => intro ih hb; exact List.mem_cons_of_mem _ (ih hb)
          | some l =>
            rintro ⟨A', B', ks', i1, i2, i3, i4, i5, i6⟩
            refine ⟨e :: A', B', k1 :: ks', by simp [i1], i2, .cons he i3, List.pairwise_cons.mpr ⟨?_, i4⟩, ?_, ?_⟩
            · intro j hj
              rcases i5 j hj with rfl | hj
              · exact hlt
              · exact hks'.1 j hj
            · intro j hj
              rcases List.mem_cons.mp hj with rfl | hj
              · exact Or.inr List.mem_cons_self
              · exact (i5 j hj).imp id fun h => List.mem_cons_of_mem _ h
            · intro hb
              obtain ⟨t1, t2, t3⟩ := i6 hb
              refine ⟨t1, List.mem_cons_of_mem _ t2, fun j hj => ?_⟩
              rcases List.mem_cons.mp hj with rfl | hj
              · exact List.mem_cons_self
              · exact List.mem_cons_of_mem _ (t3 j hj)

/-- What the receiving side of a stream is like after the packets `arr` arrived; `C` says that none was
refused. -/
structure RInv (s0 : Nat) (ps : List (List UInt8)) (C : Prop) (arr : List Nat) (s : Stream) (d : Nat) (A B : List Stored) (ks : List Nat) : Prop where
  split : s.receivedData = A ++ B
  stuck : Stuck B
  ack : s.ack = (s0 + d + 65535) % 65536
  len : d ≤ ps.length
  out : delivered s = (ps.take d).flatten
  holds : List.Forall₂ (Holds s0 ps s (d + 1)) ks A
  sorted : ks.Pairwise (· < ·)
  pre : ∀ k, k < d → k ∈ arr
  kept : ∀ k ∈ ks, k ∈ arr
  full : C → NoWrap s0 ps → B = [] ∧ ∀ k ∈ arr, k < d ∨ k ∈ ks

theorem RInv.congr {s0 : Nat} {ps : List (List UInt8)} {C : Prop} {arr : List Nat} {s s' : Stream} {d : Nat} {A B : List Stored} {ks : List Nat} (h : RInv s0 ps C arr s d A B ks)
    (h1 : s'.receivedData = s.receivedData) (h2 : s'.ack = s.ack) (h3 : delivered s' = delivered s) (h4 : s'.idxs = s.idxs) (h5 : s'.buffers = s.buffers) : RInv s0 ps C arr s' d A B ks :=
  ⟨h1.trans h.split, h.stuck, h2.trans h.ack, h.len, h3.trans h.out, forall₂_imp h.holds fun _ _ _ _ hx => hx.congr h4 h5, h.sorted, h.pre, h.kept, h.full⟩

theorem RInv.frame {s0 : Nat} {ps : List (List UInt8)} (hne : ∀ p ∈ ps, p ≠ []) {C : Prop} {arr : List Nat} {s s' : Stream} {d : Nat} {A B : List Stored} {ks : List Nat} (h : RInv s0 ps C arr s d A B ks)
    (f : Frame s s') : RInv s0 ps C arr s' d A B ks :=
  ⟨f.receivedData.trans h.split, h.stuck, f.ack.trans h.ack, h.len, by unfold delivered; rw [f.taken, f.receiveBuffer]; exact h.out,
    forall₂_imp h.holds fun _ _ _ _ hx => hx.frame hne f, h.sorted, h.pre, h.kept, h.full⟩

/-- `updateState`: the sending side, then the step to a connected stream, then the sending side. -/
theorem updateState_split {s s' : Stream} {p : Packet} (h : s.updateState p = .ok (some s')) :
    ¬(p.head.typ = 0 ∧ idLower p.head.seq s.ack = true) ∧ ∃ s1, Frame s s1 ∧ Frame (s1.setConnected p.head) s' := by
  unfold Stream.updateState at h
  split at h
  · cases h
  · rename_i hold
    refine ⟨hold, ?_⟩
    obtain ⟨a, h1, h⟩ := bind_ok_inv h
    simp only at h
    obtain ⟨b, h2, h⟩ := bind_ok_inv h
    obtain ⟨c, h3, h⟩ := bind_ok_inv h
    obtain ⟨e, h4, h⟩ := bind_ok_inv h
    cases h
    refine ⟨{ a with replyDelay := (a.now32 + 4294967296 - p.head.ts) % 4294967296, peerWnd := p.head.wnd }, (ackSent_frame h1).trans ?_,
      (handleExts_frame _ h2).trans ((flushSend_frame h3).trans ?_)⟩
    · exact ⟨rfl, rfl, rfl, rfl, rfl, rfl, rfl, rfl, rfl, rfl, rfl, fun _ _ _ h _ => h, fun _ h => Or.inl h⟩
    · unfold Stream.schedule at h4
      obtain ⟨t, _, h4⟩ := bind_ok_inv h4
      cases h4
      exact ⟨rfl, rfl, rfl, rfl, rfl, rfl, rfl, rfl, rfl, rfl, rfl, fun _ _ _ h _ => h, fun _ h => Or.inl h⟩

/-- A stream that is past its opening. -/
def Open (s : Stream) : Prop := s.step ≠ .clean ∧ s.step ≠ .synSend

theorem setConnected_congr {s : Stream} {h : Header} (ho : Open s) : (s.setConnected h).receivedData = s.receivedData ∧ (s.setConnected h).ack = s.ack ∧
    delivered (s.setConnected h) = delivered s ∧ (s.setConnected h).idxs = s.idxs ∧ (s.setConnected h).buffers = s.buffers ∧ Open (s.setConnected h) ∧
    ((s.setConnected h).step = .closed ↔ s.step = .closed) := by
  unfold Stream.setConnected
  split
  · rename_i hn
    refine ⟨rfl, ?_, rfl, rfl, rfl, ⟨by simp, by simp⟩, ?_⟩
    · simp only; rw [if_neg ho.2]
    · simp only
      constructor
      · intro h; cases h
      · intro h; rw [h] at hn; simp [Step.num] at hn
  · exact ⟨rfl, rfl, rfl, rfl, rfl, ho, Iff.rfl⟩

theorem RInv.updateState {s0 : Nat} {ps : List (List UInt8)} (hne : ∀ p ∈ ps, p ≠ []) {C : Prop} {arr : List Nat} {s s' : Stream} {d : Nat} {A B : List Stored} {ks : List Nat} (h : RInv s0 ps C arr s d A B ks)
    {p : Packet} (ho : Open s) (hu : s.updateState p = .ok (some s')) :
    RInv s0 ps C arr s' d A B ks ∧ Open s' ∧ (s'.step = .closed ↔ s.step = .closed) := by
  obtain ⟨_, s1, f1, f2⟩ := updateState_split hu
  have h1 := h.frame hne f1
  have ho1 : Open s1 := by unfold Open; rw [f1.step]; exact ho
  obtain ⟨c1, c2, c3, c4, c5, c6, c7⟩ := setConnected_congr (h := p.head) ho1
  refine ⟨(h1.congr c1 c2 c3 c4 c5).frame hne f2, ?_, ?_⟩
  · unfold Open; rw [f2.step]; exact c6
  · rw [f2.step, c7, f1.step]

theorem checkEof_congr {s s' : Stream} (h : s.checkEof = .ok s') : s' = { s with wire := s'.wire, closePosted := s'.closePosted } := by
  unfold Stream.checkEof at h
  split at h
  · obtain ⟨a, h1, h⟩ := bind_ok_inv h
    cases h
    unfold Stream.sendFin at h1
    obtain ⟨b, _, h1⟩ := bind_ok_inv h1
    cases h1
    unfold Stream.close
    split <;> rfl
  · cases h; rfl

theorem dataEnd_congr {s s' : Stream} (h : s.dataEnd = .ok s') : s' = { s with received := true, wire := s'.wire, closePosted := s'.closePosted } := by
  unfold Stream.dataEnd at h
  split at h
  · exact checkEof_congr h
  · cases h; rfl

theorem delivered_unique {ps : List (List UInt8)} (hne : ∀ p ∈ ps, p ≠ []) : ∀ {d e : Nat}, d ≤ ps.length → e ≤ ps.length → (ps.take d).flatten = (ps.take e).flatten → d = e := by
  have key : ∀ (d e : Nat), d < e → e ≤ ps.length → (ps.take d).flatten ≠ (ps.take e).flatten := by
    intro d e hlt he heq
    have h1 : ps.take e = ps.take d ++ (ps.take e).drop d := by
      exact (List.take_append_drop d (ps.take e)).symm.trans (by rw [List.take_take, Nat.min_eq_left (by omega)])
    rw [h1, List.flatten_append] at heq
    have h2 : ((ps.take e).drop d).flatten = [] := by
      have := congrArg List.length heq
      rw [List.length_append] at this
      exact List.length_eq_zero_iff.mp (by omega)
    rw [List.flatten_eq_nil_iff] at h2
    have h3 : ps[d]'(by omega) ∈ (ps.take e).drop d := by
      rw [List.mem_iff_getElem?]
      refine ⟨0, ?_⟩
      rw [List.getElem?_drop, Nat.add_zero, List.getElem?_take_of_lt hlt, List.getElem?_eq_getElem (by omega)]
    exact hne _ (List.getElem_mem _) (h2 _ h3)
  intro d e hd he h
  rcases Nat.lt_trichotomy d e with hl | hl | hl
  · exact absurd h (key d e hl he)
  · exact hl
  · exact absurd h.symm (key e d hl hd)

end Verif.Utp
