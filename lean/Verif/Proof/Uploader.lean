import Verif.Spec.Uploader
import Mathlib.Data.List.Basic
import Mathlib.Data.List.Nodup
import Mathlib.Data.List.Perm.Basic
/-! The queue of blocks to upload. -/

namespace Verif.Uploader
open Verif Storage Layout Spec

def toReq (x : Sent) : Req := ⟨x.id, x.peer, x.block⟩

@[simp] theorem toReq_id (x : Sent) : (toReq x).id = x.id := rfl
@[simp] theorem toReq_block (x : Sent) : (toReq x).block = x.block := rfl
@[simp] theorem toReq_peer (x : Sent) : (toReq x).peer = x.peer := rfl

/-- What a pass over the requests `rs` does. -/
structure Passed (est : List Nat) (p : Pass) (rs : List Req) (p' : Pass) (L : List Sent) (K : List Req) : Prop where
  sent : p'.sent = p.sent ++ L
  kept : p'.kept = p.kept ++ K
  perm : (L.map toReq ++ K).Perm (rs.filter fun r => r.peer ∈ est)
  subL : (L.map toReq).Sublist rs
  subK : K.Sublist rs
  bytes : p'.available + sentBytes L = p.available
  uploaded : p'.uploaded = p.uploaded + sentBytes L
  small : ∀ x ∈ L, x.block.length ≤ p.available
  large : ∀ r ∈ K, p'.available < r.block.length
  cross : rs.Pairwise (fun a b => a.id < b.id) → ∀ x ∈ L, ∀ r ∈ K, x.id < r.id ∨ x.block.length < r.block.length
  wanted : p'.wanted = (p.wanted + waitingBytes K) % 4294967296 ∨ (K = [] ∧ p'.wanted = p.wanted)

theorem turns_spec (i : Info) (fs : Fs) (est : List Nat) (rs : List Req) :
    ∀ (p p' : Pass), turns i fs est p rs = .ok p' → ∃ L K, Passed est p rs p' L K := by
  induction rs with
  | nil =>
    intro p p' h
    cases h
    exact ⟨[], [], by simp, by simp, by simp, by simp, by simp, by simp [sentBytes], by simp [sentBytes], by simp, by simp, by simp, .inr ⟨rfl, rfl⟩⟩
  | cons r rs ih =>
    intro p p' h
    simp only [turns] at h
    cases ht : turn i fs est p r with
    | ub => rw [ht] at h; cases h
    | diverge => rw [ht] at h; cases h
    | ok p1 =>
      rw [ht, Res.bind_ok] at h
      obtain ⟨L, K, P⟩ := ih p1 p' h
      have hbytes := P.bytes
      have hup := P.uploaded
      unfold turn at ht
      split at ht
      · next hest =>
        split at ht
        · next hav =>
          cases hl : loadPieceBlock i fs r.block (resize p.buffer r.block.length) with
          | ub => rw [hl] at ht; cases ht
          | diverge => rw [hl] at ht; cases ht
          | ok l =>
            rw [hl] at ht
            cases ht
            refine ⟨⟨r.id, r.peer, r.block, l.2⟩ :: L, K, ?_, P.kept, ?_, ?_, P.subK.cons _, ?_, ?_, ?_, P.large, ?_, P.wanted⟩
            · rw [P.sent]; simp
            · simp only [List.map_cons, List.cons_append, List.filter_cons, hest, decide_true, if_true]
              exact List.Perm.cons _ P.perm
            · simp only [List.map_cons]
              exact P.subL.cons_cons _
            · simp only [sentBytes, List.map_cons, List.sum_cons] at hbytes ⊢
              omega
            · simp only [sentBytes, List.map_cons, List.sum_cons] at hup ⊢
              omega
            · intro x hx
              rcases List.mem_cons.mp hx with rfl | hx
              · exact hav
              · have := P.small x hx
                simp only at this
                omega
            · intro hp x hx k hk
              rcases List.mem_cons.mp hx with rfl | hx
              · exact .inl (List.rel_of_pairwise_cons hp (P.subK.subset hk))
              · exact P.cross (List.Pairwise.of_cons hp) x hx k hk
        · next hav =>
          cases ht
          refine ⟨L, r :: K, P.sent, ?_, ?_, P.subL.cons _, P.subK.cons_cons _, hbytes, hup, P.small, ?_, ?_, ?_⟩
          · rw [P.kept]; simp
          · simp only [List.filter_cons, hest, decide_true, if_true]
            exact List.perm_middle.trans (List.Perm.cons _ P.perm)
          · intro k hk
            rcases List.mem_cons.mp hk with rfl | hk
            · simp only at hbytes
              omega
            · exact P.large k hk
          · intro hp x hx k hk
            rcases List.mem_cons.mp hk with rfl | hk
            · have := P.small x hx
              simp only at this
              exact .inr (by omega)
            · exact P.cross (List.Pairwise.of_cons hp) x hx k hk
          · left
            simp only [waitingBytes, List.map_cons, List.sum_cons]
            rcases P.wanted with h1 | ⟨rfl, h1⟩
            · rw [h1]
              simp only [waitingBytes]
              omega
            · rw [h1]
              simp
      · next hest =>
        cases ht
        refine ⟨L, K, P.sent, P.kept, ?_, P.subL.cons _, P.subK.cons _, hbytes, hup, P.small, P.large, ?_, P.wanted⟩
        · simp only [List.filter_cons, hest, decide_false, Bool.false_eq_true, if_false]
          exact P.perm
        · intro hp x hx k hk
          exact P.cross (List.Pairwise.of_cons hp) x hx k hk

/-- With enough bytes, and all peers connected, everything is sent, in order. -/
theorem turns_all (i : Info) (fs : Fs) (est : List Nat) (rs : List Req) (he : ∀ r ∈ rs, r.peer ∈ est) :
    ∀ (p p' : Pass), waitingBytes rs ≤ p.available → turns i fs est p rs = .ok p' → ∃ L, p'.sent = p.sent ++ L ∧ L.map toReq = rs ∧ p'.kept = p.kept := by
  induction rs with
  | nil =>
    intro p p' _ h
    cases h
    exact ⟨[], by simp, rfl, rfl⟩
  | cons r rs ih =>
    intro p p' hw h
    simp only [turns, turn] at h
    rw [if_pos (he r (by simp))] at h
    simp only [waitingBytes, List.map_cons, List.sum_cons] at hw
    rw [if_pos (by omega)] at h
    cases hl : loadPieceBlock i fs r.block (resize p.buffer r.block.length) with
    | ub => rw [hl] at h; cases h
    | diverge => rw [hl] at h; cases h
    | ok l =>
      rw [hl] at h
      simp only [Res.bind_ok, Res.pure_eq] at h
      obtain ⟨L, h1, h2, h3⟩ := ih (fun x hx => he x (by simp [hx])) _ p' (by simp only [waitingBytes]; omega) h
      exact ⟨⟨r.id, r.peer, r.block, l.2⟩ :: L, by rw [h1]; simp, by simp [h2, toReq], h3⟩

/-- What is known after a history with the requests `A` and the blocks `S` sent. -/
structure Hist (A : List (Nat × BlockInfo)) (S : List Sent) (s : State) : Prop where
  count : s.count = A.length
  pend : ∀ r ∈ s.pending, A[r.id]? = some (r.peer, r.block)
  sorted : s.pending.Pairwise fun a b => a.id < b.id
  sent : ∀ x ∈ S, A[x.id]? = some (x.peer, x.block)
  nodup : (S.map (·.id) ++ s.pending.map (·.id)).Nodup
  order : S.Pairwise fun x y => x.id < y.id ∨ x.block.length < y.block.length
  cross : ∀ x ∈ S, ∀ r ∈ s.pending, x.id < r.id ∨ x.block.length < r.block.length
  uploaded : s.uploaded = sentBytes S

theorem hist_init : Hist [] [] {} :=
  ⟨rfl, by simp, by simp, by simp, by simp, by simp, by simp, rfl⟩

/-- Requests are taken out of the queue. -/
theorem Hist.fewer {A S s s'} (h : Hist A S s) (h1 : s'.count = s.count) (h2 : s'.uploaded = s.uploaded) (h3 : s'.pending.Sublist s.pending) : Hist A S s' where
  count := h1.trans h.count
  pend r hr := h.pend r (h3.subset hr)
  sorted := h.sorted.sublist h3
  sent := h.sent
  nodup := h.nodup.sublist ((List.Sublist.refl _).append (h3.map _))
  order := h.order
  cross x hx r hr := h.cross x hx r (h3.subset hr)
  uploaded := h2.trans h.uploaded

theorem requestBytes_spec (s : State) (n : Nat) (now : Bool) :
    (requestBytes s n now).1.count = s.count ∧ (requestBytes s n now).1.uploaded = s.uploaded ∧ (requestBytes s n now).1.pending = s.pending ∧
    (requestBytes s n now).1.posted = s.posted ∧ (requestBytes s n now).1.available ≤ s.available + (requestBytes s n now).2 := by
  unfold requestBytes
  split
  · exact ⟨rfl, rfl, rfl, rfl, by simp⟩
  · simp only
    split
    · refine ⟨rfl, rfl, rfl, rfl, ?_⟩
      exact Nat.mod_le _ _
    · exact ⟨rfl, rfl, rfl, rfl, by simp⟩

theorem Hist.same {A S s s'} (h : Hist A S s) (h1 : s'.count = s.count) (h2 : s'.uploaded = s.uploaded) (h3 : s'.pending = s.pending) : Hist A S s' :=
  h.fewer h1 h2 (h3 ▸ List.Sublist.refl _)

theorem Hist.lt {A S s} (h : Hist A S s) {x : Sent} (hx : x ∈ S) : x.id < A.length := by
  obtain ⟨h1, _⟩ := List.getElem?_eq_some_iff.mp (h.sent x hx)
  exact h1

theorem Hist.ltp {A S s} (h : Hist A S s) {r : Req} (hr : r ∈ s.pending) : r.id < A.length := by
  obtain ⟨h1, _⟩ := List.getElem?_eq_some_iff.mp (h.pend r hr)
  exact h1

theorem sentBytes_append (a b : List Sent) : sentBytes (a ++ b) = sentBytes a + sentBytes b := by simp [sentBytes]

/-- A pass. -/
theorem Hist.pass {A S s} (h : Hist A S s) {i fs est p'} {p : Pass} (hup : p.uploaded = s.uploaded) {L K} (P : Passed est p s.pending p' L K)
    (_ : turns i fs est p s.pending = .ok p') : Hist A (S ++ L) { s with pending := K, buffer := p'.buffer, available := p'.available, uploaded := p'.uploaded } where
  count := h.count
  pend r hr := h.pend r (P.subK.subset hr)
  sorted := h.sorted.sublist P.subK
  sent x hx := by
    rcases List.mem_append.mp hx with hx | hx
    · exact h.sent x hx
    · exact h.pend (toReq x) (P.subL.subset (List.mem_map_of_mem hx))
  nodup := by
    have h1 : ((S ++ L).map (·.id) ++ K.map (·.id)) = S.map (·.id) ++ (L.map toReq ++ K).map (·.id) := by
      simp [Function.comp_def, toReq]
    simp only [h1]
    have h2 : (S.map (·.id) ++ (s.pending.filter fun r => decide (r.peer ∈ est)).map (·.id)).Nodup :=
      h.nodup.sublist ((List.Sublist.refl _).append (List.filter_sublist.map _))
    exact (List.Perm.append_left _ (P.perm.map _)).nodup_iff.mpr h2
  order := by
    rw [List.pairwise_append]
    refine ⟨h.order, ?_, fun x hx y hy => h.cross x hx (toReq y) (P.subL.subset (List.mem_map_of_mem hy))⟩
    have h1 := h.sorted.sublist P.subL
    rw [List.pairwise_map] at h1
    exact h1.imp fun hx => .inl hx
  cross x hx r hr := by
    rcases List.mem_append.mp hx with hx | hx
    · exact h.cross x hx r (P.subK.subset hr)
    · exact P.cross h.sorted x hx r hr
  uploaded := by
    simp only [sentBytes_append, P.uploaded, hup, h.uploaded]

theorem asked_cons (e : Ev) (es : List Ev) : asked (e :: es) = asked [e] ++ asked es := by cases e <;> simp [asked]
theorem given_cons (e : Ev) (es : List Ev) : given (e :: es) = given [e] + given es := by cases e <;> simp [given]

/-- One step, with what becomes of a waiting request. -/
structure Stepped (A : List (Nat × BlockInfo)) (S : List Sent) (s : State) (e : Ev) (s' : State) (L : List Sent) (got : Nat) : Prop where
  hist : Hist (A ++ asked [e]) (S ++ L) s'
  bytes : 0 ≤ given [e] → (sentBytes L : Int) + s'.available ≤ s.available + got + given [e]
  kept : ∀ r ∈ s.pending, ¬ Ends r.peer e → r ∈ s'.pending ∨ ∃ x ∈ L, toReq x = r

theorem send_inv {i : Info} {s s' : State} {fs est now L got} (h : sendRequests i s fs est now = .ok (s', L, got)) :
    ∃ p' K, turns i fs est { buffer := s.buffer, available := s.available, uploaded := s.uploaded } s.pending = .ok p' ∧
      Passed est { buffer := s.buffer, available := s.available, uploaded := s.uploaded } s.pending p' L K ∧
      ((p'.wanted > 0 ∧ (s', got) = requestBytes { s with pending := K, buffer := p'.buffer, available := p'.available, uploaded := p'.uploaded } p'.wanted now) ∨
       (p'.wanted = 0 ∧ s' = { s with pending := K, buffer := p'.buffer, available := p'.available, uploaded := p'.uploaded } ∧ got = 0)) := by
  unfold sendRequests at h
  cases ht : turns i fs est { buffer := s.buffer, available := s.available, uploaded := s.uploaded } s.pending with
  | ub => rw [ht] at h; cases h
  | diverge => rw [ht] at h; cases h
  | ok p' =>
    rw [ht, Res.bind_ok] at h
    obtain ⟨L', K, P⟩ := turns_spec i fs est _ _ _ ht
    have h1 : p'.sent = L' := by rw [P.sent]; rfl
    have h2 : p'.kept = K := by rw [P.kept]; rfl
    simp only [h1, h2] at h
    split at h
    · next hw =>
      simp only [Res.pure_eq, Res.ok.injEq, Prod.mk.injEq] at h
      obtain ⟨e1, e2, e3⟩ := h
      subst e2
      exact ⟨p', K, rfl, P, .inl ⟨hw, by rw [← e1, ← e3]⟩⟩
    · next hw =>
      simp only [Res.pure_eq, Res.ok.injEq, Prod.mk.injEq] at h
      obtain ⟨e1, e2, e3⟩ := h
      subst e2
      exact ⟨p', K, rfl, P, .inr ⟨by omega, e1.symm, e3.symm⟩⟩

theorem step_spec {i : Info} {A S s} (h : Hist A S s) {e s' L got} (hs : step i s e = .ok (s', L, got)) : Stepped A S s e s' L got := by
  cases e with
  | request p b now =>
    simp only [step, pieceRequest, Res.pure_eq, Res.ok.injEq, Prod.mk.injEq] at hs
    obtain ⟨e1, rfl, e3⟩ := hs
    obtain ⟨r1, r2, r3, r4, r5⟩ := requestBytes_spec s b.length now
    generalize requestBytes s b.length now = q at *
    obtain ⟨s1, g⟩ := q
    simp only at *
    have hp : s'.pending = s.pending ++ [⟨A.length, p, b⟩] ∧ s'.count = s.count + 1 ∧ s'.uploaded = s.uploaded ∧ s'.available = s1.available := by
      rw [← e1]
      split <;> simp [r1, r2, r3, h.count]
    obtain ⟨p1, p2, p3, p4⟩ := hp
    refine ⟨⟨?_, ?_, ?_, ?_, ?_, ?_, ?_, ?_⟩, ?_, ?_⟩
    · rw [p2, h.count]; simp [asked]
    · intro r hr
      rw [p1] at hr
      rcases List.mem_append.mp hr with hr | hr
      · rw [List.getElem?_append_left (h.ltp hr)]
        exact h.pend r hr
      · rw [List.mem_singleton.mp hr]
        simp [asked]
    · rw [p1, List.pairwise_append]
      refine ⟨h.sorted, by simp, fun a ha b' hb' => ?_⟩
      rw [List.mem_singleton.mp hb']
      exact h.ltp ha
    · intro x hx
      rw [List.append_nil] at hx
      rw [List.getElem?_append_left (h.lt hx)]
      exact h.sent x hx
    · rw [p1, List.append_nil, List.map_append, ← List.append_assoc, List.nodup_append]
      refine ⟨h.nodup, by simp, ?_⟩
      intro a ha b' hb'
      simp at hb'
      subst hb'
      rcases List.mem_append.mp ha with ha | ha
      · obtain ⟨x, hx, rfl⟩ := List.mem_map.mp ha
        have := h.lt hx
        omega
      · obtain ⟨x, hx, rfl⟩ := List.mem_map.mp ha
        have := h.ltp hx
        omega
    · rw [List.append_nil]; exact h.order
    · intro x hx r hr
      rw [List.append_nil] at hx
      rw [p1] at hr
      rcases List.mem_append.mp hr with hr | hr
      · exact h.cross x hx r hr
      · rw [List.mem_singleton.mp hr]
        exact .inl (h.lt hx)
    · rw [p3, h.uploaded, List.append_nil]
    · intro _
      simp only [sentBytes, List.map_nil, List.sum_nil, given]
      omega
    · intro r hr _
      left
      rw [p1]
      simp [hr]
  | grant a =>
    simp only [step, Res.pure_eq, Res.ok.injEq, Prod.mk.injEq] at hs
    obtain ⟨rfl, rfl, rfl⟩ := hs
    have hp : (assignBandwidth s a).pending = s.pending ∧ (assignBandwidth s a).count = s.count ∧ (assignBandwidth s a).uploaded = s.uploaded ∧
        (assignBandwidth s a).available = ((s.available + a) % 4294967296).toNat := by
      unfold assignBandwidth
      simp only
      split <;> simp
    obtain ⟨p1, p2, p3, p4⟩ := hp
    refine ⟨?_, ?_, fun r hr _ => .inl (by rw [p1]; exact hr)⟩
    · simpa [asked] using h.same p2 p3 p1
    · intro ha
      rw [p4]
      simp only [sentBytes, List.map_nil, List.sum_nil, given, Int.add_zero] at ha ⊢
      omega
  | send fs est now =>
    simp only [step] at hs
    split at hs
    · simp only [Res.pure_eq, Res.ok.injEq, Prod.mk.injEq] at hs
      obtain ⟨rfl, rfl, rfl⟩ := hs
      exact ⟨by simpa [asked] using h, by simp [sentBytes, given], fun r hr _ => .inl hr⟩
    · obtain ⟨p', K, ht, P, hw⟩ := send_inv hs
      have H := Hist.pass (s := { s with posted := s.posted - 1 }) (h.same rfl rfl rfl) rfl P ht
      have hb := P.bytes
      simp only at hb
      have hs' : s'.count = s.count ∧ s'.uploaded = p'.uploaded ∧ s'.pending = K ∧ s'.available ≤ p'.available + got := by
        rcases hw with ⟨_, hr⟩ | ⟨_, hr, rfl⟩
        · obtain ⟨r1, r2, r3, r4, r5⟩ := requestBytes_spec { s with posted := s.posted - 1, pending := K, buffer := p'.buffer, available := p'.available, uploaded := p'.uploaded } p'.wanted now
          rw [← hr] at r1 r2 r3 r5
          exact ⟨r1, r2, r3, r5⟩
        · subst hr
          exact ⟨rfl, rfl, rfl, by simp⟩
      obtain ⟨q1, q2, q3, q4⟩ := hs'
      refine ⟨?_, ?_, ?_⟩
      · simpa [asked] using H.same (s' := s') q1 q2 q3
      · intro _
        simp only [given]
        omega
      · intro r hr hne
        have hin : r ∈ s.pending.filter fun r => decide (r.peer ∈ est) := by
          rw [List.mem_filter]
          exact ⟨hr, by simpa [Ends] using hne⟩
        rcases List.mem_append.mp (P.perm.mem_iff.mpr hin) with hx | hx
        · obtain ⟨x, hxL, rfl⟩ := List.mem_map.mp hx
          exact .inr ⟨x, hxL, rfl⟩
        · exact .inl (by rw [q3]; exact hx)
  | cancel p =>
    simp only [step, Res.pure_eq, Res.ok.injEq, Prod.mk.injEq] at hs
    obtain ⟨rfl, rfl, rfl⟩ := hs
    refine ⟨by simpa [asked] using h.fewer (s' := { s with pending := s.pending.filter fun r => r.peer ≠ p }) rfl rfl List.filter_sublist, by simp [sentBytes, given], ?_⟩
    intro r hr hne
    left
    rw [List.mem_filter]
    exact ⟨hr, by simp only [Ends] at hne; simpa using fun h => hne h.symm⟩
  | refresh est =>
    simp only [step, Res.pure_eq, Res.ok.injEq, Prod.mk.injEq] at hs
    obtain ⟨rfl, rfl, rfl⟩ := hs
    refine ⟨by simpa [asked] using h.fewer (s' := { s with pending := s.pending.filter fun r => r.peer ∈ est }) rfl rfl List.filter_sublist, by simp [sentBytes, given], ?_⟩
    intro r hr hne
    left
    rw [List.mem_filter]
    exact ⟨hr, by simpa [Ends] using hne⟩
  | stop =>
    simp only [step, Res.pure_eq, Res.ok.injEq, Prod.mk.injEq] at hs
    obtain ⟨rfl, rfl, rfl⟩ := hs
    refine ⟨by simpa [asked] using h.fewer (s' := { s with pending := [], requesting := false, available := 0 }) rfl rfl (List.nil_sublist _), ?_, ?_⟩
    · intro _
      simp [sentBytes, given]
    · intro r hr hne
      exact absurd trivial hne

theorem run_cons {i : Info} {s s' : State} {e es L got} (h : run i s (e :: es) = .ok (s', L, got)) :
    ∃ s1 L1 g1 L2 g2, step i s e = .ok (s1, L1, g1) ∧ run i s1 es = .ok (s', L2, g2) ∧ L = L1 ++ L2 ∧ got = g1 + g2 := by
  simp only [run] at h
  cases hs : step i s e with
  | ub => rw [hs] at h; cases h
  | diverge => rw [hs] at h; cases h
  | ok x =>
    obtain ⟨s1, L1, g1⟩ := x
    rw [hs, Res.bind_ok] at h
    simp only at h
    cases hr : run i s1 es with
    | ub => rw [hr] at h; cases h
    | diverge => rw [hr] at h; cases h
    | ok y =>
      obtain ⟨s2, L2, g2⟩ := y
      rw [hr, Res.bind_ok] at h
      cases h
      exact ⟨s1, L1, g1, L2, g2, rfl, hr, rfl, rfl⟩

theorem run_append {i : Info} {a b : List Ev} : ∀ {s s' : State} {L got}, run i s (a ++ b) = .ok (s', L, got) →
    ∃ s1 L1 g1 L2 g2, run i s a = .ok (s1, L1, g1) ∧ run i s1 b = .ok (s', L2, g2) ∧ L = L1 ++ L2 ∧ got = g1 + g2 := by
  induction a with
  | nil => intro s s' L got h; exact ⟨s, [], 0, L, got, rfl, h, rfl, by simp⟩
  | cons e es ih =>
    intro s s' L got h
    obtain ⟨s1, L1, g1, L2, g2, h1, h2, rfl, rfl⟩ := run_cons (es := es ++ b) h
    obtain ⟨s3, L3, g3, L4, g4, h3, h4, rfl, rfl⟩ := ih h2
    refine ⟨s3, L1 ++ L3, g1 + g3, L4, g4, ?_, h4, by simp, by omega⟩
    simp [run, h1, h3, Res.bind_ok]

theorem run_spec {i : Info} (es : List Ev) : ∀ {A S s s' L got}, Hist A S s → run i s es = .ok (s', L, got) →
    Hist (A ++ asked es) (S ++ L) s' ∧ ((∀ a, Ev.grant a ∈ es → 0 ≤ a) → (sentBytes L : Int) + s'.available ≤ s.available + got + given es) ∧
    ∀ r ∈ s.pending, (∀ e ∈ es, ¬ Ends r.peer e) → r ∈ s'.pending ∨ ∃ x ∈ L, toReq x = r := by
  induction es with
  | nil =>
    intro A S s s' L got h hr
    cases hr
    exact ⟨by simpa [asked] using h, by simp [sentBytes, given], fun r hr _ => .inl hr⟩
  | cons e es ih =>
    intro A S s s' L got h hr
    obtain ⟨s1, L1, g1, L2, g2, h1, h2, rfl, rfl⟩ := run_cons hr
    have st := step_spec h h1
    obtain ⟨i1, i2, i3⟩ := ih st.hist h2
    refine ⟨?_, ?_, ?_⟩
    · rw [asked_cons]
      simpa [List.append_assoc] using i1
    · intro hg
      have b1 := st.bytes (by cases e with
        | grant a => simpa [given] using hg a (by simp)
        | _ => simp [given])
      have b2 := i2 (fun a ha => hg a (by simp [ha]))
      rw [given_cons, sentBytes_append]
      omega
    · intro r hr hne
      rcases st.kept r hr (hne e (by simp)) with h3 | ⟨x, hx, h3⟩
      · rcases i3 r h3 (fun x hx => hne x (by simp [hx])) with h4 | ⟨x, hx, h4⟩
        · exact .inl h4
        · exact .inr ⟨x, by simp [hx], h4⟩
      · exact .inr ⟨x, by simp [hx], h3⟩

/-! ### Waiting requests are looked at again -/

theorem sum_sublist {a b : List Nat} (h : a.Sublist b) : a.sum ≤ b.sum := by
  induction h with
  | slnil => simp
  | cons _ _ ih => simp only [List.sum_cons]; omega
  | cons_cons _ _ ih => simp only [List.sum_cons]; omega

def Alive (s : State) : Prop := s.pending ≠ [] → s.requesting = true ∨ 0 < s.posted

theorem step_alive {i : Info} {s s' : State} {e L got} (h : Alive s) (hw : waitingBytes s.pending < 4294967296)
    (hn : ∀ fs est, e ≠ .send fs est true) (hs : step i s e = .ok (s', L, got)) : Alive s' := by
  cases e with
  | request p b now =>
    simp only [step, pieceRequest, Res.pure_eq, Res.ok.injEq, Prod.mk.injEq] at hs
    obtain ⟨rfl, _, _⟩ := hs
    intro _
    split
    · next hq => exact .inl hq
    · exact .inr (by simp)
  | grant a =>
    simp only [step, Res.pure_eq, Res.ok.injEq, Prod.mk.injEq] at hs
    obtain ⟨rfl, _, _⟩ := hs
    unfold assignBandwidth Alive
    simp only
    split
    · intro _; exact .inr (by simp)
    · next hq => intro hx; exact absurd hx hq
  | send fs est now =>
    simp only [step] at hs
    split at hs
    · simp only [Res.pure_eq, Res.ok.injEq, Prod.mk.injEq] at hs
      obtain ⟨rfl, _, _⟩ := hs
      exact h
    · obtain ⟨p', K, ht, P, hq⟩ := send_inv hs
      have hnow : now = false := by
        cases now with
        | false => rfl
        | true => exact absurd rfl (hn fs est)
      have hK : waitingBytes K < 4294967296 := by
        have : (K.map (·.block.length)).Sublist (s.pending.map (·.block.length)) := P.subK.map _
        have := sum_sublist this
        unfold waitingBytes at hw ⊢
        omega
      have hpos : K ≠ [] → 0 < p'.wanted ∧ p'.available < p'.wanted := by
        intro hne
        obtain ⟨r, K', rfl⟩ := List.exists_cons_of_ne_nil hne
        have h1 := P.large r (by simp)
        rcases P.wanted with h2 | ⟨h2, _⟩
        · simp only [Nat.zero_add, waitingBytes, List.map_cons, List.sum_cons] at h2 hK
          omega
        · cases h2
      rcases hq with ⟨hw', hr⟩ | ⟨hw', rfl, _⟩
      · subst hnow
        intro hne
        have hpend : s'.pending = K := by
          have := (requestBytes_spec { s with posted := s.posted - 1, pending := K, buffer := p'.buffer, available := p'.available, uploaded := p'.uploaded } p'.wanted false).2.2.1
          rw [← hr] at this
          exact this
        rw [hpend] at hne
        have h3 := (hpos hne).2
        simp only [requestBytes] at hr
        split at hr
        · next hc =>
          rcases hc with hc | hc
          · omega
          · cases hr
            exact .inl hc
        · cases hr
          exact .inl rfl
      · intro hne
        have := (hpos hne).1
        omega
  | cancel p =>
    simp only [step, Res.pure_eq, Res.ok.injEq, Prod.mk.injEq] at hs
    obtain ⟨rfl, _, _⟩ := hs
    intro hne
    exact h (fun hx => hne (by simp only [hx]; rfl))
  | refresh est =>
    simp only [step, Res.pure_eq, Res.ok.injEq, Prod.mk.injEq] at hs
    obtain ⟨rfl, _, _⟩ := hs
    intro hne
    exact h (fun hx => hne (by simp only [hx]; rfl))
  | stop =>
    simp only [step, Res.pure_eq, Res.ok.injEq, Prod.mk.injEq] at hs
    obtain ⟨rfl, _, _⟩ := hs
    intro hne
    exact absurd rfl hne

theorem run_alive {i : Info} (es : List Ev) : ∀ {s s' : State} {L got}, Alive s → (∀ fs est, Ev.send fs est true ∉ es) →
    (∀ a b s1 L1 g1, es = a ++ b → run i s a = .ok (s1, L1, g1) → waitingBytes s1.pending < 4294967296) → run i s es = .ok (s', L, got) → Alive s' := by
  induction es with
  | nil => intro s s' L got h _ _ hr; cases hr; exact h
  | cons e es ih =>
    intro s s' L got h hn hb hr
    obtain ⟨s1, L1, g1, L2, g2, h1, h2, _, _⟩ := run_cons hr
    refine ih (step_alive h (hb [] (e :: es) s [] 0 rfl rfl) (fun fs est hx => hn fs est (by simp [hx])) h1) (fun fs est hx => hn fs est (by simp [hx])) ?_ h2
    intro a b s3 L3 g3 hab hra
    refine hb (e :: a) b s3 (L1 ++ L3) (g1 + g3) (by rw [hab]; rfl) ?_
    simp [run, h1, hra, Res.bind_ok]

end Verif.Uploader
