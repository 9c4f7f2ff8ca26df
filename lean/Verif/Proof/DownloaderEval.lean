import Verif.Proof.DownloaderSend
/-! `evaluate`: the loops over the pieces of a peer. -/

namespace Verif.Downloader
open Verif Layout Progress PieceState Spec Spec.Download

/-- Only requests, kept pieces and `fastCheck` differ. -/
def Same (s s' : St) : Prop :=
  s' = { s with requests := s'.requests, unfinished := s'.unfinished, fastCheck := s'.fastCheck }

theorem Same.refl (s : St) : Same s s := rfl

theorem Same.trans {a b c : St} (h : Same a b) (h' : Same b c) : Same a c := by
  unfold Same at *
  rw [h'] ; rw [h]

/-- The part of the invariant that concerns the requests. -/
structure Base (s : St) : Prop where
  req : ReqOk s.files.info s.requests
  kept : Kept s.files.info s.unfinished

theorem requestPiece_spec (i : Info) (l : List PState) (idx : Nat) (hk : Kept i l) :
    (requestPiece i l idx).1.index = idx ∧
    (requestPiece i l idx).1.blocksState.length = getPieceBlocksCount i idx ∧ Kept i (requestPiece i l idx).2 := by
  have load : ∀ l : List PState, Kept i l → Kept i (unfinishedLoad idx l).2 ∧
      ((unfinishedLoad idx l).1.blocksState = [] ∨ ((unfinishedLoad idx l).1.index = idx ∧
        (unfinishedLoad idx l).1.blocksState.length = getPieceBlocksCount i idx)) := by
    intro l
    induction l with
    | nil => intro _; exact ⟨by simp [unfinishedLoad, Kept], Or.inl rfl⟩
    | cons u us ih =>
      intro hk
      unfold unfinishedLoad
      by_cases hu : u.index = idx ∧ u.downloadedSize ≠ 0
      · rw [if_pos hu]
        refine ⟨?_, Or.inr ⟨hu.1, ?_⟩⟩
        · intro v hv hd
          rcases List.mem_cons.1 hv with rfl | hv
          · simp at hd
          · exact hk v (List.mem_cons_of_mem _ hv) hd
        · rw [← hu.1]; exact hk u (by simp) hu.2
      · rw [if_neg hu]
        obtain ⟨h1, h2⟩ := ih fun v hv => hk v (List.mem_cons_of_mem _ hv)
        refine ⟨?_, h2⟩
        intro v hv hd
        rcases List.mem_cons.1 hv with rfl | hv
        · exact hk v (by simp) hd
        · exact h1 v hv hd
  obtain ⟨h1, h2⟩ := load l hk
  unfold requestPiece
  dsimp only
  by_cases he : (unfinishedLoad idx l).1.blocksState.isEmpty
  · rw [if_pos he]
    exact ⟨rfl, by simp [PieceState.init], h1⟩
  · rw [if_neg he]
    rcases h2 with h2 | h2
    · simp [h2] at he
    · exact ⟨h2.1, h2.2, h1⟩

theorem getRequest_spec (s : St) (idx : Nat) (hb : Base s) :
    Same s (getRequest s idx).1 ∧ Base (getRequest s idx).1 ∧ Grow s.requests (getRequest s idx).1.requests ∧
    (getRequest s idx).1.requests.get idx = some (getRequest s idx).2 := by
  unfold getRequest
  cases h : s.requests.get idx with
  | some q => exact ⟨rfl, hb, Grow.refl _, h⟩
  | none =>
    obtain ⟨h1, h2, h3⟩ := requestPiece_spec s.files.info s.unfinished idx hb.kept
    refine ⟨rfl, ⟨?_, h3⟩, ?_, by simp [Map.get_put]⟩
    · intro j q hq
      rcases Map.mem_put hq with ⟨rfl, rfl⟩ | hq
      · exact ⟨h1, h2⟩
      · exact hb.req j q hq
    · intro j q hq
      refine ⟨q, ?_, rfl, fun _ h => h, rfl⟩
      have e : j ≠ idx := by rintro rfl; rw [h] at hq; simp at hq
      simp [Map.get_put, e, hq]

theorem getRequest_have {s : St} {idx : Nat} {q : Req} (h : s.requests.get idx = some q) : getRequest s idx = (s, q) := by
  simp [getRequest, h]

/-- Putting a changed request with the same piece back. -/
theorem put_grow {m : Map Req} {idx : Nat} {q q' : Req} (h : m.get idx = some q) (hp : q'.piece = q.piece)
    (ha : ∀ p ∈ q.active, p ∈ q'.active) (hs : q'.sources = q.sources) : Grow m (m.put idx q') := by
  intro j x hx
  by_cases e : j = idx
  · subst e
    rw [h] at hx
    simp only [Option.some.injEq] at hx
    subst hx
    exact ⟨q', by simp [Map.get_put], hp, ha, hs⟩
  · exact ⟨x, by simp [Map.get_put, e, hx], rfl, fun _ h => h, rfl⟩

theorem put_reqOk {i : Info} {m : Map Req} {idx : Nat} {q q' : Req} (h : ReqOk i m) (hq : m.get idx = some q)
    (hp : q'.piece.index = q.piece.index) (hl : q'.piece.blocksState.length = q.piece.blocksState.length) :
    ReqOk i (m.put idx q') := by
  intro j x hx
  rcases Map.mem_put hx with ⟨rfl, rfl⟩ | hx
  · rw [hp, hl]; exact h.get j q hq
  · exact h j x hx

/-- Entry by entry: the same piece, as many blocks, the count right. -/
def Like (c c' : List ReqPiece) : Prop := c'.map (·.idx) = c.map (·.idx)

theorem like_exists {c c' : List ReqPiece} (h : Like c c') {r : ReqPiece} (hr : r ∈ c) : ∃ r' ∈ c', r'.idx = r.idx := by
  have : r.idx ∈ c'.map (·.idx) := by rw [h]; exact List.mem_map_of_mem hr
  obtain ⟨r', h1, h2⟩ := List.mem_map.1 this
  exact ⟨r', h1, h2⟩

/-- One entry of several changes. -/
theorem Sent.cons {i : Info} {m : Map Req} {r r' : ReqPiece} {o : List BlockInfo} {xs : List (Nat × Nat)} {c : List ReqPiece}
    (h : Sent i m [r] [r'] o xs) (hn : r.idx ∉ c.map (·.idx)) (hx : ∀ x ∈ xs, x.1 = r.idx) :
    Sent i m (r :: c) (r' :: c) o xs where
  out := h.out
  nodup := h.nodup
  free := by
    intro x hxs hf
    rcases (flag_cons _ _ _).1 hf with hf | ⟨r0, hr0, e, -⟩
    · exact h.free x hxs ⟨r, by simp, hf⟩
    · exact hn (List.mem_map.2 ⟨r0, hr0, by rw [e, hx x hxs]⟩)
  small := h.small
  unreceived := h.unreceived
  flags := by
    intro x
    rw [flag_cons, flag_cons]
    have := h.flags x
    simp only [Flag, List.mem_singleton, exists_eq_left] at this
    rw [this]
    constructor
    · rintro ((h | h) | h)
      · exact Or.inl (Or.inl h)
      · exact Or.inr h
      · exact Or.inl (Or.inr h)
    · rintro ((h | h) | h)
      · exact Or.inl (Or.inl h)
      · exact Or.inr h
      · exact Or.inl (Or.inr h)
  total := by
    have := h.total
    simp only [total_cons, total_nil] at this ⊢
    omega
  entry := by
    intro x hxs
    obtain ⟨r0, h0, e⟩ := h.entry x hxs
    rw [List.mem_singleton] at h0
    exact ⟨r0, by simp [h0], e⟩

theorem Sent.cons' {i : Info} {m : Map Req} {r : ReqPiece} {o : List BlockInfo} {xs : List (Nat × Nat)} {c c' : List ReqPiece}
    (h : Sent i m c c' o xs) (hn : r.idx ∉ c'.map (·.idx)) : Sent i m (r :: c) (r :: c') o xs where
  out := h.out
  nodup := h.nodup
  free := by
    intro x hxs hf
    rcases (flag_cons _ _ _).1 hf with hf | hf
    · obtain ⟨r0, h0, e⟩ := h.entry x hxs
      exact hn (List.mem_map.2 ⟨r0, h0, by rw [e, hf.1]⟩)
    · exact h.free x hxs hf
  small := h.small
  unreceived := h.unreceived
  flags := by
    intro x
    rw [flag_cons, flag_cons, h.flags, or_assoc]
  total := by
    have := h.total
    simp only [total_cons]
    omega
  entry := by
    intro x hxs
    obtain ⟨r0, h0, e⟩ := h.entry x hxs
    exact ⟨r0, by simp [h0], e⟩

theorem sent_idx {i : Info} {m : Map Req} {r r' : ReqPiece} {o : List BlockInfo} {xs : List (Nat × Nat)}
    (h : Sent i m [r] [r'] o xs) (e : r'.idx = r.idx) : ∀ x ∈ xs, x.1 = r.idx := by
  intro x hx
  obtain ⟨r0, h0, e0⟩ := h.entry x hx
  rw [List.mem_singleton] at h0
  rw [← e0, h0, e]

theorem moreLoop_spec (p mx : Nat) (hmx : mx ≤ 100) (c : List ReqPiece) :
    ∀ (s s' : St) (cur cur' : Nat) (c' : List ReqPiece) (o : List BlockInfo), Base s → CurOk s.requests p c →
      total c ≤ 100 → cur < mx → moreLoop mx c s cur = .ok (s', cur', c', o) →
      Same s s' ∧ Base s' ∧ Grow s.requests s'.requests ∧ CurOk s'.requests p c' ∧ Like c c' ∧
        (∃ xs, Sent s.files.info s'.requests c c' o xs ∧ cur' = cur + xs.length) ∧ cur' ≤ mx := by
  induction c with
  | nil =>
    intro s s' cur cur' c' o hb hc ht hlt h
    simp only [moreLoop, Res.ok.injEq, Prod.mk.injEq] at h
    obtain ⟨rfl, rfl, rfl, rfl⟩ := h
    exact ⟨rfl, hb, Grow.refl _, hc, rfl, ⟨[], Sent.refl _ _ _, by simp⟩, by omega⟩
  | cons r rs ih =>
    intro s s' cur cur' c' o hb hc ht hlt h
    obtain ⟨hnd, hent⟩ := hc
    obtain ⟨q, hq, hpa, hlen, hact⟩ := hent r (by simp)
    simp only [List.map_cons, List.nodup_cons] at hnd
    unfold moreLoop at h
    rw [getRequest_have hq] at h
    dsimp only at h
    cases hs : sendPieceRequests s.files.info r q (mx - cur) with
    | ub => rw [hs] at h; simp at h
    | diverge => rw [hs] at h; simp at h
    | ok t =>
      obtain ⟨r1, q1, n, o1⟩ := t
      rw [hs] at h
      simp only [Res.bind_ok] at h
      simp only [total_cons] at ht
      obtain ⟨xs, hsent, hn, hnle, hidx, hbl, hcn, hpc, hqa, hqs, -⟩ :=
        send_spec (m := s.requests) hq (by omega) (by omega) hact hs
      have hg : Grow s.requests (s.requests.put r.idx q1) := put_grow hq hpc (by intro x hx; rw [hqa]; exact hx) hqs
      have hro := put_reqOk (q' := q1) hb.req hq (by rw [hpc]) (by rw [hpc])
      have hsent0 : Sent s.files.info s.requests (r :: rs) (r1 :: rs) o1 xs := hsent.cons hnd.1 (sent_idx hsent hidx)
      have hc1 : CurOk (s.requests.put r.idx q1) p (r1 :: rs) := by
        refine ⟨by simp only [List.map_cons, hidx]; exact List.nodup_cons.2 hnd, ?_⟩
        intro x hx
        rcases List.mem_cons.1 hx with rfl | hx
        · exact ⟨q1, by rw [hidx]; simp [Map.get_put], by rw [hqa]; exact hpa, by rw [hbl, hpc]; exact hlen, hcn⟩
        · have hx' := hent x (List.mem_cons_of_mem _ hx)
          obtain ⟨qx, h1, h2, h3, h4⟩ := hx'
          obtain ⟨q', g1, g2, g3, -⟩ := hg _ qx h1
          exact ⟨q', g1, g3 p h2, by rw [g2]; exact h3, h4⟩
      have hlike : Like (r :: rs) (r1 :: rs) := by simp [Like, hidx]
      have hsent1 := hsent0.trans (Sent.refl _ _ (r1 :: rs)) hg (fun r0 h0 => ⟨r0, h0, rfl⟩)
      simp only [List.append_nil] at hsent1
      by_cases hge : cur + n ≥ mx
      · rw [if_pos hge] at h
        simp only [Res.pure_eq, Res.ok.injEq, Prod.mk.injEq] at h
        obtain ⟨rfl, rfl, rfl, rfl⟩ := h
        exact ⟨rfl, ⟨hro, hb.kept⟩, hg, hc1, hlike, ⟨xs, hsent1, by omega⟩, by omega⟩
      · rw [if_neg hge] at h
        cases hm : moreLoop mx rs { s with requests := s.requests.put r.idx q1 } (cur + n) with
        | ub => rw [hm] at h; simp at h
        | diverge => rw [hm] at h; simp at h
        | ok u =>
          obtain ⟨s2, cur2, c2, o2⟩ := u
          rw [hm] at h
          simp only [Res.bind_ok, Res.pure_eq, Res.ok.injEq, Prod.mk.injEq] at h
          obtain ⟨rfl, rfl, rfl, rfl⟩ := h
          have hc2 : CurOk (s.requests.put r.idx q1) p rs :=
            ⟨(List.nodup_cons.1 hc1.1).2, fun x hx => hc1.2 x (List.mem_cons_of_mem _ hx)⟩
          obtain ⟨a1, a2, a3, a4, a5, ⟨ys, a6, a7⟩, a8⟩ := ih { s with requests := s.requests.put r.idx q1 } s2 (cur + n) cur2 c2 o2
            ⟨hro, hb.kept⟩ hc2 (by omega) (by omega) hm
          dsimp only at a1 a3 a6
          have hnot : r1.idx ∉ c2.map (·.idx) := by rw [a5, hidx]; exact hnd.1
          refine ⟨Same.trans (b := { s with requests := s.requests.put r.idx q1 }) rfl a1, a2, hg.trans a3, ?_, ?_,
            ⟨xs ++ ys, ?_, by simp; omega⟩, a8⟩
          · refine ⟨by simp only [List.map_cons]; exact List.nodup_cons.2 ⟨hnot, a4.1⟩, ?_⟩
            intro x hx
            rcases List.mem_cons.1 hx with rfl | hx
            · obtain ⟨qx, h1, h2, h3, h4⟩ := hc1.2 x (by simp)
              obtain ⟨q', g1, g2, g3, -⟩ := a3 _ qx h1
              exact ⟨q', g1, g3 p h2, by rw [g2]; exact h3, h4⟩
            · exact a4.2 x hx
          · simp only [Like, List.map_cons, hidx] at a5 ⊢; rw [a5]
          · refine hsent1.trans (a6.cons' hnot) a3 ?_
            intro r0 h0
            rcases List.mem_cons.1 h0 with rfl | h0
            · exact ⟨r0, by simp, rfl⟩
            · obtain ⟨r', b1, b2⟩ := like_exists a5 h0
              exact ⟨r', by simp [b1], b2⟩

theorem idle_not_current {m : Map Req} {s : St} {p idx : Nat} {c : List ReqPiece} (e : s.requests = m) (hc : CurOk m p c)
    (h : idle s idx = true) : idx ∉ c.map (·.idx) := by
  intro hm
  obtain ⟨r, hr, rfl⟩ := List.mem_map.1 hm
  obtain ⟨q, hq, hp, -⟩ := hc.2 r hr
  subst e
  simp only [idle, hq, List.isEmpty_iff] at h
  rw [h] at hp; simp at hp

theorem bestShared_mem (s : St) (info : PeerReq) (l : List Nat) : ∀ i, bestShared s info l = some i → i ∈ l := by
  have key : ∀ (l : List Nat) (b : Option Nat) (i : Nat), l.foldl (fun best idx =>
      match s.requests.get idx with
      | none => best
      | some q =>
        if info.group ≠ 0 ∧ info.group ∈ q.groups then best
        else
          match best.bind s.requests.get with
          | none => some idx
          | some b =>
            if b.active.length > q.active.length ∨ (b.active.length = q.active.length ∧ b.counter > q.counter) then
              some idx else best) b = some i → i ∈ l ∨ b = some i := by
    intro l
    induction l with
    | nil => intro b i h; right; simpa using h
    | cons a l ih =>
      intro b i h
      rw [List.foldl_cons] at h
      rcases ih _ i h with h | h
      · left; simp [h]
      · have : i = a ∨ b = some i := by
          revert h
          split
          · exact Or.inr
          · split
            · exact Or.inr
            · split
              · intro h; left; simpa using h.symm
              · split
                · intro h; left; simpa using h.symm
                · exact Or.inr
        rcases this with h | h
        · left; simp [h]
        · exact Or.inr h
  intro i h
  rcases key l none i h with h | h
  · exact h
  · simp at h

theorem fastFind_spec (s : St) (pp : PP) (first : Nat) (l : List (Nat × Nat)) (idx : Nat)
    (h : fastFind s pp first l = .ok (some idx)) :
    missing s idx = .ok true ∧ hasPiece pp idx = .ok true ∧ idle s idx = true ∧ idx ∈ l.map (·.1) := by
  induction l with
  | nil => simp [fastFind] at h
  | cons e l ih =>
    obtain ⟨j, pr⟩ := e
    unfold fastFind at h
    split at h
    · simp at h
    · cases hm : missing s j with
      | ub => rw [hm] at h; simp at h
      | diverge => rw [hm] at h; simp at h
      | ok b =>
        rw [hm] at h
        simp only [Res.bind_ok] at h
        cases b with
        | false =>
          simp only [Bool.false_eq_true, if_false, Res.pure_eq, Res.bind_ok, Bool.false_and] at h
          obtain ⟨a1, a2, a3, a4⟩ := ih h
          exact ⟨a1, a2, a3, by simp [a4]⟩
        | true =>
          simp only [if_true] at h
          cases hp : hasPiece pp j with
          | ub => rw [hp] at h; simp at h
          | diverge => rw [hp] at h; simp at h
          | ok b =>
            rw [hp] at h
            simp only [Res.bind_ok] at h
            split at h
            · next hc =>
              simp only [Res.pure_eq, Res.ok.injEq, Option.some.injEq] at h
              subst h
              simp only [Bool.and_eq_true] at hc
              exact ⟨hm, by rw [hp, hc.1], hc.2, by simp⟩
            · obtain ⟨a1, a2, a3, a4⟩ := ih h
              exact ⟨a1, a2, a3, by simp [a4]⟩

theorem slowFind_spec (s : St) (info : PeerReq) (pp : PP) (first : Nat) (hc : CurOk s.requests p info.current)
    (l : List (Nat × Nat)) : ∀ (last : Nat) (shared : List Nat) (idx : Nat) (f : Bool),
      (∀ j ∈ shared, missing s j = .ok true ∧ hasPiece pp j = .ok true ∧ j ∉ info.current.map (·.idx)) →
      slowFind s info pp first l last shared = .ok (some idx, f) →
      missing s idx = .ok true ∧ hasPiece pp idx = .ok true ∧ idx ∉ info.current.map (·.idx) ∧
        (idx ∈ l.map (·.1) ∨ idx ∈ shared) := by
  induction l with
  | nil =>
    intro last shared idx f hs h
    simp only [slowFind, Res.ok.injEq, Prod.mk.injEq] at h
    have hm := bestShared_mem _ _ _ _ h.1
    obtain ⟨a, b, c⟩ := hs idx hm
    exact ⟨a, b, c, Or.inr hm⟩
  | cons e l ih =>
    obtain ⟨j, pr⟩ := e
    intro last shared idx f hs h
    have lift : ∀ {sh : List Nat}, (idx ∈ l.map (·.1) ∨ idx ∈ sh) → (∀ x ∈ sh, x ∈ shared ∨ x = j) →
        (idx ∈ ((j, pr) :: l).map (·.1) ∨ idx ∈ shared) := by
      intro sh h1 h2
      rcases h1 with h1 | h1
      · left; simp only [List.map_cons, List.mem_cons]; right; exact h1
      · rcases h2 _ h1 with h2 | h2
        · exact Or.inr h2
        · left; simp [h2]
    unfold slowFind at h
    cases hm : missing s j with
    | ub => rw [hm] at h; simp at h
    | diverge => rw [hm] at h; simp at h
    | ok b =>
      rw [hm] at h
      simp only [Res.bind_ok] at h
      cases b with
      | false =>
        simp only [Bool.false_eq_true, if_false, Res.pure_eq, Res.bind_ok] at h
        obtain ⟨a, b, c, d⟩ := ih _ _ _ _ hs h
        exact ⟨a, b, c, lift d fun x hx => Or.inl hx⟩
      | true =>
        simp only [if_true] at h
        cases hp : hasPiece pp j with
        | ub => rw [hp] at h; simp at h
        | diverge => rw [hp] at h; simp at h
        | ok b =>
          rw [hp] at h
          simp only [Res.bind_ok] at h
          cases b with
          | false =>
            simp only [Bool.false_eq_true, if_false] at h
            obtain ⟨a, b, c, d⟩ := ih _ _ _ _ hs h
            exact ⟨a, b, c, lift d fun x hx => Or.inl hx⟩
          | true =>
            simp only [if_true] at h
            split at h
            · next k hk =>
              simp only [Res.pure_eq, Res.ok.injEq, Prod.mk.injEq, Option.some.injEq] at h
              rw [h.1] at hk
              split at hk
              · have hmem := bestShared_mem _ _ _ _ hk
                obtain ⟨a, b, c⟩ := hs idx hmem
                exact ⟨a, b, c, Or.inr hmem⟩
              · simp at hk
            · split at h
              · next hi =>
                simp only [Res.pure_eq, Res.ok.injEq, Prod.mk.injEq, Option.some.injEq] at h
                rw [h.1] at hm hp hi
                exact ⟨hm, hp, idle_not_current rfl hc hi, by left; simp [h.1]⟩
              · split at h
                · obtain ⟨a, b, c, d⟩ := ih _ _ _ _ hs h
                  exact ⟨a, b, c, lift d fun x hx => Or.inl hx⟩
                · next hany =>
                  have hnot : j ∉ info.current.map (·.idx) := by
                    intro hmem
                    obtain ⟨r, hr, e⟩ := List.mem_map.1 hmem
                    exact hany (List.any_eq_true.2 ⟨r, hr, by simp [e]⟩)
                  obtain ⟨a, b, c, d⟩ := ih _ _ _ _ (by
                    intro x hx
                    rcases List.mem_append.1 hx with hx | hx
                    · exact hs x hx
                    · rw [List.mem_singleton] at hx; subst hx; exact ⟨hm, hp, hnot⟩) h
                  exact ⟨a, b, c, lift d fun x hx => by simpa using hx⟩

theorem getBest_spec {s s' : St} {info : PeerReq} {pp : PP} {o : Option Nat} {p : Nat} (hb : Base s)
    (hc : CurOk s.requests p info.current) (h : getBestNextRequest s info pp = .ok (s', o)) :
    Same s s' ∧ Base s' ∧ Grow s.requests s'.requests ∧ (∀ idx, o = some idx →
      missing s idx = .ok true ∧ hasPiece pp idx = .ok true ∧ idx ∉ info.current.map (·.idx) ∧
      idx ∈ s.sorted.map (·.1) ∧ ∃ q, s'.requests.get idx = some q) := by
  unfold getBestNextRequest at h
  split at h
  · simp only [Res.ok.injEq, Prod.mk.injEq] at h
    obtain ⟨rfl, rfl⟩ := h
    exact ⟨rfl, hb, Grow.refl _, by simp⟩
  · next x first rest hsort =>
    have hslow : ∀ {s' : St} {o : Option Nat}, (do
          let r ← slowFind s info pp first s.sorted first []
          match r.1 with
          | some idx => pure ((getRequest { s with fastCheck := r.2 } idx).1, some idx)
          | none => pure ({ s with fastCheck := r.2 }, none) : Res (St × Option Nat)) = .ok (s', o) →
        Same s s' ∧ Base s' ∧ Grow s.requests s'.requests ∧ (∀ idx, o = some idx →
          missing s idx = .ok true ∧ hasPiece pp idx = .ok true ∧ idx ∉ info.current.map (·.idx) ∧
          idx ∈ s.sorted.map (·.1) ∧ ∃ q, s'.requests.get idx = some q) := by
      intro s' o h
      cases hr : slowFind s info pp first s.sorted first [] with
      | ub => rw [hr] at h; simp at h
      | diverge => rw [hr] at h; simp at h
      | ok r =>
        obtain ⟨ro, rf⟩ := r
        rw [hr] at h
        simp only [Res.bind_ok] at h
        cases ro with
        | none =>
          simp only [Res.pure_eq, Res.ok.injEq, Prod.mk.injEq] at h
          obtain ⟨rfl, rfl⟩ := h
          exact ⟨rfl, ⟨hb.req, hb.kept⟩, Grow.refl _, by simp⟩
        | some idx =>
          simp only [Res.pure_eq, Res.ok.injEq, Prod.mk.injEq] at h
          obtain ⟨rfl, rfl⟩ := h
          obtain ⟨g1, g2, g3, g4⟩ := getRequest_spec { s with fastCheck := rf } idx ⟨hb.req, hb.kept⟩
          refine ⟨Same.trans (b := { s with fastCheck := rf }) rfl g1, g2, g3, ?_⟩
          intro j hj
          simp only [Option.some.injEq] at hj
          subst hj
          obtain ⟨a, b, c, d⟩ := slowFind_spec s info pp first hc _ _ _ _ _ (by simp) hr
          refine ⟨a, b, c, ?_, _, g4⟩
          simpa using d
    by_cases hf : s.fastCheck = true
    · simp only [hf, if_true] at h
      cases hr : fastFind s pp first s.sorted with
      | ub => rw [hr] at h; simp at h
      | diverge => rw [hr] at h; simp at h
      | ok r =>
        rw [hr] at h
        simp only [Res.bind_ok] at h
        cases r with
        | none => exact hslow h
        | some idx =>
          simp only [Res.pure_eq, Res.ok.injEq, Prod.mk.injEq] at h
          obtain ⟨rfl, rfl⟩ := h
          obtain ⟨g1, g2, g3, g4⟩ := getRequest_spec s idx hb
          refine ⟨g1, g2, g3, ?_⟩
          intro j hj
          simp only [Option.some.injEq] at hj
          subst hj
          obtain ⟨a, b, c, d⟩ := fastFind_spec s pp first _ _ hr
          exact ⟨a, b, idle_not_current rfl hc c, d, _, g4⟩
    · simp only [hf, Bool.false_eq_true, if_false, Res.pure_eq, Res.bind_ok] at h
      exact hslow h

theorem Same.files {s s' : St} (h : Same s s') : s'.files = s.files := by rw [h]
theorem Same.sorted {s s' : St} (h : Same s s') : s'.sorted = s.sorted := by rw [h]
theorem Same.peers {s s' : St} (h : Same s s') : s'.peers = s.peers := by rw [h]
theorem Same.infos {s s' : St} (h : Same s s') : s'.infos = s.infos := by rw [h]

theorem missing_same {s s' : St} (h : Same s s') (i : Nat) : missing s' i = missing s i := by
  simp only [missing, h.files]

theorem mem_insertNew (l : List Nat) (x y : Nat) : y ∈ insertNew l x ↔ y ∈ l ∨ y = x := by
  unfold insertNew
  split
  · next h => constructor
              · exact Or.inl
              · rintro (h' | rfl)
                · exact h'
                · exact h
  · simp

theorem nextLoop_spec (p : Nat) (pp : PP) (mx : Nat) (hmx : mx ≤ 100) (n : Nat) :
    ∀ (s s' : St) (info info' : PeerReq) (cur : Nat) (o : List BlockInfo), Base s → CurOk s.requests p info.current →
      nextLoop p pp mx n s info cur = .ok (s', info', o) →
      Same s s' ∧ Base s' ∧ Grow s.requests s'.requests ∧ CurOk s'.requests p info'.current ∧
        info'.delta = info.delta ∧ info'.group = info.group ∧ info'.suspicion = info.suspicion ∧
        (∃ t, info'.requested = info.requested ++ t) ∧
        (∃ t, info'.current.map (·.idx) = info.current.map (·.idx) ++ t ∧
          ∀ j ∈ t, missing s j = .ok true ∧ hasPiece pp j = .ok true) ∧
        (∃ xs, Sent s.files.info s'.requests info.current info'.current o xs ∧ (cur ≤ mx → cur + xs.length ≤ mx) ∧
          (mx ≤ cur → xs = [])) := by
  induction n with
  | zero => intro s s' info info' cur o _ _ h; simp [nextLoop] at h
  | succ n ih =>
    intro s s' info info' cur o hb hc h
    unfold nextLoop at h
    by_cases hlt : cur < mx
    · rw [if_pos hlt] at h
      cases hg : getBestNextRequest s info pp with
      | ub => rw [hg] at h; simp at h
      | diverge => rw [hg] at h; simp at h
      | ok g =>
        obtain ⟨s1, o1⟩ := g
        rw [hg] at h
        simp only [Res.bind_ok] at h
        obtain ⟨g1, g2, g3, g4⟩ := getBest_spec hb hc hg
        cases o1 with
        | none =>
          simp only [Res.pure_eq, Res.ok.injEq, Prod.mk.injEq] at h
          obtain ⟨rfl, rfl, rfl⟩ := h
          exact ⟨g1, g2, g3, hc.grow g3, rfl, rfl, rfl, ⟨[], by simp⟩, ⟨[], by simp⟩, [], Sent.refl _ _ _, by simp, by simp⟩
        | some idx =>
          obtain ⟨b1, b2, b3, b4, q, b5⟩ := g4 idx rfl
          simp only [b5] at h
          obtain ⟨hqi, hql⟩ := g2.req.get idx q b5
          cases hs : sendPieceRequests s1.files.info ⟨q.piece.index, 0, List.replicate q.piece.blocksState.length false⟩
              { q with active := insertNew q.active p } (mx - cur) with
          | ub => rw [hs] at h; simp at h
          | diverge => rw [hs] at h; simp at h
          | ok t =>
            obtain ⟨r1, q1, k, o1⟩ := t
            rw [hs] at h
            simp only [Res.bind_ok] at h
            -- the request with the peer among the active ones
            have hgA : Grow s1.requests (s1.requests.put idx { q with active := insertNew q.active p }) :=
              put_grow b5 rfl (fun x hx => (mem_insertNew _ _ _).2 (Or.inl hx)) rfl
            have hA : (s1.requests.put idx { q with active := insertNew q.active p }).get
                (⟨q.piece.index, 0, List.replicate q.piece.blocksState.length false⟩ : ReqPiece).idx =
                some { q with active := insertNew q.active p } := by simp [hqi, Map.get_put]
            obtain ⟨xs, hsent, hk, hkle, hidx, hbl, hcn, hpc, hqa, hqs, -⟩ :=
              send_spec hA (by omega) (by simp only; omega) (by simp [List.count_replicate]) hs
            have hgB : Grow s1.requests (s1.requests.put idx q1) := by
              refine put_grow b5 hpc ?_ hqs
              intro x hx; rw [hqa]; exact (mem_insertNew _ _ _).2 (Or.inl hx)
            have hro := put_reqOk (q' := q1) g2.req b5 (by rw [hpc]) (by rw [hpc])
            have hnotin : r1.idx ∉ info.current.map (·.idx) := by rw [hidx]; simpa [hqi] using b3
            have hc2 : CurOk (s1.requests.put idx q1) p (info.current ++ [r1]) := by
              have hcg := hc.grow (g3.trans hgB)
              refine ⟨?_, ?_⟩
              · rw [List.map_append, List.nodup_append]
                refine ⟨hc.1, by simp, ?_⟩
                intro a ha b hbb e
                simp only [List.map_cons, List.map_nil, List.mem_singleton] at hbb
                subst e; subst hbb
                exact hnotin ha
              · intro x hx
                rcases List.mem_append.1 hx with hx | hx
                · exact hcg.2 x hx
                · rw [List.mem_singleton] at hx
                  subst hx
                  refine ⟨q1, by rw [hidx]; simp [hqi, Map.get_put], ?_, ?_, hcn⟩
                  · rw [hqa]; exact (mem_insertNew _ _ _).2 (Or.inr rfl)
                  · rw [hbl, hpc]; simp
            have hsentA : Sent s1.files.info (s1.requests.put idx q1) info.current (info.current ++ [r1]) o1 xs := by
              have hx : ∀ x ∈ xs, x.1 = idx := by
                intro x hx
                rw [sent_idx hsent hidx x hx]; exact hqi
              refine ⟨hsent.out, hsent.nodup, ?_, hsent.small, ?_, ?_, ?_, ?_⟩
              · rintro x hxs ⟨r0, hr0, e, -⟩
                exact b3 (List.mem_map.2 ⟨r0, hr0, by rw [e, hx x hxs]⟩)
              · intro x hxs
                obtain ⟨q2, e1, e2⟩ := hsent.unreceived x hxs
                rw [hx x hxs] at e1 ⊢
                simp only [Map.get_put, if_true, Option.some.injEq] at e1
                subst e1
                refine ⟨q1, by simp [Map.get_put], ?_⟩
                rw [hpc]; exact e2
              · intro x
                rw [flag_append, hsent.flags]
                have : ¬ Flag [(⟨q.piece.index, 0, List.replicate q.piece.blocksState.length false⟩ : ReqPiece)] x := by
                  rintro ⟨r0, hr0, -, e⟩
                  rw [List.mem_singleton] at hr0
                  subst hr0
                  simp [List.getElem?_replicate] at e
                simp [this]
              · have := hsent.total
                simp only [total_cons, total_nil, total_append] at this ⊢
                omega
              · intro x hxs
                exact ⟨r1, by simp, by rw [hidx, hx x hxs]; exact hqi⟩
            cases hn : nextLoop p pp mx n { s1 with requests := s1.requests.put idx q1 }
                { info with current := info.current ++ [r1], requested := info.requested ++ [q.piece.index] } (cur + k) with
            | ub => rw [hn] at h; simp at h
            | diverge => rw [hn] at h; simp at h
            | ok u =>
              obtain ⟨s2, info2, o2⟩ := u
              rw [hn] at h
              simp only [Res.bind_ok, Res.pure_eq, Res.ok.injEq, Prod.mk.injEq] at h
              obtain ⟨rfl, rfl, rfl⟩ := h
              obtain ⟨c1, c2, c3, c4, c5, c6, c7, ⟨tr, c8⟩, ⟨tc, c9, c10⟩, ys, c11, c12, c13⟩ :=
                ih { s1 with requests := s1.requests.put idx q1 } s2
                { info with current := info.current ++ [r1], requested := info.requested ++ [q.piece.index] } info2 (cur + k) o2
                ⟨hro, g2.kept⟩ hc2 hn
              dsimp only at c1 c3 c5 c6 c7 c8 c9 c11
              have hSame1 : Same s { s1 with requests := s1.requests.put idx q1 } := Same.trans g1 rfl
              refine ⟨hSame1.trans c1, c2, (g3.trans hgB).trans c3, c4, c5, c6, c7, ⟨_, by rw [c8, List.append_assoc]⟩,
                ⟨idx :: tc, ?_, ?_⟩, xs ++ ys, ?_, ?_, ?_⟩
              · rw [c9]; simp [hidx, hqi]
              · intro j hj
                rcases List.mem_cons.1 hj with rfl | hj
                · exact ⟨b1, b2⟩
                · obtain ⟨d1, d2⟩ := c10 j hj
                  exact ⟨by rw [← missing_same hSame1]; exact d1, d2⟩
              · have hf : s1.files.info = s.files.info := by rw [g1.files]
                rw [hf] at hsentA c11
                refine hsentA.trans c11 c3 ?_
                intro r0 h0
                have : r0.idx ∈ info2.current.map (·.idx) := by
                  rw [c9]; exact List.mem_append_left _ (List.mem_map_of_mem h0)
                obtain ⟨r', e1, e2⟩ := List.mem_map.1 this
                exact ⟨r', e1, e2⟩
              · intro _
                have := c12 (by omega)
                simp; omega
              · intro hh; omega
    · rw [if_neg hlt] at h
      simp only [Res.ok.injEq, Prod.mk.injEq] at h
      obtain ⟨rfl, rfl, rfl⟩ := h
      exact ⟨rfl, hb, Grow.refl _, hc, rfl, rfl, rfl, ⟨[], by simp⟩, ⟨[], by simp⟩, [], Sent.refl _ _ _, by simp, by simp⟩

theorem limit_le (d : Nat) : 5 ≤ limit d ∧ limit d ≤ 100 := by unfold limit; omega

/-- What `evaluate` does for a peer whose entries fit. -/
theorem evaluate_spec {s s' : St} {p : Nat} {info : PeerReq} {as : List Act} (hb : Base s) (hi : s.infos.get p = some info)
    (hc : CurOk s.requests p info.current) (ht : total info.current ≤ 100) (h : evaluate s p = .ok (s', as)) :
    Base s' ∧ Grow s.requests s'.requests ∧ s'.files = s.files ∧ s'.sorted = s.sorted ∧ s'.checks = s.checks ∧
    s'.checking = s.checking ∧ s'.running = s.running ∧ s'.finishes = s.finishes ∧ s'.fresh = s.fresh ∧
    s'.prio = s.prio ∧ s'.groupIdx = s.groupIdx ∧
    ∃ peer info', s.peers.get p = some peer ∧
      (∀ x, s'.infos.get x = if x = p then some info' else s.infos.get x) ∧
      (∃ peer', (∀ x, s'.peers.get x = if x = p then some peer' else s.peers.get x) ∧ peer'.pieces = peer.pieces ∧
        peer'.action = peer.action ∧ peer'.choking = peer.choking) ∧
      CurOk s'.requests p info'.current ∧ info'.delta = info.delta ∧ info'.group = info.group ∧
      info'.suspicion = info.suspicion ∧
      (∃ t, info'.requested = info.requested ++ t) ∧
      (∃ t, info'.current.map (·.idx) = info.current.map (·.idx) ++ t ∧
          ∀ j ∈ t, missing s j = .ok true ∧ hasPiece peer.pieces j = .ok true) ∧
      ∃ xs o, Sent s.files.info s'.requests info.current info'.current o xs ∧
        (as = asks p peer o ∨ (xs = [] ∧ as = [.interested p])) ∧ total info'.current ≤ 100 ∧
        (xs ≠ [] → total info'.current ≤ limit info.delta) ∧ (xs ≠ [] → peer.choking = false) := by
  unfold evaluate at h
  simp only [hi] at h
  cases hp : s.peers.get p with
  | none => simp [hp] at h
  | some peer =>
    simp only [hp] at h
    have hsame : ∀ x, s.infos.get x = if x = p then some info else s.infos.get x := by
      intro x; by_cases e : x = p
      · subst e; simp [hi]
      · simp [e]
    have hsamep : ∀ x, s.peers.get x = if x = p then some peer else s.peers.get x := by
      intro x; by_cases e : x = p
      · subst e; simp [hp]
      · simp [e]
    by_cases hch : peer.choking = true
    · simp only [hch, if_true] at h
      by_cases hin : peer.interested = true
      · simp only [hin, if_true, Res.ok.injEq, Prod.mk.injEq] at h
        obtain ⟨rfl, rfl⟩ := h
        exact ⟨hb, Grow.refl _, rfl, rfl, rfl, rfl, rfl, rfl, rfl, rfl, rfl, peer, info, rfl, hsame,
          ⟨peer, hsamep, rfl, rfl, rfl⟩, hc, rfl, rfl, rfl, ⟨[], by simp⟩, ⟨[], by simp⟩, [], [], Sent.refl _ _ _,
          Or.inl (by simp [asks]), ht, by simp, by simp⟩
      · simp only [hin, Bool.false_eq_true, if_false] at h
        cases hw : hasWanted s peer.pieces s.sorted with
        | ub => rw [hw] at h; simp at h
        | diverge => rw [hw] at h; simp at h
        | ok w =>
          rw [hw] at h
          simp only [Res.bind_ok] at h
          split at h
          · simp only [Res.pure_eq, Res.ok.injEq, Prod.mk.injEq] at h
            obtain ⟨rfl, rfl⟩ := h
            exact ⟨⟨hb.req, hb.kept⟩, Grow.refl _, rfl, rfl, rfl, rfl, rfl, rfl, rfl, rfl, rfl, peer, info, rfl, hsame,
              ⟨{ peer with choking := true, interested := true }, fun x => Map.get_put _ _ _ _, rfl, rfl, hch.symm⟩, hc, rfl, rfl, rfl,
              ⟨[], by simp⟩, ⟨[], by simp⟩, [], [], Sent.refl _ _ _, Or.inr ⟨rfl, rfl⟩, ht, by simp, by simp⟩
          · simp only [Res.pure_eq, Res.ok.injEq, Prod.mk.injEq] at h
            obtain ⟨rfl, rfl⟩ := h
            exact ⟨hb, Grow.refl _, rfl, rfl, rfl, rfl, rfl, rfl, rfl, rfl, rfl, peer, info, rfl, hsame,
              ⟨peer, hsamep, rfl, rfl, rfl⟩, hc, rfl, rfl, rfl, ⟨[], by simp⟩, ⟨[], by simp⟩, [], [], Sent.refl _ _ _,
              Or.inl (by simp [asks]), ht, by simp, by simp⟩
    · simp only [hch, Bool.false_eq_true, if_false] at h
      have hu : u32 ((info.current.map (·.active)).sum) = total info.current := by
        unfold total at ht ⊢; exact u32_id (by omega)
      rw [hu] at h
      obtain ⟨hl5, hl100⟩ := limit_le info.delta
      -- the first loop
      have first : ∀ (m : St × Nat × List ReqPiece × List BlockInfo),
          firstLoop (limit info.delta) info.current s (total info.current) = Res.ok m →
          Same s m.1 ∧ Base m.1 ∧ Grow s.requests m.1.requests ∧ CurOk m.1.requests p m.2.2.1 ∧ Like info.current m.2.2.1 ∧
            (∃ xs, Sent s.files.info m.1.requests info.current m.2.2.1 m.2.2.2 xs ∧ m.2.1 = total info.current + xs.length ∧
              (xs ≠ [] → m.2.1 ≤ limit info.delta)) := by
        intro m hm
        unfold firstLoop at hm
        by_cases hlt : total info.current < limit info.delta
        · rw [if_pos hlt] at hm
          obtain ⟨a1, a2, a3, a4, a5, ⟨xs, a6, a7⟩, a8⟩ := moreLoop_spec p _ hl100 _ _ m.1 _ m.2.1 m.2.2.1 m.2.2.2 hb hc ht hlt hm
          exact ⟨a1, a2, a3, a4, a5, xs, a6, a7, fun _ => a8⟩
        · rw [if_neg hlt] at hm
          simp only [Res.ok.injEq] at hm
          subst hm
          exact ⟨rfl, hb, Grow.refl _, hc, rfl, [], Sent.refl _ _ _, by simp, by simp⟩
      cases hm : firstLoop (limit info.delta) info.current s (total info.current) with
      | ub => rw [hm] at h; simp at h
      | diverge => rw [hm] at h; simp at h
      | ok m =>
        rw [hm] at h
        simp only [Res.bind_ok] at h
        obtain ⟨f1, f2, f3, f4, f5, xs, f6, f7, f8⟩ := first m hm
        cases hn : nextLoop p peer.pieces (limit info.delta) (s.sorted.length + 1) m.1 { info with current := m.2.2.1 } m.2.1 with
        | ub => rw [hn] at h; simp at h
        | diverge => rw [hn] at h; simp at h
        | ok u =>
          rw [hn] at h
          simp only [Res.bind_ok, Res.pure_eq, Res.ok.injEq, Prod.mk.injEq] at h
          obtain ⟨rfl, rfl⟩ := h
          obtain ⟨c1, c2, c3, c4, c5, c6, c7, ⟨tr, c8⟩, ⟨tc, c9, c10⟩, ys, c11, c12, c13⟩ :=
            nextLoop_spec p peer.pieces _ hl100 _ m.1 u.1 { info with current := m.2.2.1 } u.2.1 m.2.1 u.2.2 f2 f4 hn
          have hS : Same s u.1 := f1.trans c1
          have hfi : m.1.files.info = s.files.info := by rw [f1.files]
          rw [hfi] at c11
          have htot := (f6.trans c11 c3 (by
            intro r0 h0
            have : r0.idx ∈ u.2.1.current.map (·.idx) := by
              rw [c9]; exact List.mem_append_left _ (List.mem_map_of_mem h0)
            obtain ⟨r', e1, e2⟩ := List.mem_map.1 this
            exact ⟨r', e1, e2⟩))
          refine ⟨⟨c2.req, c2.kept⟩, f3.trans c3, by dsimp only; rw [hS], by dsimp only; rw [hS], by dsimp only; rw [hS],
            by dsimp only; rw [hS], by dsimp only; rw [hS], by dsimp only; rw [hS], by dsimp only; rw [hS],
            by dsimp only; rw [hS], by dsimp only; rw [hS], peer, u.2.1, rfl,
            ?_, ⟨peer, ?_, rfl, rfl, rfl⟩, c4, c5, c6, c7, ⟨tr, c8⟩, ⟨tc, ?_, ?_⟩, xs ++ ys, _, htot, Or.inl rfl, ?_, ?_, ?_⟩
          · intro x
            simp only [Map.get_put]
            rw [hS.infos]
          · intro x
            dsimp only
            rw [hS.peers]
            exact hsamep x
          · rw [c9, f5]
          · intro j hj
            obtain ⟨d1, d2⟩ := c10 j hj
            exact ⟨by rw [← missing_same f1]; exact d1, d2⟩
          · rw [htot.total]
            have := c12
            by_cases hle : m.2.1 ≤ limit info.delta
            · have := c12 hle; simp; omega
            · have hy := c13 (by omega)
              have hx : xs = [] := by
                by_cases hx : xs = []
                · exact hx
                · exact absurd (f8 hx) hle
              simp [hx, hy]; omega
          · intro hne
            rw [htot.total]
            by_cases hle : m.2.1 ≤ limit info.delta
            · have := c12 hle; simp; omega
            · have hy := c13 (by omega)
              have hx : xs = [] := by
                by_cases hx : xs = []
                · exact hx
                · exact absurd (f8 hx) hle
              simp [hx, hy] at hne
          · intro _; simpa using hch

end Verif.Downloader
