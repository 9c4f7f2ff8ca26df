import Verif.Proof.DownloaderPolite
import Verif.Proof.DownloaderVerify
import Verif.Proof.Bitfield
/-! When the downloader stays within its tables (C69). -/

namespace Verif.Downloader
open Verif Layout Progress PieceState Spec Spec.Download

theorem ok_bind {α β : Type} {x : Res α} {f : α → Res β} (h : ∃ a, x = .ok a ∧ ∃ b, f a = .ok b) :
    ∃ b, (x >>= f) = .ok b := by
  obtain ⟨a, rfl, b, hb⟩ := h
  exact ⟨b, hb⟩

theorem sendLoop_safe (i : Info) (bs : List UInt8) (bc max : Nat) (hb : 0 < bc) (hbs : bc ≤ bs.length) (n : Nat) :
    ∀ (next count : Nat) (r : ReqPiece), next < bc → r.blocks.length = bs.length →
      ∃ t, sendLoop i bs bc max n next count r = .ok t := by
  induction n with
  | zero => intro next count r _ _; exact ⟨_, rfl⟩
  | succ n ih =>
    intro next count r hn hr
    unfold sendLoop
    rw [rd_eq_ok (show next < bs.length by omega), rd_eq_ok (show next < r.blocks.length by omega)]
    simp only [Res.bind_ok, Res.pure_eq]
    have tail : ∀ f : Bool, ∃ t, (if (if f = true then count + 1 else count) = max then
          Res.ok (if f = true then { r with blocks := r.blocks.set next true, active := u32 (r.active + 1) } else r,
            if f = true then count + 1 else count, if f = true then [getPieceBlockInfo i r.idx next] else [])
        else do
          let t ← sendLoop i bs bc max n ((next + 1) % bc) (if f = true then count + 1 else count)
            (if f = true then { r with blocks := r.blocks.set next true, active := u32 (r.active + 1) } else r)
          Res.ok (t.1, t.2.1, (if f = true then [getPieceBlockInfo i r.idx next] else []) ++ t.2.2)) = .ok t := by
      intro f
      by_cases hm : (if f = true then count + 1 else count) = max
      · rw [if_pos hm]; exact ⟨_, rfl⟩
      · rw [if_neg hm]
        refine ok_bind ?_
        obtain ⟨t, ht⟩ := ih ((next + 1) % bc) (if f = true then count + 1 else count)
          (if f = true then { r with blocks := r.blocks.set next true, active := u32 (r.active + 1) } else r)
          (Nat.mod_lt _ hb) (by split <;> simp [hr])
        exact ⟨t, ht, _, rfl⟩
    split
    · exact tail _
    · exact tail false

theorem send_safe {i : Info} {r : ReqPiece} {q : Req} {max : Nat} (h0 : 0 < q.piece.blocksState.length)
    (h1 : q.piece.blocksState.length < 65536) (hr : r.blocks.length = q.piece.blocksState.length) :
    ∃ t, sendPieceRequests i r q max = .ok t := by
  unfold sendPieceRequests
  simp only [Nat.mod_eq_of_lt h1]
  rw [if_neg (by omega)]
  refine ok_bind ?_
  obtain ⟨t, ht⟩ := sendLoop_safe i q.piece.blocksState q.piece.blocksState.length max h0 (Nat.le_refl _)
    q.piece.blocksState.length (q.counter % q.piece.blocksState.length) 0 r (Nat.mod_lt _ h0) hr
  exact ⟨t, ht, _, rfl⟩

/-- The blocks of every piece can be counted in 16 bits, and there are some. -/
def Small (i : Info) : Prop :=
  ∀ idx, idx < i.piecesCount → 0 < getPieceBlocksCount i idx ∧ getPieceBlocksCount i idx < 65536

theorem moreLoop_safe (p mx : Nat) (hmx : mx ≤ 100) (c : List ReqPiece) : ∀ (s : St) (cur : Nat), Small s.files.info → Base s →
    CurOk s.requests p c → total c ≤ 100 → (∀ r ∈ c, r.idx < s.files.info.piecesCount) → cur < mx →
    ∃ t, moreLoop mx c s cur = .ok t := by
  induction c with
  | nil => intro s cur _ _ _ _ _ _; exact ⟨_, rfl⟩
  | cons r rs ih =>
    intro s cur hsm hb hc ht hx hlt
    obtain ⟨q, hq, hpa, hlen, hact⟩ := hc.2 r (by simp)
    obtain ⟨hqi, hql⟩ := hb.req.get _ q hq
    obtain ⟨g1, g2⟩ := hsm r.idx (hx r (by simp))
    obtain ⟨t, hs⟩ := send_safe (i := s.files.info) (r := r) (q := q) (max := mx - cur) (by omega) (by omega) hlen
    simp only [total_cons] at ht
    obtain ⟨xs, hsent, hn, hnle, hidx, hbl, hcn, hpc, hqa, hqs, -⟩ :=
      send_spec (m := s.requests) (r' := t.1) (q' := t.2.1) (n := t.2.2.1) (o := t.2.2.2) hq (by omega) (by omega) hact hs
    have hg : Grow s.requests (s.requests.put r.idx t.2.1) := put_grow hq hpc (by intro x hx; rw [hqa]; exact hx) hqs
    have hro := put_reqOk (q' := t.2.1) hb.req hq (by rw [hpc]) (by rw [hpc])
    unfold moreLoop
    rw [getRequest_have hq]
    dsimp only
    rw [hs]
    simp only [Res.bind_ok]
    split
    · exact ⟨_, rfl⟩
    · refine ok_bind ?_
      have hc' : CurOk (s.requests.put r.idx t.2.1) p rs := by
        have := hc.grow hg
        refine ⟨?_, fun x hx => this.2 x (List.mem_cons_of_mem _ hx)⟩
        have := this.1
        simp only [List.map_cons, List.nodup_cons] at this
        exact this.2
      obtain ⟨u, hu⟩ := ih { s with requests := s.requests.put r.idx t.2.1 } (cur + t.2.2.1) hsm ⟨hro, hb.kept⟩ hc' (by omega)
        (fun x h => hx x (List.mem_cons_of_mem _ h)) (by omega)
      exact ⟨u, hu, _, rfl⟩

theorem missing_safe {s : St} (hl : s.files.progress.pieces.length = s.files.info.piecesCount) {i : Nat}
    (hi : i < s.files.info.piecesCount) : ∃ b, missing s i = .ok b := by
  unfold missing wantedPiece
  rw [rd_eq_ok (by omega)]
  exact ⟨_, rfl⟩

theorem hasPiece_safe {pp : PP} {i : Nat} (h : i < pp.pieces.length) : ∃ b, hasPiece pp i = .ok b := by
  unfold hasPiece
  split
  · exact ⟨_, rfl⟩
  · rw [rd_eq_ok h]; exact ⟨_, rfl⟩

theorem fastFind_safe {s : St} {pp : PP} (hl : s.files.progress.pieces.length = s.files.info.piecesCount)
    (hp : s.files.info.piecesCount ≤ pp.pieces.length) (first : Nat) (l : List (Nat × Nat))
    (hx : ∀ x ∈ l, x.1 < s.files.info.piecesCount) : ∃ t, fastFind s pp first l = .ok t := by
  induction l with
  | nil => exact ⟨_, rfl⟩
  | cons e l ih =>
    obtain ⟨idx, pr⟩ := e
    unfold fastFind
    split
    · exact ⟨_, rfl⟩
    · have hi : idx < s.files.info.piecesCount := hx (idx, pr) (by simp)
      obtain ⟨m, hm⟩ := missing_safe hl hi
      obtain ⟨h, hh⟩ := hasPiece_safe (pp := pp) (i := idx) (by omega)
      rw [hm]
      simp only [Res.bind_ok, Res.pure_eq, hh]
      have hx' : ∀ x ∈ l, x.1 < s.files.info.piecesCount := fun x h => hx x (List.mem_cons_of_mem _ h)
      split
      · split
        · exact ⟨_, rfl⟩
        · exact ih hx'
      · split
        · exact ⟨_, rfl⟩
        · exact ih hx'

theorem slowFind_safe {s : St} {pp : PP} (hl : s.files.progress.pieces.length = s.files.info.piecesCount)
    (hp : s.files.info.piecesCount ≤ pp.pieces.length) (info : PeerReq) (first : Nat) (l : List (Nat × Nat)) :
    ∀ (last : Nat) (shared : List Nat), (∀ x ∈ l, x.1 < s.files.info.piecesCount) →
      ∃ t, slowFind s info pp first l last shared = .ok t := by
  induction l with
  | nil => intro last shared _; exact ⟨_, rfl⟩
  | cons e l ih =>
    intro last shared hx
    obtain ⟨idx, pr⟩ := e
    have hx' : ∀ x ∈ l, x.1 < s.files.info.piecesCount := fun x h => hx x (List.mem_cons_of_mem _ h)
    have hi : idx < s.files.info.piecesCount := hx (idx, pr) (by simp)
    obtain ⟨m, hm⟩ := missing_safe hl hi
    obtain ⟨h, hh⟩ := hasPiece_safe (pp := pp) (i := idx) (by omega)
    unfold slowFind
    rw [hm]
    simp only [Res.bind_ok, Res.pure_eq, hh]
    split
    · split
      · split
        · exact ⟨_, rfl⟩
        · split
          · exact ⟨_, rfl⟩
          · split
            · exact ih _ _ hx'
            · exact ih _ _ hx'
      · exact ih _ _ hx'
    · simp only [Bool.false_eq_true, if_false]
      exact ih _ _ hx'

theorem getBest_safe {s : St} {pp : PP} (hl : s.files.progress.pieces.length = s.files.info.piecesCount)
    (hp : s.files.info.piecesCount ≤ pp.pieces.length) (hx : ∀ x ∈ s.sorted, x.1 < s.files.info.piecesCount)
    (info : PeerReq) : ∃ t, getBestNextRequest s info pp = .ok t := by
  unfold getBestNextRequest
  split
  · exact ⟨_, rfl⟩
  · next x first rest e =>
    obtain ⟨t, ht⟩ := slowFind_safe hl hp info first s.sorted first [] hx
    have tail : ∀ f : Option Nat, ∃ t, (match f with
        | some idx => pure ((getRequest s idx).1, some idx)
        | none => do
          let r ← slowFind s info pp first s.sorted first []
          let s := { s with fastCheck := r.2 }
          match r.1 with
          | some idx => pure ((getRequest s idx).1, some idx)
          | none => pure (s, none) : Res (St × Option Nat)) = .ok t := by
      intro f
      split
      · exact ⟨_, rfl⟩
      · refine ok_bind ⟨t, ht, ?_⟩
        dsimp only
        split
        · exact ⟨_, rfl⟩
        · exact ⟨_, rfl⟩
    dsimp only
    split
    · obtain ⟨f, hf⟩ := fastFind_safe hl hp first s.sorted hx
      exact ok_bind ⟨f, hf, tail f⟩
    · exact tail none

/-- The selected pieces not yet asked for. -/
def left (l : List (Nat × Nat)) (c : List Nat) : Nat := ((l.map (·.1)).filter fun i => i ∉ c).length

theorem left_lt {l : List (Nat × Nat)} {c : List Nat} {i : Nat} (hi : i ∈ l.map (·.1)) (hc : i ∉ c) :
    left l (c ++ [i]) < left l c := by
  unfold left
  have e : (l.map (·.1)).filter (fun j => j ∉ c ++ [i]) = ((l.map (·.1)).filter fun j => j ∉ c).filter fun j => j ≠ i := by
    rw [List.filter_filter]
    congr 1
    funext j
    by_cases h1 : j ∈ c <;> by_cases h2 : j = i <;> simp [h1, h2]
  rw [e]
  refine List.length_filter_lt_length_iff_exists.2 ⟨i, ?_, by simp⟩
  simp only [List.mem_filter, decide_eq_true_eq]
  exact ⟨hi, by simpa using hc⟩

theorem nextLoop_safe (p : Nat) (pp : PP) (mx : Nat) (hmx : mx ≤ 100) (n : Nat) :
    ∀ (s : St) (info : PeerReq) (cur : Nat), Small s.files.info → Base s → CurOk s.requests p info.current →
      s.files.progress.pieces.length = s.files.info.piecesCount → s.files.info.piecesCount ≤ pp.pieces.length →
      (∀ x ∈ s.sorted, x.1 < s.files.info.piecesCount) → left s.sorted (info.current.map (·.idx)) < n →
      ∃ t, nextLoop p pp mx n s info cur = .ok t := by
  induction n with
  | zero => intro s info cur _ _ _ _ _ _ h; omega
  | succ n ih =>
    intro s info cur hsm hb hc hl hp hx hn
    unfold nextLoop
    split
    · next hlt =>
      obtain ⟨g, hg⟩ := getBest_safe hl hp hx info
      obtain ⟨g1, g2, g3, g4⟩ := getBest_spec (s' := g.1) (o := g.2) hb hc hg
      rw [hg]
      simp only [Res.bind_ok]
      split
      · exact ⟨_, rfl⟩
      · next idx e =>
        obtain ⟨b1, b2, b3, b4, q, b5⟩ := g4 idx e
        simp only [b5]
        obtain ⟨hqi, hql⟩ := g2.req.get idx q b5
        have hf : g.1.files = s.files := by rw [g1.files]
        have hso : g.1.sorted = s.sorted := by rw [g1]
        obtain ⟨k1, k2⟩ := hsm idx (by
          obtain ⟨x, h1, h2⟩ := List.mem_map.1 b4
          rw [← h2]; exact hx x h1)
        rw [hf] at hql
        obtain ⟨t, hs⟩ := send_safe (i := g.1.files.info)
          (r := ⟨q.piece.index, 0, List.replicate q.piece.blocksState.length false⟩)
          (q := { q with active := insertNew q.active p }) (max := mx - cur) (by dsimp only; omega) (by dsimp only; omega) (by simp)
        rw [hs]
        simp only [Res.bind_ok]
        refine ok_bind ?_
        have hA : (g.1.requests.put idx { q with active := insertNew q.active p }).get
            (⟨q.piece.index, 0, List.replicate q.piece.blocksState.length false⟩ : ReqPiece).idx =
            some { q with active := insertNew q.active p } := by simp [hqi, Map.get_put]
        obtain ⟨xs, hsent, hk, hkle, hidx, hbl, hcn, hpc, hqa, hqs, -⟩ :=
          send_spec (r' := t.1) (q' := t.2.1) (n := t.2.2.1) (o := t.2.2.2) hA (by omega) (by simp only; omega)
            (by simp [List.count_replicate]) hs
        have hgB : Grow g.1.requests (g.1.requests.put idx t.2.1) := by
          refine put_grow b5 hpc ?_ hqs
          intro x hx; rw [hqa]; exact (mem_insertNew _ _ _).2 (Or.inl hx)
        have hro := put_reqOk (q' := t.2.1) g2.req b5 (by rw [hpc]) (by rw [hpc])
        have hti : t.1.idx = idx := by rw [hidx]; exact hqi
        have hc2 : CurOk (g.1.requests.put idx t.2.1) p (info.current ++ [t.1]) := by
          have hcg := hc.grow (g3.trans hgB)
          refine ⟨?_, ?_⟩
          · rw [List.map_append, List.nodup_append]
            refine ⟨hc.1, by simp, ?_⟩
            intro a ha b hbb e
            simp only [List.map_cons, List.map_nil, List.mem_singleton] at hbb
            subst e; subst hbb
            exact b3 (by rw [← hti]; exact ha)
          · intro x hx
            rcases List.mem_append.1 hx with hx | hx
            · exact hcg.2 x hx
            · rw [List.mem_singleton] at hx
              subst hx
              refine ⟨t.2.1, by rw [hti]; simp [Map.get_put], ?_, ?_, hcn⟩
              · rw [hqa]; exact (mem_insertNew _ _ _).2 (Or.inr rfl)
              · rw [hbl, hpc]; simp
        obtain ⟨u, hu⟩ := ih { g.1 with requests := g.1.requests.put idx t.2.1 }
          { info with current := info.current ++ [t.1], requested := info.requested ++ [q.piece.index] } (cur + t.2.2.1)
          (by dsimp only; rw [hf]; exact hsm) ⟨hro, g2.kept⟩ hc2 (by dsimp only; rw [hf]; exact hl)
          (by dsimp only; rw [hf]; exact hp) (by dsimp only; rw [hf, hso]; exact hx) (by
            dsimp only
            rw [hso, List.map_append]
            simp only [List.map_cons, List.map_nil, hti]
            have := left_lt b4 b3
            omega)
        exact ⟨u, hu, _, rfl⟩
    · exact ⟨_, rfl⟩

theorem hasWanted_safe {s : St} {pp : PP} (hl : s.files.progress.pieces.length = s.files.info.piecesCount)
    (l : List (Nat × Nat)) (hx : ∀ x ∈ l, x.1 < s.files.info.piecesCount) : ∃ t, hasWanted s pp l = .ok t := by
  induction l with
  | nil => exact ⟨_, rfl⟩
  | cons e l ih =>
    obtain ⟨idx, pr⟩ := e
    unfold hasWanted
    split
    · exact ⟨_, rfl⟩
    · next hp =>
      have hi : idx < s.files.info.piecesCount := hx (idx, pr) (by simp)
      obtain ⟨m, hm⟩ := missing_safe hl hi
      obtain ⟨h, hh⟩ := hasPiece_safe (pp := pp) (i := idx) (by omega)
      rw [hm]
      simp only [Res.bind_ok, Res.pure_eq, hh]
      have hx' : ∀ x ∈ l, x.1 < s.files.info.piecesCount := fun x h => hx x (List.mem_cons_of_mem _ h)
      split
      · split
        · exact ⟨_, rfl⟩
        · exact ih hx'
      · split
        · exact ⟨_, rfl⟩
        · exact ih hx'

theorem Honest.len {n : Nat} {pp : PP} {f : Nat → Bool} (h : Honest n pp f) : n ≤ pp.pieces.length := by
  obtain ⟨l, h1, -, h3, -⟩ := h
  rw [h1]; simpa using h3

theorem Want.entLt {s : St} {sd : Nat → Nat → Bool} (hw : Want s sd) {p : Nat} {i : PeerReq} {r : ReqPiece}
    (hi : s.infos.get p = some i) (hr : r ∈ i.current) : r.idx < s.files.info.piecesCount := by
  have := missing_lt (hw.ent p i r hi hr).1
  rw [hw.len] at this; exact this

theorem evaluate_safe {s : St} {sd : Nat → Nat → Bool} (hI : Inv s) (hw : Want s sd) (hsm : Small s.files.info)
    (hx : ∀ x ∈ s.sorted, x.1 < s.files.info.piecesCount) (p : Nat) : ∃ t, evaluate s p = .ok t := by
  unfold evaluate
  cases hi : s.infos.get p with
  | none => exact ⟨_, rfl⟩
  | some info =>
    obtain ⟨peer, hp, hh⟩ := hw.peers p info hi
    obtain ⟨hc, ht⟩ := hI.cur p info hi
    simp only [hp]
    split
    · split
      · exact ⟨_, rfl⟩
      · refine ok_bind ?_
        obtain ⟨w, hw'⟩ := hasWanted_safe (pp := peer.pieces) hw.len s.sorted hx
        refine ⟨w, hw', ?_⟩
        split <;> exact ⟨_, rfl⟩
    · have hu : u32 ((info.current.map (·.active)).sum) = total info.current := by
        unfold total at ht ⊢; exact u32_id (by omega)
      rw [hu]
      obtain ⟨hl5, hl100⟩ := limit_le info.delta
      have first : ∃ m, firstLoop (limit info.delta) info.current s (total info.current) = .ok m ∧ Same s m.1 ∧ Base m.1 ∧
          CurOk m.1.requests p m.2.2.1 := by
        unfold firstLoop
        split
        · next hlt =>
          obtain ⟨m, hm⟩ := moreLoop_safe p _ hl100 info.current s (total info.current) hsm hI.base hc ht
            (fun r hr => hw.entLt hi hr) hlt
          obtain ⟨a1, a2, a3, a4, -⟩ := moreLoop_spec p _ hl100 _ _ m.1 _ m.2.1 m.2.2.1 m.2.2.2 hI.base hc ht hlt hm
          exact ⟨m, hm, a1, a2, a4⟩
        · exact ⟨_, rfl, rfl, hI.base, hc⟩
      obtain ⟨m, hm, f1, f2, f4⟩ := first
      have hf : m.1.files = s.files := by rw [f1.files]
      have hso : m.1.sorted = s.sorted := by rw [f1]
      refine ok_bind ⟨m, hm, ok_bind ?_⟩
      obtain ⟨u, hu⟩ := nextLoop_safe p peer.pieces _ hl100 (s.sorted.length + 1) m.1 { info with current := m.2.2.1 } m.2.1
        (by rw [hf]; exact hsm) f2 f4 (by rw [hf]; exact hw.len) (by rw [hf]; exact hh.len) (by rw [hf, hso]; exact hx) (by
          rw [hso]
          have := List.length_filter_le (fun i => decide (i ∉ m.2.2.1.map (·.idx))) (s.sorted.map (·.1))
          unfold left
          simp only [List.length_map] at this
          exact Nat.lt_succ_of_le this)
      exact ⟨u, hu, _, rfl⟩

theorem evaluate_sorted {s s' : St} {p : Nat} {as : List Act} (hI : Inv s) (h : evaluate s p = .ok (s', as)) :
    s'.sorted = s.sorted := by
  cases hi : s.infos.get p with
  | none =>
    simp only [evaluate, hi, Res.ok.injEq, Prod.mk.injEq] at h
    rw [h.1]
  | some info =>
    obtain ⟨hc, ht⟩ := hI.cur p info hi
    obtain ⟨-, -, -, e, -⟩ := evaluate_spec hI.base hi hc ht h
    exact e

theorem evaluateAll_safe (ps : List Nat) : ∀ {s : St} {sd : Nat → Nat → Bool}, Inv s → Want s sd → Small s.files.info →
    (∀ x ∈ s.sorted, x.1 < s.files.info.piecesCount) → ∃ t, evaluateAll ps s = .ok t ∧ t.1.sorted = s.sorted := by
  induction ps with
  | nil => intro s sd _ _ _ _; exact ⟨_, rfl, rfl⟩
  | cons p ps ih =>
    intro s sd hI hw hsm hx
    obtain ⟨t, ht⟩ := evaluate_safe hI hw hsm hx p
    have hso := evaluate_sorted hI (s' := t.1) (as := t.2) ht
    obtain ⟨w1, -, -, w2⟩ := evaluate_want hI hw (s' := t.1) (as := t.2) ht
    obtain ⟨u, hu, hs⟩ := ih (evaluate_trans hI (s' := t.1) (as := t.2) ht).1.inv w1 (by rw [w2]; exact hsm)
      (by rw [hso, w2]; exact hx)
    unfold evaluateAll
    rw [ht]
    simp only [Res.bind_ok]
    rw [hu]
    exact ⟨_, rfl, by simp [hs, hso]⟩

theorem dropLoop_safe (l : List Nat) : ∀ {s : St}, s.files.progress.pieces.length = s.files.info.piecesCount →
    (∀ i ∈ l, i < s.files.info.piecesCount) → ∃ t, dropLoop s l = .ok t ∧ t.1.sorted = s.sorted := by
  induction l with
  | nil => intro s _ _; exact ⟨_, rfl, rfl⟩
  | cons i l ih =>
    intro s hl hx
    obtain ⟨m, hm⟩ := missing_safe hl (hx i (by simp))
    have hx' : ∀ j ∈ l, j < s.files.info.piecesCount := fun j h => hx j (List.mem_cons_of_mem _ h)
    unfold dropLoop
    rw [hm]
    simp only [Res.bind_ok]
    split
    · exact ih hl hx'
    · obtain ⟨t, ht, hs⟩ := ih (s := { s with
        requests := s.requests.del i
        infos := s.infos.mapAll fun _ j => { j with current := dropEntry i j.current } }) hl hx'
      rw [ht]
      exact ⟨_, rfl, hs⟩

theorem refresh_safe {s : St} {sd : Nat → Nat → Bool} {order : List (Nat × Nat)} (hI : Inv s)
    (hl : s.files.progress.pieces.length = s.files.info.piecesCount)
    (hp : ∀ p i, s.infos.get p = some i →
      ∃ peer, s.peers.get p = some peer ∧ Honest s.files.info.piecesCount peer.pieces (sd p))
    (he : ∀ p i r, s.infos.get p = some i → r ∈ i.current → sd p r.idx = true) (hsm : Small s.files.info)
    (hq : ∀ i, HasReq s i → i < s.files.info.piecesCount)
    (hx : ∀ x ∈ order, x.1 < s.files.info.piecesCount) :
    ∃ t, refreshSelection s order = .ok t ∧ t.1.sorted = order := by
  unfold refreshSelection
  have hq1 : Quiet s { s with sorted := order } := Quiet.of_eq rfl rfl rfl rfl
  have hI1 := hq1.inv hI
  obtain ⟨t, ht, hs⟩ := dropLoop_safe (s.requests.map (·.1)) (s := { s with sorted := order }) hl (by
    intro i hi
    obtain ⟨x, h1, rfl⟩ := List.mem_map.1 hi
    exact hq x.1 ⟨x.2, h1⟩)
  obtain ⟨t1, -, -⟩ := dropLoop_trans _ hI1 (s' := t.1) (as := t.2) ht
  obtain ⟨r1, -, -, r4⟩ := dropLoop_want (sd := sd) _ hI1 hl hp (by
    intro p i r hi hr
    refine ⟨Or.inl ?_, he p i r hi hr⟩
    obtain ⟨q, q1, -⟩ := (hI1.cur p i hi).1.2 r hr
    exact List.mem_map.2 ⟨_, Map.get_mem q1, rfl⟩) (s' := t.1) (as := t.2) ht
  rw [ht]
  simp only [Res.bind_ok]
  split
  · exact ⟨_, rfl, hs⟩
  · obtain ⟨u, hu, hus⟩ := evaluateAll_safe (t.1.infos.map (·.1)) t1.inv r1 (by rw [r4]; exact hsm) (by
      rw [hs, r4]; exact hx)
    rw [hu]
    exact ⟨_, rfl, by simp [hus, hs]⟩

theorem addPiece_safe {pp : PP} {i : Nat} (h : i < pp.pieces.length) : ∃ t, addPiece pp i = .ok t := by
  unfold addPiece
  dsimp only
  rw [if_neg (by omega)]
  obtain ⟨b, hb⟩ := hasPiece_safe h
  rw [hb]
  simp only [Res.bind_ok]
  split
  · unfold wantedPiece
    rw [rd_eq_ok h]
    exact ⟨_, rfl⟩
  · exact ⟨_, rfl⟩

theorem removePiece_safe {pp : PP} {i : Nat} (h : i < pp.pieces.length) : ∃ t, removePiece pp i = .ok t := by
  unfold removePiece
  obtain ⟨b, hb⟩ := hasPiece_safe h
  rw [hb]
  simp only [Res.bind_ok]
  split
  · unfold selectedPiece
    rw [rd_eq_ok h]
    exact ⟨_, rfl⟩
  · exact ⟨_, rfl⟩

theorem fromBitfieldLoop_safe (bf : List UInt8) (n : Nat) : ∀ (i : Nat) (s : PP), i + n ≤ s.pieces.length →
    i + n ≤ 16777216 → i + n ≤ 8 * bf.length → ∃ t, fromBitfieldLoop bf i n s = .ok t := by
  induction n with
  | zero => intro i s _ _ _; exact ⟨_, rfl⟩
  | succ n ih =>
    intro i s h1 h2 h3
    unfold fromBitfieldLoop
    rw [byteIdx_small i (by omega), rd_eq_ok (show i / 8 < bf.length by omega), rd_eq_ok (show i < s.pieces.length by omega)]
    simp only [Res.bind_ok]
    exact ih _ _ (by simp; omega) (by omega) (by omega)

theorem toBitfieldLoop_safe (s : PP) (n : Nat) : ∀ (i : Nat) (d : List UInt8), i + n ≤ s.pieces.length →
    i + n ≤ 16777216 → i + n ≤ 8 * d.length → ∃ t, toBitfieldLoop s i n d = .ok t := by
  induction n with
  | zero => intro i d _ _ _; exact ⟨_, rfl⟩
  | succ n ih =>
    intro i d h1 h2 h3
    unfold toBitfieldLoop bfPut
    obtain ⟨b, hb⟩ := hasPiece_safe (pp := s) (i := i) (by omega)
    rw [hb, byteIdx_small i (by omega), rd_eq_ok (show i / 8 < d.length by omega)]
    simp only [Res.bind_ok, Res.pure_eq]
    split
    · exact ih _ _ (by omega) (by omega) (by simp; omega)
    · exact ih _ _ (by omega) (by omega) (by omega)

theorem toBitfield_safe {pp : PP} (h : pp.pieces.length ≤ 16777216) : ∃ t, toBitfield pp = .ok t := by
  unfold toBitfield
  refine toBitfieldLoop_safe pp _ 0 _ (by omega) (by omega) ?_
  have : toFloat pp.pieces.length = pp.pieces.length := by
    unfold toFloat
    split
    · rfl
    · have : pp.pieces.length = 16777216 := by omega
      rw [this]; decide
  simp only [bfInit, List.length_replicate, this]
  omega

theorem takeBlock_safe {s : St} {p group : Nat} {b : BlockInfo} (hI : Inv s)
    (hl : s.files.progress.pieces.length = s.files.info.piecesCount)
    (hq : ∀ i, HasReq s i → i < s.files.info.piecesCount) :
    ∃ t, takeBlock s p group b = .ok t ∧ t.1.sorted = s.sorted ∧ t.1.files.info = s.files.info ∧
      t.1.files.selection = s.files.selection := by
  unfold takeBlock
  cases h : s.requests.get b.index with
  | none => exact ⟨_, rfl, rfl, rfl, rfl⟩
  | some q =>
    have hi := hq b.index (HasReq.get h)
    obtain ⟨e, -⟩ := hI.base.req.get _ q h
    dsimp only
    split
    · split
      · have e2 : (addBlock q.piece b).2.index = b.index := by
          rw [← e]; unfold addBlock; split <;> rfl
        rw [e2]
        obtain ⟨m, hm⟩ := missing_safe hl hi
        obtain ⟨pr, hp⟩ := addPiece_safe (pp := s.files.progress) (i := b.index) (by omega)
        rw [hm, hp]
        exact ⟨_, rfl, rfl, rfl, rfl⟩
      · exact ⟨_, rfl, rfl, rfl, rfl⟩
    · exact ⟨_, rfl, rfl, rfl, rfl⟩

theorem answer_safe {b : BlockInfo} (c : List ReqPiece)
    (h : ∀ r ∈ c, r.idx = b.index → blockIdx b.begin < r.blocks.length) : ∃ t, answer b c = .ok t := by
  induction c with
  | nil => exact ⟨_, rfl⟩
  | cons r c ih =>
    unfold answer
    split
    · next e =>
      rw [rd_eq_ok (h r (by simp) e)]
      exact ⟨_, rfl⟩
    · obtain ⟨t, ht⟩ := ih fun x hx => h x (List.mem_cons_of_mem _ hx)
      rw [ht]
      exact ⟨_, rfl⟩

theorem piece_safe {s : St} {sd : Nat → Nat → Bool} {p : Nat} {b : BlockInfo} {delta : Nat} (hI : Inv s) (hw : Want s sd)
    (hsm : Small s.files.info) (hx : ∀ x ∈ s.sorted, x.1 < s.files.info.piecesCount)
    (hq : ∀ i, HasReq s i → i < s.files.info.piecesCount)
    (hs : b.index < s.files.info.piecesCount → b.begin / 16384 < getPieceBlocksCount s.files.info b.index) :
    ∃ t, pieceBlockReceived s p b delta = .ok t ∧ t.1.sorted = s.sorted ∧
      t.1.files.selection = s.files.selection := by
  unfold pieceBlockReceived
  cases hi : s.infos.get p with
  | none => exact ⟨_, rfl, rfl, rfl⟩
  | some info =>
    dsimp only
    obtain ⟨hc, ht⟩ := hI.cur p info hi
    obtain ⟨o, ha⟩ := answer_safe (b := b) info.current (by
      intro r hr e
      obtain ⟨q, q1, -, q3, -⟩ := hc.2 r hr
      obtain ⟨-, q4⟩ := hI.base.req.get _ q q1
      have := hs (by rw [← e]; exact hw.entLt hi hr)
      rw [q3, q4, e]
      exact this)
    unfold addPeerBlockResponse
    rw [ha]
    simp only [Res.bind_ok]
    obtain ⟨an1, an2⟩ := answer_spec b s.requests p info.current o hc ht ha
    have key : ∀ (info' : PeerReq) (asked : Bool), CurOk s.requests p info'.current → total info'.current ≤ 100 →
        info'.current.map (·.idx) = info.current.map (·.idx) →
        ∃ t, (if asked = true then do
            let t ← takeBlock { s with infos := s.infos.put p info' } p info'.group b
            let u ← evaluate t.1 p
            pure (u.1, t.2 ++ u.2)
          else pure ({ s with infos := s.infos.put p info' }, [])) = Res.ok t ∧ t.1.sorted = s.sorted ∧
            t.1.files.selection = s.files.selection := by
      intro info' asked c1 c2 c3
      split
      · have hI1 : Inv { s with infos := s.infos.put p info' } := by
          refine ⟨⟨hI.base.req, hI.base.kept⟩, ?_⟩
          intro x i hx
          rw [Map.get_put] at hx
          by_cases e : x = p
          · subst e
            simp only [if_true, Option.some.injEq] at hx
            subst hx
            exact ⟨c1, c2⟩
          · rw [if_neg e] at hx; exact hI.cur x i hx
        obtain ⟨w1, n1⟩ := put_want (info' := info') hw hi (by
          intro r hr
          have : r.idx ∈ info'.current.map (·.idx) := List.mem_map_of_mem hr
          rw [c3] at this
          obtain ⟨r0, hr0, e⟩ := List.mem_map.1 this
          exact ⟨r0, hr0, e⟩)
        obtain ⟨t, ht, e1, e2, e4⟩ := takeBlock_safe (p := p) (group := info'.group) (b := b) hI1 w1.len hq
        have hI2 := (takeBlock_trans hI1 (s' := t.1) (as := t.2) ht).inv
        obtain ⟨u, hu⟩ := evaluate_safe hI2 (takeBlock_want hI1 w1 (s' := t.1) (as := t.2) ht).1 (by rw [e2]; exact hsm)
          (by rw [e1, e2]; exact hx) p
        have e5 := (evaluate_want hI2 (takeBlock_want hI1 w1 (s' := t.1) (as := t.2) ht).1 (s' := u.1) (as := u.2) hu).2.2.2
        have e3 := evaluate_sorted hI2 (s' := u.1) (as := u.2) hu
        rw [ht]
        simp only [Res.bind_ok]
        rw [hu]
        exact ⟨_, rfl, by simp [e3, e1], by simp [e5, e4]⟩
      · exact ⟨_, rfl, rfl, rfl⟩
    cases o with
    | none => exact key _ _ hc ht rfl
    | some cur =>
      obtain ⟨b1, b2, b3, -⟩ := an2 cur rfl
      exact key { info with current := cur, delta := delta } true b1 (Nat.le_trans b2 ht) b3

theorem selectLoop_safe (v : Bool) (n : Nat) : ∀ (i : Nat) (s : PP), (n = 0 ∨ i + n ≤ s.pieces.length) →
    ∃ t, selectLoop v i n s = .ok t := by
  induction n with
  | zero => intro i s _; exact ⟨_, rfl⟩
  | succ n ih =>
    intro i s h
    have hi : i < s.pieces.length := by omega
    have one : ∃ t, selectOne s i v = .ok t ∧ t.pieces.length = s.pieces.length := by
      unfold selectOne selectedPiece
      rw [rd_eq_ok hi]
      simp only [Res.bind_ok, Res.pure_eq]
      split
      · exact ⟨_, rfl, rfl⟩
      · split
        · refine ⟨_, rfl, ?_⟩
          split <;> simp
        · refine ⟨_, rfl, ?_⟩
          split <;> simp
    obtain ⟨t, ht, hl⟩ := one
    unfold selectLoop
    rw [ht]
    simp only [Res.bind_ok]
    exact ih _ _ (by omega)

theorem keepStart_safe {files : List File} {sel : List Bool} (hs : sel.length = files.length) (start : Nat) (i : Nat) :
    i ≤ files.length → ∃ t, keepStart files sel start i = .ok t := by
  induction i with
  | zero => intro _; exact ⟨_, rfl⟩
  | succ i ih =>
    intro h
    unfold keepStart
    rw [rd_eq_ok (show i < files.length by omega), rd_eq_ok (show i < sel.length by omega)]
    simp only [Res.bind_ok]
    split
    · split
      · exact ⟨_, rfl⟩
      · exact ih (by omega)
    · exact ⟨_, rfl⟩

theorem keepEnd_safe {files : List File} {sel : List Bool} (hs : sel.length = files.length) (e : Nat) (i : Nat) :
    ∃ t, keepEnd files sel e i = .ok t := by
  induction i with
  | zero => exact ⟨_, rfl⟩
  | succ i ih =>
    unfold keepEnd
    split
    · next h =>
      rw [rd_eq_ok h, rd_eq_ok (show i < sel.length by omega)]
      simp only [Res.bind_ok]
      split
      · split
        · exact ⟨_, rfl⟩
        · exact ih
      · exact ⟨_, rfl⟩
    · exact ⟨_, rfl⟩

theorem selectFile_safe {s : FilesState} (hl : s.progress.pieces.length = s.info.piecesCount)
    (hs : s.selection.length = s.info.files.length) (hf : ∀ f ∈ s.info.files, f.endPieceIndex < s.info.piecesCount)
    (idx : Nat) (v : Bool) :
    ∃ t, Layout.selectFile s idx v = .ok t ∧ t.selection.length = s.selection.length := by
  unfold Layout.selectFile
  split
  · exact ⟨_, rfl, rfl⟩
  · next h =>
    unfold filesSelect
    rw [rd_eq_ok (show idx < s.selection.length by omega)]
    simp only [Res.bind_ok]
    split
    · have hidx : idx < s.info.files.length := by omega
      have he := hf _ (List.getElem_mem hidx)
      have sel : ∀ a b : Nat, b < s.progress.pieces.length → ∃ t, Progress.select s.progress a b v = .ok t := by
        intro a b hb
        exact selectLoop_safe v _ a _ (by omega)
      rw [rd_eq_ok hidx]
      simp only [Res.bind_ok]
      split
      · obtain ⟨ks, hks⟩ := keepStart_safe (sel := s.selection.set idx v) (by simpa using hs)
          s.info.files[idx].startPieceIndex idx (by omega)
        obtain ⟨ke, hke⟩ := keepEnd_safe (sel := s.selection.set idx v) (by simpa using hs)
          s.info.files[idx].endPieceIndex (idx + 2)
        rw [hks, hke]
        simp only [Res.bind_ok]
        have hlt : (if ke = true then if s.info.files[idx].endPieceIndex = 0 then
            (u32 ((if ks = true then u32 (s.info.files[idx].startPieceIndex + 1) else s.info.files[idx].startPieceIndex) + 1),
              s.info.files[idx].endPieceIndex)
            else (if ks = true then u32 (s.info.files[idx].startPieceIndex + 1) else s.info.files[idx].startPieceIndex,
              s.info.files[idx].endPieceIndex - 1)
            else (if ks = true then u32 (s.info.files[idx].startPieceIndex + 1) else s.info.files[idx].startPieceIndex,
              s.info.files[idx].endPieceIndex)).2 < s.progress.pieces.length := by
          split
          · split <;> (dsimp only; omega)
          · dsimp only; omega
        obtain ⟨t, ht⟩ := sel _ _ hlt
        rw [ht]
        exact ⟨_, rfl, by simp⟩
      · obtain ⟨t, ht⟩ := sel s.info.files[idx].startPieceIndex s.info.files[idx].endPieceIndex (by omega)
        rw [ht]
        exact ⟨_, rfl, by simp⟩
    · exact ⟨_, rfl, rfl⟩

theorem filePieces_mem (start count prio : Nat) (acc : List (Nat × Nat)) (x : Nat × Nat)
    (h : x ∈ filePieces start count prio acc) : x ∈ acc ∨ x.1 < start + count := by
  unfold filePieces at h
  have key : ∀ (l : List Nat) (acc : List (Nat × Nat)), x ∈ l.foldl (fun acc idx =>
      if acc.getLast?.map (·.1) = some idx then acc else acc ++ [(idx, prio)]) acc → x ∈ acc ∨ x.1 ∈ l := by
    intro l
    induction l with
    | nil => intro acc h; exact Or.inl h
    | cons i l ih =>
      intro acc h
      simp only [List.foldl_cons] at h
      rcases ih _ h with h | h
      · split at h
        · exact Or.inl h
        · rcases List.mem_append.1 h with h | h
          · exact Or.inl h
          · simp only [List.mem_singleton] at h
            exact Or.inr (by rw [h]; simp)
      · exact Or.inr (List.mem_cons_of_mem _ h)
  rcases key _ _ h with h | h
  · exact Or.inl h
  · right
    have := List.mem_range'_1.1 h
    omega

theorem selectedList_mem {n : Nat} (fs : List File) : ∀ (sels : List Bool) (prs : List Nat) (acc : List (Nat × Nat)),
    (∀ f ∈ fs, f.endPieceIndex < n) → (∀ x ∈ acc, x.1 < n) → ∀ x ∈ selectedList fs sels prs acc, x.1 < n := by
  induction fs with
  | nil => intro sels prs acc _ ha x hx; exact ha x (by simpa [selectedList] using hx)
  | cons f fs ih =>
    intro sels prs acc hf ha
    cases sels with
    | nil => intro x hx; exact ha x (by simpa [selectedList] using hx)
    | cons sel sels =>
      cases prs with
      | nil => intro x hx; exact ha x (by simpa [selectedList] using hx)
      | cons pr prs =>
        intro x hx
        unfold selectedList at hx
        refine ih sels prs _ (fun g hg => hf g (List.mem_cons_of_mem _ hg)) ?_ x hx
        intro y hy
        split at hy
        · rcases filePieces_mem _ _ _ _ _ hy with h | h
          · exact ha y h
          · have := hf f (by simp)
            by_cases e : f.startPieceIndex ≤ f.endPieceIndex + 1
            · omega
            · have e0 : f.endPieceIndex + 1 - f.startPieceIndex = 0 := by omega
              rw [e0] at hy
              exact ha y (by simpa [filePieces] using hy)
        · exact ha y hy

theorem orderOk_mem {s : St} {order : List (Nat × Nat)} (h : orderOk s order = true)
    (hf : ∀ f ∈ s.files.info.files, f.endPieceIndex < s.files.info.piecesCount) :
    ∀ x ∈ order, x.1 < s.files.info.piecesCount := by
  intro x hx
  unfold orderOk at h
  have hp := List.isPerm_iff.1 h
  exact selectedList_mem _ _ _ [] hf (by simp) x (hp.mem_iff.1 hx)

/-- What makes the next event safe, apart from `W`. -/
structure Safe (s : St) : Prop where
  info : SaneInfo s.files.info
  sorted : ∀ x ∈ s.sorted, x.1 < s.files.info.piecesCount
  sel : s.files.selection.length = s.files.info.files.length
  reqs : ∀ i, HasReq s i → i < s.files.info.piecesCount
  checks : ∀ x ∈ s.checks, x.1 < s.files.info.piecesCount

/-- The event happens, and what is chosen from stays within the pieces. -/
def Fits (s : St) (r : Res (St × List Act)) : Prop :=
  ∃ t, r = .ok t ∧ (∀ x ∈ t.1.sorted, x.1 < s.files.info.piecesCount) ∧
    t.1.files.selection.length = s.files.info.files.length

theorem Safe.same {s : St} (h : Safe s) {t : St} {as : List Act} (e1 : t.sorted = s.sorted)
    (e2 : t.files.selection.length = s.files.selection.length) : Fits s (.ok (t, as)) :=
  ⟨_, rfl, by rw [e1]; exact h.sorted, by rw [e2]; exact h.sel⟩

theorem receive_safe {s : St} {f : Nat → Phase} {sd : Nat → Nat → Bool} {q : Nat} {peer : Peer} {m : Msg} (h : W s f sd)
    (hp : s.peers.get q = some peer) (hpol : politeEv f (.message q m)) (hs : saneEv s.files.info (.message q m)) :
    ∃ t, receive peer m = .ok t := by
  obtain ⟨a, b, c, d⟩ := h.ph q peer hp
  cases m with
  | choke => exact ⟨_, rfl⟩
  | unchoke => exact ⟨_, rfl⟩
  | piece _ _ => exact ⟨_, rfl⟩
  | other => exact ⟨_, rfl⟩
  | «have» k =>
    have hno : f q ≠ .opened := by rcases hpol.1 with e | e <;> rw [e] <;> simp
    have hl := (c hno).2.len
    have hk : k < s.files.info.piecesCount := hs
    obtain ⟨t, ht⟩ := addPiece_safe (pp := peer.pieces) (i := k) (by omega)
    simp only [receive, ht, Res.bind_ok]
    exact ⟨_, rfl⟩
  | bitfield bf =>
    have hg : f q = .greeted := hpol
    have hl := d hg
    have hb : s.files.info.piecesCount ≤ 8 * bf.length := hs
    have h0 := h.size
    simp only [receive, fromBitfieldData]
    have hne : peer.pieces.pieces.isEmpty = false := by
      cases e : peer.pieces.pieces with
      | nil => rw [e] at hl; simp at hl; omega
      | cons x l => rfl
    rw [hne]
    simp only [Bool.false_eq_true, if_false]
    obtain ⟨t, ht⟩ := fromBitfieldLoop_safe bf peer.pieces.pieces.length 0 (Progress.init peer.pieces peer.pieces.pieces.length)
      (by simp [Progress.init]) (by omega) (by omega)
    rw [ht]
    exact ⟨_, rfl⟩

theorem message_safe {s : St} {f : Nat → Phase} {sd : Nat → Nat → Bool} {q : Nat} {m : Msg} (hI : Inv s) (h : W s f sd)
    (hS : Safe s) (hpol : politeEv f (.message q m)) (hs : saneEv s.files.info (.message q m)) :
    Fits s (message s q m) := by
  unfold message
  cases hp : s.peers.get q with
  | none => exact hS.same rfl rfl
  | some peer0 =>
    obtain ⟨peer, hr⟩ := receive_safe h hp hpol hs
    dsimp only
    rw [hr]
    simp only [Res.bind_ok]
    obtain ⟨hW, hno⟩ := receive_w h hp hpol hr
    have hq1 : Quiet s { s with peers := s.peers.put q peer } := Quiet.of_eq rfl rfl rfl rfl
    have hI1 := hq1.inv hI
    split
    · next hrun =>
      have hp1 : ({ s with peers := s.peers.put q peer } : St).peers.get q = some peer := by simp [Map.get_put]
      have hr1 : ({ s with peers := s.peers.put q peer } : St).running = true := hrun
      have hF1 : ({ s with peers := s.peers.put q peer } : St).files = s.files := rfl
      have hS1 : Safe { s with peers := s.peers.put q peer } := ⟨hS.info, hS.sorted, hS.sel, hS.reqs, hS.checks⟩
      have e0 : Fits s = Fits ({ s with peers := s.peers.put q peer } : St) := rfl
      rw [e0]
      rw [← hF1] at hs
      generalize ({ s with peers := s.peers.put q peer } : St) = s1 at hI1 hW hp1 hr1 hS1 hs
      have hpeer := (hW.ph q peer hp1).2.2.1 hno
      have hw := hW.want
      unfold messageReceived
      have hcn : countAvailable s1.files.info.piecesCount peer.pieces m = .ok () := by
        have := hpeer.2.len
        cases m with
        | bitfield d =>
          unfold countAvailable
          dsimp only
          rw [if_neg (by omega)]
        | _ => rfl
      rw [hcn]
      simp only [Res.bind_ok]
      split
      · split
        · exact hS1.same rfl rfl
        · exact hS1.same rfl rfl
      · have evalCase : Fits s1 (evaluate { s1 with infos := touch s1.infos q } q) := by
          have hW2 := touch_w hW hp1 hno hr1
          have hI2 := (touch_quiet s1 q).inv hI1
          obtain ⟨t, ht⟩ := evaluate_safe hI2 hW2.want hS1.info.blocks hS1.sorted q
          have e1 := evaluate_sorted hI2 (s' := t.1) (as := t.2) ht
          have e2 := (evaluate_want hI2 hW2.want (s' := t.1) (as := t.2) ht).2.2.2
          exact ⟨t, ht, by rw [e1]; exact hS1.sorted, by rw [e2]; exact hS1.sel⟩
        cases m with
        | piece b delta =>
          obtain ⟨t, ht, e1, e2⟩ := piece_safe (p := q) (b := b) (delta := delta) hI1 hw hS1.info.blocks hS1.sorted hS1.reqs hs
          exact ⟨t, ht, by rw [e1]; exact hS1.sorted, by rw [e2]; exact hS1.sel⟩
        | unchoke =>
          dsimp only
          unfold unchokePeer
          cases hi : s1.infos.get q with
          | none => exact hS1.same rfl rfl
          | some info =>
            dsimp only
            obtain ⟨w1, n1⟩ := put_want (info' := { info with current := info.current.map fun r =>
                { r with active := 0, blocks := List.replicate r.blocks.length false } }) hw hi (by
              intro r hr
              obtain ⟨r0, hr0, rfl⟩ := List.mem_map.1 hr
              exact ⟨r0, hr0, rfl⟩)
            have hI2 := unchoke_inv hI1 hi
            obtain ⟨t, ht⟩ := evaluate_safe hI2 w1 hS1.info.blocks hS1.sorted q
            have e1 := evaluate_sorted hI2 (s' := t.1) (as := t.2) ht
            have e2 := (evaluate_want hI2 w1 (s' := t.1) (as := t.2) ht).2.2.2
            exact ⟨t, ht, by rw [e1]; exact hS1.sorted, by rw [e2]; exact hS1.sel⟩
        | «have» idx =>
          dsimp only
          obtain ⟨w, hm⟩ := missing_safe hw.len (i := idx) hs
          rw [hm]
          simp only [Res.bind_ok]
          split
          · exact evalCase
          · exact hS1.same rfl rfl
        | bitfield d =>
          dsimp only
          obtain ⟨w, hm⟩ := hasWanted_safe (pp := peer.pieces) hw.len s1.sorted hS1.sorted
          rw [hm]
          simp only [Res.bind_ok]
          split
          · exact evalCase
          · exact hS1.same rfl rfl
        | choke => exact hS1.same rfl rfl
        | other => exact hS1.same rfl rfl
    · exact hS.same rfl rfl

theorem refreshSources_sorted (c : Check) (n : Nat) (l : List Nat) : ∀ (s : St),
    (refreshSources c n l s).1.sorted = s.sorted := by
  induction l with
  | nil => intro s; rfl
  | cons p l ih =>
    intro s
    unfold refreshSources
    dsimp only
    rw [ih]
    unfold refreshSource
    split
    · rfl
    · split
      · rfl
      · rfl
      · dsimp only
        split <;> rfl

theorem check_safe {sha : List UInt8 → List UInt8} {hashes : List (List UInt8)} {s : St} {k : Nat}
    {data : Option (List UInt8)} (hS : Safe s) (hl : s.files.progress.pieces.length = s.files.info.piecesCount)
    (hh : s.files.info.piecesCount ≤ hashes.length) : Fits s (check sha hashes s k data) := by
  unfold check
  cases hk : s.checks[k]? with
  | none => exact hS.same rfl rfl
  | some x =>
    obtain ⟨idx, q⟩ := x
    have hi : idx < s.files.info.piecesCount := hS.checks (idx, q) (List.mem_of_getElem? hk)
    dsimp only
    rw [rd_eq_ok (show idx < hashes.length by omega)]
    simp only [Res.bind_ok]
    generalize checkResult sha hashes[idx] data = c
    unfold pieceChecked
    dsimp only
    obtain ⟨pr, hpr⟩ := removePiece_safe (pp := s.files.progress) (i := idx) (by omega)
    by_cases hc : c = .success
    · simp only [hc, if_true, Res.pure_eq, Res.bind_ok]
      refine ⟨_, rfl, ?_, ?_⟩
      · dsimp only
        rw [refreshSources_sorted]
        exact hS.sorted
      · dsimp only
        rw [(refreshSources_same _ _ _ _).1]
        exact hS.sel
    · simp only [hc, if_false, hpr, Res.bind_ok, Res.pure_eq]
      refine ⟨_, rfl, ?_, ?_⟩
      · dsimp only
        rw [refreshSources_sorted]
        exact hS.sorted
      · dsimp only
        rw [(refreshSources_same _ _ _ _).1]
        exact hS.sel

theorem step_safe {sha : List UInt8 → List UInt8} {hashes : List (List UInt8)} {s : St} {f : Nat → Phase}
    {sd : Nat → Nat → Bool} {e : Ev} (hI : Inv s) (h : W s f sd) (hS : Safe s)
    (hh : s.files.info.piecesCount ≤ hashes.length) (hpol : politeEv f e) (hs : saneEv s.files.info e) :
    Fits s (step sha hashes s e) := by
  have refr : ∀ (t : St) (order : List (Nat × Nat)), Inv t → t.files.info = s.files.info →
      t.files.progress.pieces.length = s.files.progress.pieces.length → t.infos = s.infos → t.peers = s.peers →
      t.requests = s.requests → t.files.selection.length = s.files.selection.length → orderOk t order = true →
      Fits s (refreshSelection t order) := by
    intro t order hIt ei el en ep eq es ho
    obtain ⟨u, hu, e1⟩ := refresh_safe (sd := sd) (order := order) hIt (by rw [el, ei]; exact h.want.len)
      (by rw [en, ep, ei]; exact h.want.peers) (by rw [en]; exact fun p i r a b => (h.want.ent p i r a b).2)
      (by rw [ei]; exact hS.info.blocks) (by rw [ei]; intro i hi; exact hS.reqs i (by unfold HasReq at hi ⊢; rw [← eq]; exact hi))
      (orderOk_mem ho (by rw [ei]; exact hS.info.files))
    have e2 := (refresh_trans hIt (s' := u.1) (as := u.2) hu).2
    refine ⟨u, hu, ?_, by rw [e2, es]; exact hS.sel⟩
    rw [e1, ← ei]
    exact orderOk_mem ho (by rw [ei]; exact hS.info.files)
  cases e with
  | connect p =>
    refine hS.same ?_ ?_
    · split <;> rfl
    · split <;> rfl
  | handshake p =>
    change Fits s (handshake s p)
    unfold handshake
    cases hp : s.peers.get p with
    | none => exact hS.same rfl rfl
    | some peer =>
      dsimp only
      split
      · split
        · obtain ⟨d, hd⟩ := toBitfield_safe (pp := s.files.progress) (by rw [h.want.len]; exact h.size.2)
          rw [hd]
          exact hS.same rfl rfl
        · exact hS.same rfl rfl
      · exact hS.same rfl rfl
  | message p m => exact message_safe hI h hS hpol hs
  | closed p =>
    refine hS.same ?_ ?_
    · dsimp only; unfold connectionClosed; split <;> rfl
    · dsimp only; rw [(closed_same s p).1]
  | check k data => exact check_safe hS h.want.len hh
  | finish =>
    change Fits s (finish s)
    unfold finish
    split
    · exact hS.same rfl rfl
    · exact hS.same rfl rfl
  | select idx v => exact absurd hpol (by simp [politeEv])
  | setPriority idx pr => exact hS.same rfl rfl
  | refresh order =>
    simp only [step]
    split
    · next hc => exact refr s order hI rfl rfl rfl rfl rfl rfl hc.2
    · exact hS.same rfl rfl
  | selectFile idx v order =>
    simp only [step]
    obtain ⟨fl, hfl, hsel⟩ := selectFile_safe h.want.len hS.sel hS.info.files idx v
    have ht : select s idx v = .ok { s with files := fl } := by unfold select; rw [hfl]; rfl
    have hl := select_len ht
    obtain ⟨fl', e0, e1, e2⟩ := select_spec ht
    have hfi : fl.info = s.files.info := by
      rw [hfl] at e0
      simp only [Res.ok.injEq] at e0
      rw [e0]; exact e2
    have hq : Quiet s { s with files := fl } := Quiet.of_eq rfl rfl hfi rfl
    rw [ht]
    simp only [Res.bind_ok]
    split
    · split
      · next ho => exact refr _ order (hq.inv hI) hfi hl rfl rfl rfl hsel ho
      · exact hS.same rfl rfl
    · exact hS.same rfl hsel
  | sort order =>
    simp only [step]
    split
    · next hp =>
      refine ⟨_, rfl, ?_, hS.sel⟩
      intro x hx
      exact hS.sorted x ((List.isPerm_iff.1 hp).mem_iff.1 hx)
    · exact hS.same rfl rfl
  | tick =>
    simp only [step]
    split
    · exact hS.same rfl rfl
    · exact hS.same rfl rfl
  | start order =>
    simp only [step]
    split
    · exact hS.same rfl rfl
    · next hc =>
      have hq : Quiet s { s with running := true } := Quiet.of_eq rfl rfl rfl rfl
      refine refr _ order (hq.inv hI) rfl rfl rfl rfl rfl rfl ?_
      have : orderOk s order = true := by
        cases e : orderOk s order with
        | true => rfl
        | false => exact absurd (Or.inr (by simp [e])) hc
      exact this
  | stop =>
    have hf : ∀ (ps : List Nat) (s : St), (ps.foldl connectionClosed s).files = s.files ∧
        (ps.foldl connectionClosed s).sorted = s.sorted := by
      intro ps
      induction ps with
      | nil => intro s; exact ⟨rfl, rfl⟩
      | cons p ps ih =>
        intro s
        rw [List.foldl_cons, (ih _).1, (ih _).2, (closed_same s p).1]
        refine ⟨rfl, ?_⟩
        unfold connectionClosed; split <;> rfl
    refine hS.same ?_ ?_
    · exact (hf _ s).2
    · change ((s.peers.map (·.1)).foldl connectionClosed s).files.selection.length = _
      rw [(hf _ s).1]

theorem run_safe {sha : List UInt8 → List UInt8} {hashes : List (List UInt8)} (es : List Ev) :
    ∀ {s : St} {init V : Nat → Prop} {g : Nat → Res Bool} {F : Prop} (f : Nat → Phase) (sd : Nat → Nat → Bool), Inv s → W s f sd →
      Ver init V g F s → SaneInfo s.files.info → (∀ x ∈ s.sorted, x.1 < s.files.info.piecesCount) →
      s.files.selection.length = s.files.info.files.length → s.files.info.piecesCount ≤ hashes.length → politeFrom f es →
      (∀ e ∈ es, saneEv s.files.info e) → ∃ r, run sha hashes s es = .ok r := by
  induction es with
  | nil => intros; exact ⟨_, rfl⟩
  | cons e es ih =>
    intro s init V g F f sd hI hw hv hi hx hsel hh hpol hsane
    have hS : Safe s := by
      refine ⟨hi, hx, hsel, ?_, ?_⟩
      · intro i hr
        have := missing_lt (hv.reqs i hr)
        rw [hw.want.len] at this; exact this
      · intro x hxm
        obtain ⟨l, h1, -, -, h4⟩ := hv.b.body
        obtain ⟨p, hp, -⟩ := h4 x.1 (List.mem_map_of_mem hxm)
        have := (List.getElem?_eq_some_iff.1 hp).1
        rw [← hw.want.len, h1.pieces]
        simpa using this
    obtain ⟨t, ht, e1, e2⟩ := step_safe (sha := sha) hI hw hS hh hpol.1 (hsane e (by simp))
    have h1 := step_ok hI (s' := t.1) (as := t.2) ht
    have h2 := step_w hI hw hpol.1 (s' := t.1) (as := t.2) ht
    obtain ⟨g', -, h3⟩ := step_ver hI hv (by
      cases e with
      | select _ _ => exact absurd hpol.1 (by simp [politeEv])
      | _ => rfl) (s' := t.1) (as := t.2) ht
    obtain ⟨r, hr⟩ := ih _ _ h1.inv h2.1 h3 (by rw [h1.info]; exact hi) (by rw [h1.info]; exact e1)
      (by rw [h1.info]; exact e2) (by rw [h1.info]; exact hh) hpol.2
      (by rw [h1.info]; exact fun x hx => hsane x (List.mem_cons_of_mem _ hx))
    unfold run
    rw [ht]
    simp only [Res.bind_ok]
    rw [hr]
    exact ⟨_, rfl⟩

end Verif.Downloader
