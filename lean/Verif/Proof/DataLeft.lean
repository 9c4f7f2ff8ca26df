import Verif.Model.DataLeft
import Verif.Spec.DataLeft
import Verif.Proof.DownloaderTell
import Verif.Proof.ProgressRun

namespace Verif.Downloader
open Verif Layout Progress PieceState Spec Spec.Download Spec.DataLeft

/-! Sorted maps. -/

def Sorted (m : Map Req) : Prop := m.Pairwise fun a b => a.1 < b.1

theorem sorted_put {m : Map Req} (h : Sorted m) (x : Nat) (a : Req) : Sorted (m.put x a) := by
  induction m with
  | nil => simp [Map.put, Sorted]
  | cons e m ih =>
    obtain ⟨k, v⟩ := e
    unfold Sorted at h ih ⊢
    rw [List.pairwise_cons] at h
    obtain ⟨h1, h2⟩ := h
    simp only [Map.put]
    split
    · next e => subst e; rw [List.pairwise_cons]; exact ⟨h1, h2⟩
    · next hne =>
      split
      · next hlt =>
        rw [List.pairwise_cons, List.pairwise_cons]
        refine ⟨?_, h1, h2⟩
        intro y hy
        rcases List.mem_cons.1 hy with rfl | hy
        · exact hlt
        · have := h1 y hy; simp only at this ⊢; omega
      · next hge =>
        rw [List.pairwise_cons]
        refine ⟨?_, ih h2⟩
        rintro ⟨y, b⟩ hy
        rcases Map.mem_put hy with ⟨e, -⟩ | hy
        · simp only; omega
        · exact h1 _ hy

theorem sorted_del {m : Map Req} (h : Sorted m) (x : Nat) : Sorted (m.del x) := h.sublist List.filter_sublist

theorem sorted_nodup {m : Map Req} (h : Sorted m) : (m.map (·.1)).Nodup := by
  unfold List.Nodup
  rw [List.pairwise_map]
  exact List.Pairwise.imp (fun h => Nat.ne_of_lt h) h

theorem sorted_mem {m : Map Req} (h : Sorted m) {i : Nat} {q q' : Req} (h1 : (i, q) ∈ m) (h2 : m.get i = some q') : q = q' := by
  have hm := Map.get_mem h2
  induction m with
  | nil => simp at h1
  | cons e m ih =>
    obtain ⟨k, v⟩ := e
    unfold Sorted at h
    rw [List.pairwise_cons] at h
    obtain ⟨a, b⟩ := h
    rcases List.mem_cons.1 h1 with h1 | h1
    · rcases List.mem_cons.1 hm with hm | hm
      · rw [← h1] at hm; simp only [Prod.mk.injEq] at hm; exact hm.2.symm
      · have := a _ hm
        rw [← h1] at this; simp at this
    · rcases List.mem_cons.1 hm with hm | hm
      · have := a _ h1
        simp only [Prod.mk.injEq] at hm
        simp only at this; omega
      · refine ih b h1 ?_ hm
        have hne : k ≠ i := by have := a _ h1; simp only at this; omega
        simp only [Map.get, if_neg hne] at h2
        exact h2

/-! Marked blocks. -/

theorem marked_zero (f : Nat → Nat) (n : Nat) : ∀ k, marked f k (List.replicate n 0) = 0 := by
  induction n with
  | zero => intro k; rfl
  | succ n ih => intro k; rw [List.replicate_succ]; simp [marked, ih]

theorem marked_set (f : Nat → Nat) (bs : List UInt8) : ∀ (k j : Nat), bs[j]? = some 0 →
    marked f k (bs.set j 1) = marked f k bs + f (k + j) := by
  induction bs with
  | nil => intro k j h; simp at h
  | cons b bs ih =>
    intro k j h
    cases j with
    | zero =>
      simp only [List.getElem?_cons_zero, Option.some.injEq] at h
      subst h
      simp [marked]; omega
    | succ j =>
      simp only [List.getElem?_cons_succ] at h
      have := ih (k + 1) j h
      simp only [List.set_cons_succ, marked, this]
      rw [show k + 1 + j = k + (j + 1) by omega]
      omega

theorem marked_le (f : Nat → Nat) (bs : List UInt8) : ∀ k, marked f k bs ≤ ((List.range' k bs.length).map f).sum := by
  induction bs with
  | nil => intro k; simp [marked]
  | cons b bs ih =>
    intro k
    have := ih (k + 1)
    simp only [marked, List.length_cons, List.range'_succ, List.map_cons, List.sum_cons]
    split <;> omega

/-! The invariant. -/

def Exact (i : Info) (idx : Nat) (u : PState) : Prop := u.downloadedSize = bytesOf i idx u

structure J (s : St) : Prop where
  keys : Sorted s.requests
  req : ∀ i q, (i, q) ∈ s.requests → Exact s.files.info i q.piece
  kept : ∀ u ∈ s.unfinished, u.downloadedSize ≠ 0 →
    ¬ HasReq s u.index ∧ hasPiece s.files.progress u.index = .ok false
  exact : ∀ u ∈ s.unfinished, Exact s.files.info u.index u
  once : ((s.unfinished.filter (·.downloadedSize ≠ 0)).map (·.index)).Nodup

theorem J.same {s s' : St} (h : J s) (e1 : s'.requests = s.requests) (e2 : s'.unfinished = s.unfinished) (e3 : s'.files = s.files) : J s' := by
  obtain ⟨a, b, c, d, e⟩ := h
  refine ⟨by rw [e1]; exact a, by rw [e1, e3]; exact b, ?_, by rw [e2, e3]; exact d, by rw [e2]; exact e⟩
  rw [e2, e3]
  intro u hu hd
  refine ⟨fun ⟨q, hq⟩ => (c u hu hd).1 ⟨q, by rw [← e1]; exact hq⟩, (c u hu hd).2⟩

/-- Another request in the place of one, with a piece that is exact. -/
theorem J.put {s : St} (h : J s) {idx : Nat} {q q' : Req} (hq : s.requests.get idx = some q) (he : Exact s.files.info idx q'.piece) :
    J { s with requests := s.requests.put idx q' } := by
  obtain ⟨a, b, c, d, e⟩ := h
  refine ⟨sorted_put a _ _, ?_, ?_, d, e⟩
  · intro i r hr
    rcases Map.mem_put hr with ⟨rfl, rfl⟩ | hr
    · exact he
    · exact b i r hr
  · intro u hu hd
    refine ⟨fun hh => ?_, (c u hu hd).2⟩
    rcases put_keys hh with hh | hh
    · exact (c u hu hd).1 hh
    · exact (c u hu hd).1 (by rw [hh]; exact HasReq.get hq)

/-- Fewer requests. -/
theorem J.del {s : St} (h : J s) (idx : Nat) : J { s with requests := s.requests.del idx } := by
  obtain ⟨a, b, c, d, e⟩ := h
  refine ⟨sorted_del a _, fun i q hq => b i q (List.mem_filter.1 hq).1, fun u hu hd => ⟨?_, (c u hu hd).2⟩, d, e⟩
  rintro ⟨q, hq⟩
  exact (c u hu hd).1 ⟨q, (List.mem_filter.1 hq).1⟩

theorem load_split (idx : Nat) (l : List PState) :
    ((unfinishedLoad idx l).1 = {} ∧ (unfinishedLoad idx l).2 = l ∧ ∀ u ∈ l, u.downloadedSize ≠ 0 → u.index ≠ idx) ∨
    (∃ pre post, l = pre ++ (unfinishedLoad idx l).1 :: post ∧
      (unfinishedLoad idx l).2 = pre ++ { (unfinishedLoad idx l).1 with blocksState := [], downloadedSize := 0 } :: post ∧
      (unfinishedLoad idx l).1.index = idx ∧ (unfinishedLoad idx l).1.downloadedSize ≠ 0) := by
  induction l with
  | nil => left; simp [unfinishedLoad]
  | cons u us ih =>
    unfold unfinishedLoad
    by_cases hu : u.index = idx ∧ u.downloadedSize ≠ 0
    · rw [if_pos hu]
      right
      exact ⟨[], us, rfl, rfl, hu.1, hu.2⟩
    · rw [if_neg hu]
      rcases ih with ⟨a, b, c⟩ | ⟨pre, post, a, b, c, d⟩
      · left
        refine ⟨a, by simp only; rw [b], ?_⟩
        intro v hv hd
        rcases List.mem_cons.1 hv with rfl | hv
        · exact fun e => hu ⟨e, hd⟩
        · exact c v hv hd
      · right
        exact ⟨u :: pre, post, by simp only [List.cons_append]; rw [← a], by simp only [List.cons_append]; rw [← b], c, d⟩

theorem getRequest_J {s : St} (h : J s) (idx : Nat) : J (getRequest s idx).1 := by
  unfold getRequest
  cases hq : s.requests.get idx with
  | some q => exact h
  | none =>
    obtain ⟨a, b, c, d, e⟩ := h
    simp only [requestPiece]
    rcases load_split idx s.unfinished with ⟨l1, l2, l3⟩ | ⟨pre, post, l1, l2, l3, l4⟩
    · rw [l1, l2]
      refine ⟨sorted_put a _ _, ?_, ?_, d, e⟩
      · intro i r hr
        rcases Map.mem_put hr with ⟨rfl, rfl⟩ | hr
        · simp only [List.isEmpty_nil, if_true]
          show (0 : Nat) = marked _ 0 (List.replicate _ 0)
          rw [marked_zero]
        · exact b i r hr
      · intro u hu hd
        refine ⟨fun hh => ?_, (c u hu hd).2⟩
        rcases put_keys hh with hh | hh
        · exact (c u hu hd).1 hh
        · exact l3 u hu hd hh
    · generalize hw : (unfinishedLoad idx s.unfinished).1 = w at *
      generalize hw2 : (unfinishedLoad idx s.unfinished).2 = w2 at *
      have hwm : w ∈ s.unfinished := by rw [l1]; simp
      have hex := d w hwm
      have hne : w.blocksState.isEmpty = false := by
        cases hb : w.blocksState with
        | cons _ _ => rfl
        | nil =>
          exfalso
          unfold Exact bytesOf at hex
          rw [hb] at hex
          exact l4 hex
      simp only [hne, Bool.false_eq_true, if_false]
      have hsub : ∀ u ∈ w2, u.downloadedSize ≠ 0 → u ∈ s.unfinished ∧ u.index ≠ idx := by
        intro u hu hd
        rw [l2] at hu
        have hu' : u ∈ pre ++ post := by
          rcases List.mem_append.1 hu with hu | hu
          · exact List.mem_append_left _ hu
          · rcases List.mem_cons.1 hu with rfl | hu
            · simp at hd
            · exact List.mem_append_right _ hu
        have hu2 : u ∈ s.unfinished := by
          rw [l1]
          rcases List.mem_append.1 hu' with hu | hu
          · exact List.mem_append_left _ hu
          · exact List.mem_append_right _ (List.mem_cons_of_mem _ hu)
        refine ⟨hu2, fun he => ?_⟩
        rw [l1, List.filter_append, List.filter_cons_of_pos (by simpa using l4), List.map_append, List.map_cons] at e
        rw [List.nodup_append] at e
        obtain ⟨-, e2, e3⟩ := e
        rw [List.nodup_cons] at e2
        rcases List.mem_append.1 hu' with hu | hu
        · refine e3 u.index (List.mem_map.2 ⟨u, List.mem_filter.2 ⟨hu, by simpa using hd⟩, rfl⟩) w.index (by simp) ?_
          rw [he, l3]
        · exact e2.1 (List.mem_map.2 ⟨u, List.mem_filter.2 ⟨hu, by simpa using hd⟩, by rw [he, l3]⟩)
      refine ⟨sorted_put a _ _, ?_, ?_, ?_, ?_⟩
      · intro i r hr
        rcases Map.mem_put hr with ⟨rfl, rfl⟩ | hr
        · simp only
          rw [l3] at hex; exact hex
        · exact b i r hr
      · intro u hu hd
        obtain ⟨h1, h2⟩ := hsub u hu hd
        refine ⟨fun hh => ?_, (c u h1 hd).2⟩
        rcases put_keys hh with hh | hh
        · exact (c u h1 hd).1 hh
        · exact h2 hh
      · intro u hu
        rw [l2] at hu
        rcases List.mem_append.1 hu with hu | hu
        · exact d u (by rw [l1]; exact List.mem_append_left _ hu)
        · rcases List.mem_cons.1 hu with rfl | hu
          · rfl
          · exact d u (by rw [l1]; exact List.mem_append_right _ (List.mem_cons_of_mem _ hu))
      · rw [l2, List.filter_append, List.filter_cons_of_neg (by simp)]
        rw [l1, List.filter_append, List.filter_cons_of_pos (by simpa using l4), List.map_append, List.map_cons] at e
        rw [List.map_append]
        exact e.sublist (List.Sublist.append (List.Sublist.refl _) (List.sublist_cons_self _ _))

/-! `evaluate`. -/

theorem send_piece {i : Info} {r r' : ReqPiece} {q q' : Req} {max n : Nat} {o : List BlockInfo}
    (h : sendPieceRequests i r q max = .ok (r', q', n, o)) : q'.piece = q.piece := by
  unfold sendPieceRequests at h
  simp only at h
  split at h
  · cases h
  · obtain ⟨t, -, h⟩ := bindOk h
    simp only [Res.pure_eq, Res.ok.injEq, Prod.mk.injEq] at h
    rw [← h.2.1]

theorem getRequest_get (s : St) (idx : Nat) : (getRequest s idx).1.requests.get idx = some (getRequest s idx).2 := by
  unfold getRequest
  cases hq : s.requests.get idx with
  | some q => exact hq
  | none => simp [Map.get_put]

theorem moreLoop_J (mx : Nat) (c : List ReqPiece) : ∀ (s : St) (cur : Nat) (r : St × Nat × List ReqPiece × List BlockInfo),
    J s → moreLoop mx c s cur = .ok r → J r.1 := by
  induction c with
  | nil =>
    intro s cur r hj h
    simp only [moreLoop, Res.ok.injEq] at h
    rw [← h]; exact hj
  | cons e c ih =>
    intro s cur r hj h
    unfold moreLoop at h
    obtain ⟨t, ht, h⟩ := bindOk h
    have hg := getRequest_J hj e.idx
    have hget := getRequest_get s e.idx
    have hp : t.2.1.piece = (getRequest s e.idx).2.piece := send_piece (r' := t.1) (q' := t.2.1) (n := t.2.2.1) (o := t.2.2.2) ht
    have hnew := hg.put (q' := t.2.1) hget (by rw [hp]; exact hg.req _ _ (Map.get_mem hget))
    simp only at h
    split at h
    · simp only [Res.pure_eq, Res.ok.injEq] at h
      rw [← h]; exact hnew
    · obtain ⟨u, hu, h⟩ := bindOk h
      simp only [Res.pure_eq, Res.ok.injEq] at h
      rw [← h]
      exact ih _ _ u hnew hu

theorem getBest_J {s s' : St} {info : PeerReq} {pp : PP} {o : Option Nat} (hj : J s)
    (h : getBestNextRequest s info pp = .ok (s', o)) : J s' := by
  unfold getBestNextRequest at h
  split at h
  · simp only [Res.ok.injEq, Prod.mk.injEq] at h
    rw [← h.1]; exact hj
  · next x first rest hsort =>
    have hjp : ∃ f : Option Nat, (if s.fastCheck then fastFind s pp first s.sorted else pure none) = .ok f ∧ (match f with
        | some idx => pure ((getRequest s idx).1, some idx)
        | none => do
          let r ← slowFind s info pp first s.sorted first []
          let s := { s with fastCheck := r.2 }
          match r.1 with
          | some idx => pure ((getRequest s idx).1, some idx)
          | none => pure (s, none) : Res (St × Option Nat)) = .ok (s', o) := by
      by_cases hfc : s.fastCheck = true
      · simp only [hfc, if_true] at h ⊢
        exact bindOk h
      · simp only [hfc, Bool.false_eq_true, if_false] at h ⊢
        exact bindOk h
    obtain ⟨f, hf, h⟩ := hjp
    cases f with
    | some idx =>
      simp only [Res.pure_eq, Res.ok.injEq, Prod.mk.injEq] at h
      rw [← h.1]; exact getRequest_J hj idx
    | none =>
      simp only at h
      obtain ⟨r, hr, h⟩ := bindOk h
      obtain ⟨ro, rf⟩ := r
      have hj' : J { s with fastCheck := rf } := hj.same rfl rfl rfl
      cases ro with
      | none =>
        simp only [Res.pure_eq, Res.ok.injEq, Prod.mk.injEq] at h
        rw [← h.1]; exact hj'
      | some idx =>
        simp only [Res.pure_eq, Res.ok.injEq, Prod.mk.injEq] at h
        rw [← h.1]; exact getRequest_J hj' idx

theorem nextLoop_J (p : Nat) (pp : PP) (mx : Nat) (n : Nat) : ∀ (s : St) (info : PeerReq) (cur : Nat)
    (r : St × PeerReq × List BlockInfo), J s → nextLoop p pp mx n s info cur = .ok r → J r.1 := by
  induction n with
  | zero => intro s info cur r hj h; simp [nextLoop] at h
  | succ n ih =>
    intro s info cur r hj h
    unfold nextLoop at h
    split at h
    · obtain ⟨g, hg, h⟩ := bindOk h
      obtain ⟨s1, o1⟩ := g
      have hj1 := getBest_J hj hg
      cases o1 with
      | none =>
        simp only [Res.pure_eq, Res.ok.injEq] at h
        rw [← h]; exact hj1
      | some idx =>
        simp only at h
        cases hq : s1.requests.get idx with
        | none => simp [hq] at h
        | some q =>
          simp only [hq] at h
          obtain ⟨t, ht, h⟩ := bindOk h
          obtain ⟨u, hu, h⟩ := bindOk h
          simp only [Res.pure_eq, Res.ok.injEq] at h
          rw [← h]
          have hp := send_piece (r' := t.1) (q' := t.2.1) (n := t.2.2.1) (o := t.2.2.2) ht
          have hnew := hj1.put (q' := t.2.1) hq (by rw [hp]; exact hj1.req idx q (Map.get_mem hq))
          exact ih _ _ _ u hnew hu
    · simp only [Res.ok.injEq] at h
      rw [← h]; exact hj

theorem evaluate_J {s s' : St} {p : Nat} {as : List Act} (hj : J s) (h : evaluate s p = .ok (s', as)) : J s' := by
  unfold evaluate at h
  cases hinfo : s.infos.get p with
  | none =>
    simp only [hinfo, Res.ok.injEq, Prod.mk.injEq] at h
    rw [← h.1]; exact hj
  | some info =>
    simp only [hinfo] at h
    cases hp : s.peers.get p with
    | none => simp [hp] at h
    | some peer =>
      simp only [hp] at h
      split at h
      · split at h
        · simp only [Res.ok.injEq, Prod.mk.injEq] at h
          rw [← h.1]; exact hj
        · obtain ⟨w, -, h⟩ := bindOk h
          split at h
          · simp only [Res.pure_eq, Res.ok.injEq, Prod.mk.injEq] at h
            rw [← h.1]; exact hj.same rfl rfl rfl
          · simp only [Res.pure_eq, Res.ok.injEq, Prod.mk.injEq] at h
            rw [← h.1]; exact hj
      · obtain ⟨m, hm, h⟩ := bindOk h
        obtain ⟨u, hu, h⟩ := bindOk h
        simp only [Res.pure_eq, Res.ok.injEq, Prod.mk.injEq] at h
        rw [← h.1]
        have hm' : J m.1 := by
          unfold firstLoop at hm
          split at hm
          · exact moreLoop_J _ _ _ _ _ hj hm
          · simp only [Res.ok.injEq] at hm
            rw [← hm]; exact hj
        exact (nextLoop_J _ _ _ _ _ _ _ _ hm' hu).same rfl rfl rfl

theorem evaluateAll_J (ps : List Nat) : ∀ {s s' : St} {as : List Act}, J s → evaluateAll ps s = .ok (s', as) → J s' := by
  induction ps with
  | nil =>
    intro s s' as hj h
    simp only [evaluateAll, Res.ok.injEq, Prod.mk.injEq] at h
    rw [← h.1]; exact hj
  | cons p ps ih =>
    intro s s' as hj h
    unfold evaluateAll at h
    obtain ⟨t, ht, h⟩ := bindOk h
    obtain ⟨u, hu, h⟩ := bindOk h
    simp only [Res.pure_eq, Res.ok.injEq, Prod.mk.injEq] at h
    rw [← h.1]
    exact ih (s' := u.1) (as := u.2) (evaluate_J hj (s' := t.1) (as := t.2) ht) hu

/-! Sizes of blocks. -/

theorem sum_min (S : Nat) (c : Nat) : ((List.range c).map fun k => min 16384 (S - k * 16384)).sum = min S (16384 * c) := by
  induction c with
  | zero => simp
  | succ c ih =>
    rw [List.range_succ, List.map_append, List.sum_append, ih]
    simp only [List.map_cons, List.map_nil, List.sum_cons, List.sum_nil]
    omega

theorem pieceBytes_last {i : Info} {n idx : Nat} (hs : Shape i n) (h : idx + 1 = n) : pieceBytes i.pieceSize i.fullSize idx = i.fullSize % i.pieceSize := by
  have hd := Nat.div_add_mod i.fullSize i.pieceSize
  have hm := Nat.mod_lt i.fullSize hs.ps_pos
  have hc := hs.count
  have e : idx = i.fullSize / i.pieceSize := by omega
  unfold pieceBytes
  rw [e, Nat.mul_comm]
  omega

theorem pieceBytes_other {i : Info} {n idx : Nat} (hs : Shape i n) (h : idx + 1 < n) : pieceBytes i.pieceSize i.fullSize idx = i.pieceSize := by
  have hd := Nat.div_add_mod i.fullSize i.pieceSize
  have hm := Nat.mod_lt i.fullSize hs.ps_pos
  have hc := hs.count
  have e : idx + 1 ≤ i.fullSize / i.pieceSize := by omega
  have e2 := Nat.mul_le_mul_right i.pieceSize e
  unfold pieceBytes
  rw [Nat.add_mul] at e2
  rw [Nat.mul_comm] at hd
  omega

theorem pieceBytes_range {i : Info} {n idx : Nat} (hs : Shape i n) (h : idx < n) :
    0 < pieceBytes i.pieceSize i.fullSize idx ∧ pieceBytes i.pieceSize i.fullSize idx ≤ i.pieceSize := by
  have hm := Nat.mod_lt i.fullSize hs.ps_pos
  have := hs.short
  have := hs.ps_pos
  by_cases e : idx + 1 = n
  · rw [pieceBytes_last hs e]; omega
  · rw [pieceBytes_other hs (by omega)]; omega

theorem count_eq {i : Info} {n idx : Nat} (hs : Shape i n) (h : idx < n) :
    getPieceBlocksCount i idx = (pieceBytes i.pieceSize i.fullSize idx + 16383) / 16384 := by
  obtain ⟨h1, h2, h3, h4, h5, h6, h7, h8, h9⟩ := hs
  have hs : Shape i n := ⟨h1, h2, h3, h4, h5, h6, h7, h8, h9⟩
  have hm := Nat.mod_lt i.fullSize h1
  unfold getPieceBlocksCount u32 BlockMaxSize
  by_cases e : idx = i.lastPieceIndex
  · rw [if_pos e, pieceBytes_last hs (by omega), h8, h7]
    omega
  · rw [if_neg e, pieceBytes_other hs (by omega)]
    omega

theorem blockSize_eq {i : Info} {n idx k : Nat} (hs : Shape i n) (h : idx < n) (hk : k < getPieceBlocksCount i idx) :
    blockSize i idx k = min 16384 (pieceBytes i.pieceSize i.fullSize idx - k * 16384) := by
  rw [count_eq hs h] at hk
  obtain ⟨h1, h2, h3, h4, h5, h6, h7, h8, h9⟩ := hs
  have hs : Shape i n := ⟨h1, h2, h3, h4, h5, h6, h7, h8, h9⟩
  have hm := Nat.mod_lt i.fullSize h1
  have hsmall : k * 16384 < i.pieceSize := by
    by_cases e : idx + 1 = n
    · rw [pieceBytes_last hs e] at hk; omega
    · rw [pieceBytes_other hs (by omega)] at hk; omega
  unfold blockSize getPieceBlockInfo BlockMaxSize
  simp only
  rw [u32_id (by omega), sub32_eq (by omega) (by omega)]
  by_cases e : idx = i.lastPieceIndex
  · rw [pieceBytes_last hs (by omega)] at hk ⊢
    clear h5 h6
    by_cases e2 : k = i.lastPieceLastBlockIndex
    · rw [if_pos ⟨e, e2⟩, e2, h9, h8, h7]
      clear hk e2 h9 h8 h7
      omega
    · rw [if_neg (fun x => e2 x.2)]
      rw [h8, h7] at e2
      clear h9 h8 h7
      omega
  · rw [if_neg (fun x => e x.1)]
    rw [pieceBytes_other hs (by omega)]

theorem marked_bound {i : Info} {n idx : Nat} (hs : Shape i n) (h : idx < n) (bs : List UInt8) (hb : bs.length = getPieceBlocksCount i idx) :
    marked (blockSize i idx) 0 bs ≤ pieceBytes i.pieceSize i.fullSize idx := by
  refine Nat.le_trans (marked_le _ _ _) ?_
  rw [← List.range_eq_range', hb]
  have : (List.range (getPieceBlocksCount i idx)).map (blockSize i idx) =
      (List.range (getPieceBlocksCount i idx)).map fun k => min 16384 (pieceBytes i.pieceSize i.fullSize idx - k * 16384) := by
    apply List.map_congr_left
    intro k hk
    exact blockSize_eq hs h (List.mem_range.1 hk)
  rw [this, sum_min]
  omega

/-! Arriving blocks. -/

theorem has_false {pp : PP} {l : Pieces} (h : Rel pp l) (j : Nat) : hasPiece pp j = .ok false ↔ (l[j]?).map (·.has) = some false := by
  by_cases hj : j < l.length
  · rw [hasPiece_eq h j hj, List.getElem?_eq_getElem hj]; simp
  · rw [List.getElem?_eq_none (by omega)]
    unfold hasPiece
    rw [rd_pieces_ub h j hj]
    split <;> simp

theorem missing_has {s : St} {l : Pieces} (h : Rel s.files.progress l) {j : Nat} (hm : missing s j = .ok true) :
    hasPiece s.files.progress j = .ok false := by
  rw [has_false h, (missing_iff h j).1 hm]; rfl

theorem addBlock_exact {i : Info} {n idx : Nat} {u : PState} {b : BlockInfo} (hs : Shape i n) (h : idx < n)
    (hl : u.blocksState.length = getPieceBlocksCount i idx) (hx : Exact i idx u) (ha : (addBlock u b).1 = true)
    (hb : b.length = blockSize i idx (blockNo b.begin)) : Exact i idx (addBlock u b).2 := by
  unfold addBlock at ha ⊢
  split at ha
  · next hc =>
    rw [if_pos hc]
    have hset := marked_set (blockSize i idx) u.blocksState 0 _ hc
    rw [Nat.zero_add] at hset
    have hbound := marked_bound hs h (u.blocksState.set (blockNo b.begin) 1) (by rw [List.length_set]; exact hl)
    have := (pieceBytes_range hs h).2
    have := hs.ps_lt
    unfold Exact bytesOf at hx ⊢
    simp only
    rw [hx, hb, ← hset]
    exact u32_id (by omega)
  · simp at ha

theorem takeBlock_J {init V : Nat → Prop} {g : Nat → Res Bool} {F : Prop} {s s' : St} {p group : Nat} {b : BlockInfo} {as : List Act} (hI : Inv s)
    (hv : Ver init V g F s) {n : Nat} (hs : Shape s.files.info n) (hlen : s.files.progress.pieces.length = n)
    (hb : b.length = blockSize s.files.info b.index (blockNo b.begin)) (hj : J s)
    (h : takeBlock s p group b = .ok (s', as)) : J s' := by
  unfold takeBlock at h
  cases hq : s.requests.get b.index with
  | none =>
    simp only [hq, Res.ok.injEq, Prod.mk.injEq] at h
    rw [← h.1]; exact hj
  | some q =>
    have hreq := HasReq.get hq
    simp only [hq] at h
    by_cases ha : (addBlock q.piece b).1 = true
    · simp only [ha, if_true] at h
      obtain ⟨a1, -, -⟩ := addBlock_spec _ _ ha
      obtain ⟨r1, r2⟩ := hI.base.req.get _ _ hq
      have hqi : (addBlock q.piece b).2.index = b.index := by rw [a1]; exact r1
      have hmiss := hv.reqs _ hreq
      obtain ⟨⟨l, l1, l2, l3, l4⟩, hn, hc⟩ := hv.b
      have hlt : b.index < l.length := (List.getElem?_eq_some_iff.1 ((missing_iff l1 _).1 hmiss)).1
      have hlt' : b.index < n := by rw [← hlen, length_eq l1]; exact hlt
      split at h
      · rw [hqi, hmiss] at h
        simp only [Res.bind_ok, if_true] at h
        obtain ⟨prog, hprog, h⟩ := bindOk h
        simp only [Res.pure_eq, Res.ok.injEq, Prod.mk.injEq] at h
        rw [← h.1]
        obtain ⟨j1, j2, j3, j4, j5⟩ := hj
        obtain ⟨pp, hpp, hrel⟩ := addPiece_rel l1 b.index (Or.inl hlt)
        rw [hprog] at hpp
        simp only [Res.ok.injEq] at hpp
        rw [← hpp, add_in l _ hlt] at hrel
        refine ⟨sorted_del j1 _, fun i r hr => j2 i r (List.mem_filter.1 hr).1, ?_, j4, j5⟩
        intro u hu hd
        obtain ⟨k1, k2⟩ := j3 u hu hd
        refine ⟨fun ⟨r, hr⟩ => k1 ⟨r, (List.mem_filter.1 hr).1⟩, ?_⟩
        have hne : ¬ b.index = u.index := fun e => k1 (by rw [← e]; exact hreq)
        show hasPiece prog u.index = _
        rw [has_false hrel, List.getElem?_modify]
        rw [has_false l1] at k2
        simpa [hne] using k2
      · simp only [Res.ok.injEq, Prod.mk.injEq] at h
        rw [← h.1]
        refine hj.put hq ?_
        exact addBlock_exact hs hlt' r2 (hj.req _ _ (Map.get_mem hq)) ha hb
    · simp only [ha, Bool.false_eq_true, if_false, Res.ok.injEq, Prod.mk.injEq] at h
      rw [← h.1]; exact hj

theorem message_J {init V : Nat → Prop} {g : Nat → Res Bool} {F : Prop} {s s' : St} {p : Nat} {m : Msg} {as : List Act} (hI : Inv s)
    (hv : Ver init V g F s) {n : Nat} (hs : Shape s.files.info n) (hlen : s.files.progress.pieces.length = n)
    (hb : rightLength s.files.info (.message p m)) (hj : J s)
    (h : message s p m = .ok (s', as)) : J s' := by
  unfold message at h
  cases hp : s.peers.get p with
  | none =>
    simp only [hp, Res.ok.injEq, Prod.mk.injEq] at h
    rw [← h.1]; exact hj
  | some peer0 =>
    simp only [hp] at h
    obtain ⟨peer, -, h⟩ := bindOk h
    have hs1 : Still s { s with peers := s.peers.put p peer } := still_of rfl rfl rfl rfl rfl fun _ h => h
    have hq1 : Quiet s { s with peers := s.peers.put p peer } := Quiet.of_eq rfl rfl rfl rfl
    have hI1 := hq1.inv hI
    have hv1 := hs1.ver hv
    have hj1 : J { s with peers := s.peers.put p peer } := hj.same rfl rfl rfl
    have hs' : Shape ({ s with peers := s.peers.put p peer } : St).files.info n := hs
    have hl' : ({ s with peers := s.peers.put p peer } : St).files.progress.pieces.length = n := hlen
    have hb' : rightLength ({ s with peers := s.peers.put p peer } : St).files.info (.message p m) := hb
    split at h
    · next hr0 =>
      generalize ({ s with peers := s.peers.put p peer } : St) = t at *
      unfold messageReceived at h
      obtain ⟨-, -, h⟩ := bindOk h
      split at h
      · split at h
        · simp only [Res.pure_eq, Res.ok.injEq, Prod.mk.injEq] at h
          rw [← h.1]
          exact hj1.same rfl rfl rfl
        · simp only [Res.pure_eq, Res.ok.injEq, Prod.mk.injEq] at h
          rw [← h.1]; exact hj1
      · have htouch : ∀ {as : List Act}, evaluate { t with infos := touch t.infos p } p = .ok (s', as) → J s' := by
          intro as he
          exact evaluate_J (hj1.same (s' := { t with infos := touch t.infos p }) rfl rfl rfl) he
        cases m with
        | choke => simp only [Res.pure_eq, Res.ok.injEq, Prod.mk.injEq] at h; rw [← h.1]; exact hj1
        | other => simp only [Res.pure_eq, Res.ok.injEq, Prod.mk.injEq] at h; rw [← h.1]; exact hj1
        | unchoke =>
          simp only [unchokePeer] at h
          cases hi : t.infos.get p with
          | none =>
            simp only [hi, Res.ok.injEq, Prod.mk.injEq] at h
            rw [← h.1]; exact hj1
          | some info =>
            simp only [hi] at h
            refine evaluate_J (hj1.same (s' := _) ?_ ?_ ?_) h <;> rfl
        | «have» idx =>
          simp only at h
          obtain ⟨w, -, h⟩ := bindOk h
          split at h
          · exact htouch h
          · simp only [Res.pure_eq, Res.ok.injEq, Prod.mk.injEq] at h; rw [← h.1]; exact hj1
        | bitfield d =>
          simp only at h
          obtain ⟨w, -, h⟩ := bindOk h
          split at h
          · exact htouch h
          · simp only [Res.pure_eq, Res.ok.injEq, Prod.mk.injEq] at h; rw [← h.1]; exact hj1
        | piece b delta =>
          simp only [pieceBlockReceived] at h
          cases hi : t.infos.get p with
          | none =>
            simp only [hi, Res.ok.injEq, Prod.mk.injEq] at h
            rw [← h.1]; exact hj1
          | some info =>
            simp only [hi] at h
            obtain ⟨⟨info', asked⟩, ha, h⟩ := bindOk h
            have hI2 : Inv { t with infos := t.infos.put p info' } := answer_inv hI1 hi ha
            have hv2 : Ver init V g F { t with infos := t.infos.put p info' } :=
              hv1.same rfl rfl rfl rfl rfl rfl
            have hj2 : J { t with infos := t.infos.put p info' } := hj1.same rfl rfl rfl
            simp only at h
            split at h
            · obtain ⟨u, hu, h⟩ := bindOk h
              obtain ⟨w, hw, h⟩ := bindOk h
              simp only [Res.pure_eq, Res.ok.injEq, Prod.mk.injEq] at h
              have hj3 := takeBlock_J hI2 hv2 hs' hl' hb' hj2 (s' := u.1) (as := u.2) hu
              rw [← h.1]
              exact evaluate_J hj3 (s' := w.1) (as := w.2) hw
            · simp only [Res.pure_eq, Res.ok.injEq, Prod.mk.injEq] at h
              rw [← h.1]; exact hj2
    · simp only [Res.pure_eq, Res.ok.injEq, Prod.mk.injEq] at h
      rw [← h.1]; exact hj1

/-! Other events. -/

theorem refreshSource_J (c : Check) (n : Nat) (s : St) (p : Nat) : (refreshSource c n s p).1.requests = s.requests ∧
    (refreshSource c n s p).1.unfinished = s.unfinished ∧ (refreshSource c n s p).1.files = s.files := by
  unfold refreshSource
  split
  · exact ⟨rfl, rfl, rfl⟩
  · split
    · exact ⟨rfl, rfl, rfl⟩
    · exact ⟨rfl, rfl, rfl⟩
    · simp only
      split
      · exact ⟨rfl, rfl, rfl⟩
      · exact ⟨rfl, rfl, rfl⟩

theorem refreshSources_J (c : Check) (n : Nat) (l : List Nat) : ∀ (s : St), (refreshSources c n l s).1.requests = s.requests ∧
    (refreshSources c n l s).1.unfinished = s.unfinished ∧ (refreshSources c n l s).1.files = s.files := by
  induction l with
  | nil => intro s; exact ⟨rfl, rfl, rfl⟩
  | cons p l ih =>
    intro s
    obtain ⟨a, b, d⟩ := refreshSource_J c n s p
    obtain ⟨a', b', d'⟩ := ih (refreshSource c n s p).1
    exact ⟨a'.trans a, b'.trans b, d'.trans d⟩

theorem check_J {sha : List UInt8 → List UInt8} {hashes : List (List UInt8)} {init V : Nat → Prop} {g : Nat → Res Bool} {F : Prop} {s s' : St}
    {k : Nat} {data : Option (List UInt8)} {as : List Act} (hv : Ver init V g F s) (hj : J s)
    (h : check sha hashes s k data = .ok (s', as)) : J s' := by
  unfold check at h
  cases hk : s.checks[k]? with
  | none =>
    simp only [hk, Res.ok.injEq, Prod.mk.injEq] at h
    rw [← h.1]; exact hj
  | some x =>
    obtain ⟨idx, q⟩ := x
    simp only [hk] at h
    obtain ⟨hash, -, h⟩ := bindOk h
    generalize checkResult sha hash data = c at h
    obtain ⟨⟨l, l1, -, -, -⟩, -, -⟩ := hv.b
    unfold pieceChecked at h
    obtain ⟨prog, hprog, h⟩ : ∃ prog, (if c = .success then pure s.files.progress
        else removePiece s.files.progress idx) = .ok prog ∧ _ := by
      by_cases e : c = .success
      · rw [if_pos e] at h ⊢; exact bindOk h
      · rw [if_neg e] at h ⊢; exact bindOk h
    simp only at h
    generalize hst : ({ s with
      checks := s.checks.eraseIdx k
      checking := sub32 s.checking 1
      fresh := if c = .success then s.fresh ++ [idx] else s.fresh
      files := { s.files with progress := prog }
      groupIdx := if c = .mismatch then u32 (s.groupIdx + 1) else s.groupIdx } : St) = t at h
    have hjt : J t := by
      obtain ⟨j1, j2, j3, j4, j5⟩ := hj
      rw [← hst]
      refine ⟨j1, j2, ?_, j4, j5⟩
      intro u hu hd
      obtain ⟨k1, k2⟩ := j3 u hu hd
      refine ⟨k1, ?_⟩
      show hasPiece prog u.index = _
      by_cases e : c = .success
      · rw [if_pos e] at hprog
        simp only [Res.pure_eq, Res.ok.injEq] at hprog
        rw [← hprog]; exact k2
      · rw [if_neg e] at hprog
        by_cases e2 : u.index = idx
        · rw [e2]; exact (removePiece_gone l1 hprog).1
        · have hki : idx < l.length := by
            refine Decidable.byContradiction fun hn => ?_
            have hu := rd_pieces_ub l1 idx hn
            unfold removePiece hasPiece at hprog
            by_cases hfin : finished s.files.progress
            · simp [hfin, selectedPiece, hu] at hprog
            · simp [hfin, hu] at hprog
          obtain ⟨pp, h1, h2⟩ := removePiece_rel l1 idx hki
          rw [hprog] at h1
          simp only [Res.ok.injEq] at h1
          subst h1
          rw [has_false l1] at k2
          rw [has_false h2]
          unfold Pieces.remove
          rw [List.getElem?_modify]
          have e3 : ¬ idx = u.index := fun x => e2 x.symm
          simpa [e3] using k2
    have hrs := refreshSources_J c q.sources.length q.sources t
    split at h
    · simp only [Res.pure_eq, Res.ok.injEq, Prod.mk.injEq] at h
      rw [← h.1]; exact hjt.same hrs.1 hrs.2.1 hrs.2.2
    · simp only [Res.pure_eq, Res.ok.injEq, Prod.mk.injEq] at h
      rw [← h.1]; exact hjt.same hrs.1 hrs.2.1 hrs.2.2

theorem dropLoop_J (l : List Nat) : ∀ {s s' : St} {as : List Act}, J s → dropLoop s l = .ok (s', as) → J s' := by
  induction l with
  | nil =>
    intro s s' as hj h
    simp only [dropLoop, Res.ok.injEq, Prod.mk.injEq] at h
    rw [← h.1]; exact hj
  | cons x l ih =>
    intro s s' as hj h
    unfold dropLoop at h
    obtain ⟨m, hm, h⟩ := bindOk h
    cases m with
    | true =>
      simp only [if_true] at h
      exact ih hj h
    | false =>
      simp only [Bool.false_eq_true, if_false] at h
      obtain ⟨t, ht, h⟩ := bindOk h
      simp only [Res.pure_eq, Res.ok.injEq, Prod.mk.injEq] at h
      rw [← h.1]
      refine ih ?_ (s' := t.1) (as := t.2) ht
      exact (hj.del x).same rfl rfl rfl

theorem refreshSel_J {s s' : St} {order : List (Nat × Nat)} {as : List Act} (hj : J s) (h : refreshSelection s order = .ok (s', as)) : J s' := by
  unfold refreshSelection at h
  obtain ⟨t, ht, h⟩ := bindOk h
  have h1 : J t.1 := dropLoop_J _ (hj.same (s' := { s with sorted := order }) rfl rfl rfl) (s' := t.1) (as := t.2) ht
  split at h
  · simp only [Res.pure_eq, Res.ok.injEq] at h
    rw [h] at h1; exact h1
  · obtain ⟨u, hu, h⟩ := bindOk h
    simp only [Res.pure_eq, Res.ok.injEq, Prod.mk.injEq] at h
    rw [← h.1]
    exact evaluateAll_J _ h1 (s' := u.1) (as := u.2) hu

theorem closed_J {s : St} (hj : J s) (p : Nat) : J (connectionClosed s p) := by
  have hk := (closed_keys s p).2.2.2.2
  unfold connectionClosed at hk ⊢
  split
  · exact hj
  · next info hi =>
    rw [hi] at hk
    obtain ⟨j1, j2, j3, j4, j5⟩ := hj
    refine ⟨?_, ?_, fun u hu hd => ⟨fun x => (j3 u hu hd).1 (hk _ x), (j3 u hu hd).2⟩, j4, j5⟩
    · unfold Sorted Map.mapAll
      rw [List.pairwise_map]
      exact j1
    intro i q hq
    unfold Map.mapAll at hq
    obtain ⟨x, hx, e⟩ := List.mem_map.1 hq
    simp only [Prod.mk.injEq] at e
    obtain ⟨e1, e2⟩ := e
    have := j2 x.1 x.2 hx
    rw [← e2, ← e1]
    split
    · exact this
    · exact this

theorem closedAll_J (ps : List Nat) : ∀ {s : St}, J s → J (ps.foldl connectionClosed s) := by
  induction ps with
  | nil => intro s h; exact h
  | cons p ps ih => intro s h; exact ih (closed_J h p)

theorem stop_J {init V : Nat → Prop} {g : Nat → Res Bool} {F : Prop} {s : St} (hI : Inv s) (hv : Ver init V g F s) (hj : J s) : J (stop s) := by
  have hI' := (closedAll_inv (s.peers.map (·.1)) hI).1
  have hv' := (closedAll_still (s.peers.map (·.1)) s).ver hv
  have hj' := closedAll_J (s.peers.map (·.1)) hj
  unfold stop
  generalize (s.peers.map (·.1)).foldl connectionClosed s = t at *
  obtain ⟨j1, j2, j3, j4, j5⟩ := hj'
  obtain ⟨⟨l, l1, -, -, -⟩, -, -⟩ := hv'.b
  have hnew : ∀ u, u ∈ (t.requests.map (·.2.piece)).filter (fun u => u.downloadedSize ≠ 0) →
      HasReq t u.index ∧ Exact t.files.info u.index u := by
    intro u hu
    obtain ⟨hu, -⟩ := List.mem_filter.1 hu
    obtain ⟨⟨i, q⟩, hx, rfl⟩ := List.mem_map.1 hu
    have h1 : q.piece.index = i := (hI'.base.req i q hx).1
    simp only
    rw [h1]
    exact ⟨⟨q, hx⟩, j2 i q hx⟩
  refine ⟨List.Pairwise.nil, by intro i q hq; simp at hq, ?_, ?_, ?_⟩
  · intro u hu hd
    refine ⟨by rintro ⟨q, hq⟩; simp at hq, ?_⟩
    rcases List.mem_append.1 hu with hu | hu
    · exact (j3 u hu hd).2
    · exact missing_has l1 (hv'.reqs _ (hnew u hu).1)
  · intro u hu
    rcases List.mem_append.1 hu with hu | hu
    · exact j4 u hu
    · exact (hnew u hu).2
  · show (((t.unfinished ++ _).filter _).map _).Nodup
    rw [List.filter_append, List.map_append, List.nodup_append]
    refine ⟨j5, ?_, ?_⟩
    · have e : (t.requests.map fun e => e.2.piece).map (·.index) = t.requests.map (·.1) := by
        rw [List.map_map]
        apply List.map_congr_left
        intro x hx
        exact (hI'.base.req x.1 x.2 hx).1
      have hn := sorted_nodup j1
      rw [← e] at hn
      exact hn.sublist ((List.filter_sublist.trans List.filter_sublist).map _)
    · intro x hx y hy exy
      obtain ⟨u, hu, rfl⟩ := List.mem_map.1 hx
      obtain ⟨w, hw, rfl⟩ := List.mem_map.1 hy
      obtain ⟨hu1, hu2⟩ := List.mem_filter.1 hu
      have hw1 := hnew w (List.mem_filter.1 hw).1
      exact (j3 u hu1 (by simpa using hu2)).1 (by rw [exy]; exact hw1.1)

theorem select_J {init V : Nat → Prop} {s t : St} {idx : Nat} {v : Bool} (hv : VerB init V s) (hj : J s) (h : select s idx v = .ok t) : J t := by
  obtain ⟨⟨l, l1, l2, l3, l4⟩, hn, hc⟩ := hv
  obtain ⟨l', r1, r2, r3⟩ := select_has l1 h
  obtain ⟨f, -, e, hf⟩ := select_spec h
  obtain ⟨j1, j2, j3, j4, j5⟩ := hj
  have hinfo : t.files.info = s.files.info := by rw [e]; exact hf
  refine ⟨by rw [e]; exact j1, by rw [hinfo, e]; exact j2, ?_, by rw [hinfo, e]; exact j4, by rw [e]; exact j5⟩
  intro u hu hd
  have hu' : u ∈ s.unfinished := by rw [e] at hu; exact hu
  obtain ⟨k1, k2⟩ := j3 u hu' hd
  refine ⟨fun ⟨q, hq⟩ => k1 ⟨q, by rw [e] at hq; exact hq⟩, ?_⟩
  rw [has_false r1, r3, ← has_false l1]; exact k2

theorem step_J {sha : List UInt8 → List UInt8} {hashes : List (List UInt8)} {init V : Nat → Prop} {g : Nat → Res Bool} {F : Prop} {s s' : St}
    {e : Ev} {as : List Act} (hI : Inv s) (hv : Ver init V g F s) {n : Nat} (hs : Shape s.files.info n) (hlen : s.files.progress.pieces.length = n)
    (hb : rightLength s.files.info e) (hj : J s) (h : step sha hashes s e = .ok (s', as)) : J s' := by
  cases e with
  | connect p =>
    simp only [step, Res.ok.injEq, Prod.mk.injEq] at h
    rw [← h.1]
    split
    · exact hj
    · exact hj.same rfl rfl rfl
  | handshake p =>
    simp only [step, handshake] at h
    cases hp : s.peers.get p with
    | none => simp only [hp, Res.ok.injEq, Prod.mk.injEq] at h; rw [← h.1]; exact hj
    | some peer =>
      simp only [hp] at h
      split at h
      · split at h
        · obtain ⟨d, -, h⟩ := bindOk h
          simp only [Res.pure_eq, Res.ok.injEq, Prod.mk.injEq] at h
          rw [← h.1]; exact hj.same rfl rfl rfl
        · simp only [Res.pure_eq, Res.ok.injEq, Prod.mk.injEq] at h
          rw [← h.1]; exact hj.same rfl rfl rfl
      · simp only [Res.ok.injEq, Prod.mk.injEq] at h; rw [← h.1]; exact hj
  | message p m => exact message_J hI hv hs hlen hb hj h
  | closed p =>
    simp only [step, Res.ok.injEq, Prod.mk.injEq] at h
    rw [← h.1]
    exact (closed_J hj p).same rfl rfl rfl
  | check k data => exact check_J hv hj h
  | finish =>
    simp only [step, finish] at h
    split at h
    · simp only [Res.ok.injEq, Prod.mk.injEq] at h; rw [← h.1]; exact hj
    · simp only [Res.ok.injEq, Prod.mk.injEq] at h
      rw [← h.1]
      exact hj.same rfl rfl rfl
  | select idx v =>
    simp only [step] at h
    obtain ⟨t, ht, h⟩ := bindOk h
    simp only [Res.pure_eq, Res.ok.injEq, Prod.mk.injEq] at h
    rw [← h.1]; exact select_J hv.b hj ht
  | setPriority idx pr =>
    simp only [step, Res.ok.injEq, Prod.mk.injEq] at h
    rw [← h.1]; exact hj.same rfl rfl rfl
  | refresh order =>
    simp only [step] at h
    split at h
    · exact refreshSel_J hj h
    · simp only [Res.ok.injEq, Prod.mk.injEq] at h; rw [← h.1]; exact hj
  | selectFile idx v order =>
    simp only [step] at h
    obtain ⟨t, ht, h⟩ := bindOk h
    have hjt := select_J hv.b hj ht
    split at h
    · split at h
      · exact refreshSel_J hjt h
      · simp only [Res.pure_eq, Res.ok.injEq, Prod.mk.injEq] at h; rw [← h.1]; exact hj
    · simp only [Res.pure_eq, Res.ok.injEq, Prod.mk.injEq] at h
      rw [← h.1]; exact hjt
  | sort order =>
    simp only [step, Res.ok.injEq, Prod.mk.injEq] at h
    rw [← h.1]
    split
    · exact hj.same rfl rfl rfl
    · exact hj
  | tick =>
    simp only [step] at h
    split at h
    · simp only [Res.ok.injEq, Prod.mk.injEq] at h
      rw [← h.1]; exact hj.same rfl rfl rfl
    · simp only [Res.ok.injEq, Prod.mk.injEq] at h; rw [← h.1]; exact hj
  | start order =>
    simp only [step] at h
    split at h
    · simp only [Res.ok.injEq, Prod.mk.injEq] at h; rw [← h.1]; exact hj
    · exact refreshSel_J (hj.same (s' := { s with running := true }) rfl rfl rfl) h
  | stop =>
    simp only [step, Res.ok.injEq, Prod.mk.injEq] at h
    rw [← h.1]
    exact stop_J hI hv hj

theorem run_J {sha : List UInt8 → List UInt8} {hashes : List (List UInt8)} {s0 : St} (hf : Fresh s0) (hk : KeptOk s0) (hg : KeptGood s0)
    {l : Pieces} (hl : Rel s0.files.progress l) (hlen : l.length < 4294967296) (hs : Shape s0.files.info l.length) (es : List Ev) :
    ∀ {s : St} {h : History}, (∀ e ∈ es, isSelect e = false) → (∀ e ∈ es, rightLength s0.files.info e) →
      run sha hashes s0 es = .ok (s, h) → J s ∧ s.files.info = s0.files.info ∧ s.files.progress.pieces.length = l.length := by
  induction es using List.reverseRecOn with
  | nil =>
    intro s h _ _ hr
    simp only [run, Res.ok.injEq, Prod.mk.injEq] at hr
    obtain ⟨rfl, rfl⟩ := hr
    refine ⟨⟨?_, ?_, ?_, fun u hu => (hg.1 u hu).1, hg.2⟩, rfl, length_eq hl⟩
    · rw [hf.1]; exact List.Pairwise.nil
    · intro i q hq; rw [hf.1] at hq; simp at hq
    · intro u hu hd
      refine ⟨?_, (hg.1 u hu).2 hd⟩
      rintro ⟨q, hq⟩; rw [hf.1] at hq; simp at hq
  | append_singleton es e ih =>
    intro s h hns hb hr
    obtain ⟨s1, h1, as, r1, r2, rfl⟩ := run_concat es e hr
    have hns1 : ∀ x ∈ es, isSelect x = false := fun x hx => hns x (List.mem_append_left _ hx)
    obtain ⟨hj, hi, hn⟩ := ih hns1 (fun x hx => hb x (List.mem_append_left _ hx)) r1
    obtain ⟨hI, hv⟩ := run_ver hf hk hl hlen es hns1 r1
    have hok := step_ok hI r2
    refine ⟨?_, hok.info.trans hi, ?_⟩
    · exact step_J hI hv (by rw [hi]; exact hs) hn (by rw [hi]; exact hb e (by simp)) hj r2
    · rw [step_len hI hv r2, hn]

/-! Sums. -/

theorem received_bytes {pp : PP} {l : Pieces} (r : Rel pp l) {ps full : Nat} (hps : 0 < ps) (hlen' : l.length = full / ps + 1) :
    getReceivedBytes pp ps full = .ok (l.bytes ps full (·.has) : Int) ∨ full % ps = 0 := by
  by_cases hshort : full % ps = 0
  · exact Or.inr hshort
  left
  have hdm := Nat.div_add_mod full ps
  have hmod := Nat.mod_lt full hps
  rcases List.eq_nil_or_concat l with rfl | ⟨l', p, rfl⟩
  · simp at hlen'
  · simp only [List.concat_eq_append, List.length_append, List.length_cons, List.length_nil,
      Nat.zero_add, Nat.add_right_cancel_iff] at *
    have hle : l'.length * ps ≤ full := by rw [hlen', Nat.mul_comm]; omega
    have hsub : full - l'.length * ps = full % ps := by rw [hlen', Nat.mul_comm]; omega
    have hge : full ≤ (l'.length + 1) * ps := by rw [Nat.add_mul, hlen', Nat.mul_comm]; omega
    have hb := fun q => bytes_snoc l' p ps full q hle hge
    have hlast : pp.pieces.getLast? = some (enc p) := by rw [r.pieces]; simp
    unfold getReceivedBytes
    rw [hlast]
    simp only [enc_has, r.received, Pieces.received, hb, hsub, List.countP_append, List.countP_cons,
      List.countP_nil]
    cases p.has <;> simp [Nat.pos_iff_ne_zero.mp hps, Int.add_sub_cancel] <;> omega

theorem sum_add (n : Nat) (f g : Nat → Nat) : ((List.range n).map fun j => f j + g j).sum = ((List.range n).map f).sum + ((List.range n).map g).sum := by
  induction n with
  | zero => rfl
  | succ n ih =>
    rw [List.range_succ]
    simp only [List.map_append, List.map_cons, List.map_nil, List.sum_append, List.sum_cons, List.sum_nil, ih]
    omega

theorem sum_congr {n : Nat} {f g : Nat → Nat} (h : ∀ j, j < n → f j = g j) : ((List.range n).map f).sum = ((List.range n).map g).sum := by
  congr 1
  apply List.map_congr_left
  intro j hj
  exact h j (List.mem_range.1 hj)

theorem sum_le {n : Nat} {f g : Nat → Nat} (h : ∀ j, j < n → f j ≤ g j) : ((List.range n).map f).sum ≤ ((List.range n).map g).sum := by
  induction n with
  | zero => exact Nat.le_refl _
  | succ n ih =>
    rw [List.range_succ]
    simp only [List.map_append, List.map_cons, List.map_nil, List.sum_append, List.sum_cons, List.sum_nil]
    have := ih fun j hj => h j (by omega)
    have := h n (by omega)
    omega

theorem sum_eq_all {n : Nat} {f g : Nat → Nat} (h : ∀ j, j < n → f j ≤ g j)
    (he : ((List.range n).map f).sum = ((List.range n).map g).sum) : ∀ j, j < n → f j = g j := by
  induction n with
  | zero => intro j hj; omega
  | succ n ih =>
    rw [List.range_succ] at he
    simp only [List.map_append, List.map_cons, List.map_nil, List.sum_append, List.sum_cons, List.sum_nil] at he
    have h1 := sum_le (n := n) fun j hj => h j (by omega)
    have h2 := h n (by omega)
    intro j hj
    by_cases e : j = n
    · subst e; omega
    · exact ih (fun j hj => h j (by omega)) (by omega) j (by omega)

theorem sum_zero (n : Nat) : ((List.range n).map fun _ => 0).sum = 0 := by
  induction n with
  | zero => rfl
  | succ n ih => simp

theorem sum_one (n k v : Nat) (h : k < n) : ((List.range n).map fun j => if j = k then v else 0).sum = v := by
  induction n with
  | zero => omega
  | succ n ih =>
    rw [List.range_succ]
    simp only [List.map_append, List.map_cons, List.map_nil, List.sum_append, List.sum_cons, List.sum_nil]
    by_cases e : n = k
    · subst e
      rw [if_pos rfl]
      have : ((List.range n).map fun j => if j = n then v else 0).sum = 0 := by
        rw [sum_congr (g := fun _ => 0) fun j hj => if_neg (by omega), sum_zero]
      omega
    · rw [if_neg e, ih (by omega)]; omega

theorem sum_bytes (l : Pieces) (ps full : Nat) :
    l.bytes ps full (·.has) = ((List.range l.length).map fun j => if (l[j]?).map (·.has) = some true then pieceBytes ps full j else 0).sum := by
  induction l using List.reverseRecOn with
  | nil => rfl
  | append_singleton l p ih =>
    unfold Pieces.bytes at ih ⊢
    rw [List.mapIdx_append, List.sum_append, ih, List.length_append, List.length_singleton, List.range_succ]
    simp only [List.map_append, List.map_cons, List.map_nil, List.sum_append, List.sum_cons, List.sum_nil]
    congr 1
    · apply sum_congr
      intro j hj
      rw [List.getElem?_append_left hj]
    · simp [pieceBytes, Pieces.pieceSize]

def reqBytes (i : Info) (m : Map Req) (j : Nat) : Nat :=
  match m.get j with
  | some q => bytesOf i j q.piece
  | none => 0

theorem get_none {m : Map Req} {k : Nat} (h : ∀ e ∈ m, e.1 ≠ k) : m.get k = none := by
  cases e : m.get k with
  | none => rfl
  | some q => exact absurd rfl (h _ (Map.get_mem e))

theorem sum_requests (i : Info) (n : Nat) (m : Map Req) (hs : Sorted m) (hn : ∀ e ∈ m, e.1 < n) (hx : ∀ e ∈ m, Exact i e.1 e.2.piece) :
    (m.map fun e => e.2.piece.downloadedSize).sum = ((List.range n).map (reqBytes i m)).sum := by
  induction m with
  | nil => exact (sum_zero n).symm
  | cons e m ih =>
    obtain ⟨k, v⟩ := e
    unfold Sorted at hs
    rw [List.pairwise_cons] at hs
    obtain ⟨h1, h2⟩ := hs
    have hk : Map.get (α := Req) m k = none := get_none fun e he => by have := h1 e he; simp only at this; omega
    rw [List.map_cons, List.sum_cons, ih h2 (fun e he => hn e (List.mem_cons_of_mem _ he)) (fun e he => hx e (List.mem_cons_of_mem _ he))]
    have hv : v.piece.downloadedSize = bytesOf i k v.piece := hx (k, v) List.mem_cons_self
    rw [← sum_one n k v.piece.downloadedSize (hn (k, v) List.mem_cons_self), ← sum_add]
    apply sum_congr
    intro j _
    unfold reqBytes
    by_cases e : j = k
    · subst e
      rw [hk]
      simp only [Map.get, if_true, hv]
      rfl
    · rw [if_neg e]
      have e' : ¬ k = j := fun x => e x.symm
      simp only [Map.get, if_neg e', Nat.zero_add]

def keptBytes (i : Info) (us : List PState) (j : Nat) : Nat :=
  match us.find? fun u => u.index = j ∧ u.downloadedSize ≠ 0 with
  | some u => bytesOf i j u
  | none => 0

theorem sum_kept (i : Info) (n : Nat) (us : List PState) (hs : ((us.filter (·.downloadedSize ≠ 0)).map (·.index)).Nodup)
    (hn : ∀ u ∈ us, u.downloadedSize ≠ 0 → u.index < n) (hx : ∀ u ∈ us, Exact i u.index u) :
    (us.map (·.downloadedSize)).sum = ((List.range n).map (keptBytes i us)).sum := by
  induction us with
  | nil => exact (sum_zero n).symm
  | cons u us ih =>
    have hn' := fun w hw => hn w (List.mem_cons_of_mem u hw)
    have hx' := fun w hw => hx w (List.mem_cons_of_mem u hw)
    rw [List.map_cons, List.sum_cons]
    by_cases hd : u.downloadedSize = 0
    · rw [List.filter_cons_of_neg (by simpa using hd)] at hs
      rw [ih hs hn' hx', hd, Nat.zero_add]
      apply sum_congr
      intro j _
      unfold keptBytes
      rw [List.find?_cons_of_neg (by simp [hd])]
    · rw [List.filter_cons_of_pos (by simpa using hd), List.map_cons, List.nodup_cons] at hs
      rw [ih hs.2 hn' hx']
      have hv : u.downloadedSize = bytesOf i u.index u := hx u List.mem_cons_self
      rw [← sum_one n u.index u.downloadedSize (hn u List.mem_cons_self hd), ← sum_add]
      apply sum_congr
      intro j _
      unfold keptBytes
      by_cases e : j = u.index
      · have hno : us.find? (fun w => decide (w.index = j ∧ w.downloadedSize ≠ 0)) = none := by
          rw [List.find?_eq_none]
          intro w hw hc
          simp only [decide_eq_true_eq] at hc
          exact hs.1 (List.mem_map.2 ⟨w, List.mem_filter.2 ⟨hw, by simpa using hc.2⟩, by rw [hc.1, e]⟩)
        rw [hno, List.find?_cons_of_pos (by simp [e, hd]), if_pos e]
        simp only [hv, Nat.add_zero]
        rw [e]
      · have e' : ¬ u.index = j := fun x => e x.symm
        rw [List.find?_cons_of_neg (by simp [e']), if_neg e, Nat.zero_add]

theorem sum_pieces {i : Info} {n : Nat} (hs : Shape i n) : ((List.range n).map (pieceBytes i.pieceSize i.fullSize)).sum = i.fullSize := by
  have h : ∀ c, ((List.range c).map (pieceBytes i.pieceSize i.fullSize)).sum = min i.fullSize (c * i.pieceSize) := by
    intro c
    induction c with
    | zero => simp
    | succ c ih =>
      rw [List.range_succ]
      simp only [List.map_append, List.map_cons, List.map_nil, List.sum_append, List.sum_cons, List.sum_nil, ih]
      unfold pieceBytes
      rw [Nat.add_mul]
      omega
  rw [h, hs.count]
  have hd := Nat.div_add_mod i.fullSize i.pieceSize
  have hm := Nat.mod_lt i.fullSize hs.ps_pos
  rw [Nat.add_mul, Nat.mul_comm]
  omega

/-- In a state of the invariants the bytes are exact. -/
theorem left_state {init V : Nat → Prop} {g : Nat → Res Bool} {F : Prop} {s : St} {n : Nat} (hI : Inv s) (hv : Ver init V g F s) (hj : J s)
    (hs : Shape s.files.info n) (hlen : s.files.progress.pieces.length = n) :
    DataLeft.finishedBytes s = .ok (allThere s n) ∧ (∀ j, j < n → there s j ≤ pieceBytes s.files.info.pieceSize s.files.info.fullSize j) ∧
      allThere s n ≤ s.files.info.fullSize ∧ DataLeft.dataLeft s = .ok (s.files.info.fullSize - allThere s n) := by
  obtain ⟨⟨l, l1, -, -, -⟩, -, -⟩ := hv.b
  have hll : l.length = n := by rw [← length_eq l1]; exact hlen
  have hreqHas : ∀ j, HasReq s j → (l[j]?).map (·.has) = some false := fun j hr => (has_false l1 j).1 (missing_has l1 (hv.reqs j hr))
  have hltOf : ∀ j, (l[j]?).map (·.has) = some false → j < n := by
    intro j h
    rw [← hll]
    refine Decidable.byContradiction fun hn => ?_
    rw [List.getElem?_eq_none (by omega)] at h; simp at h
  have hkeptHas : ∀ u ∈ s.unfinished, u.downloadedSize ≠ 0 → (l[u.index]?).map (·.has) = some false :=
    fun u hu hd => (has_false l1 _).1 (hj.kept u hu hd).2
  have hhas : ∀ j, j < n → (hasPiece s.files.progress j = .ok true ↔ (l[j]?).map (·.has) = some true) := by
    intro j h
    rw [← hll] at h
    rw [hasPiece_eq l1 j h, List.getElem?_eq_getElem h]; simp
  have hthere : ∀ j, j < n → there s j = (if (l[j]?).map (·.has) = some true then pieceBytes s.files.info.pieceSize s.files.info.fullSize j else 0) +
      (reqBytes s.files.info s.requests j + keptBytes s.files.info s.unfinished j) := by
    intro j h
    unfold there reqBytes keptBytes
    have hk : ∀ u, s.unfinished.find? (fun u => decide (u.index = j ∧ u.downloadedSize ≠ 0)) = some u → u ∈ s.unfinished ∧ u.index = j ∧ u.downloadedSize ≠ 0 := by
      intro u hu
      have h1 := List.find?_some hu
      exact ⟨List.mem_of_find?_eq_some hu, by simpa using h1⟩
    by_cases hp : (l[j]?).map (·.has) = some true
    · rw [if_pos ((hhas j h).2 hp), if_pos hp]
      cases hr : s.requests.get j with
      | some q =>
        have := hreqHas j (HasReq.get hr)
        rw [hp] at this; simp at this
      | none =>
        cases hu : s.unfinished.find? (fun u => decide (u.index = j ∧ u.downloadedSize ≠ 0)) with
        | none => rfl
        | some u =>
          obtain ⟨k1, k2, k3⟩ := hk u hu
          have := hkeptHas u k1 k3
          rw [k2, hp] at this; simp at this
    · rw [if_neg (fun x => hp ((hhas j h).1 x)), if_neg hp]
      cases hr : s.requests.get j with
      | some q =>
        cases hu : s.unfinished.find? (fun u => decide (u.index = j ∧ u.downloadedSize ≠ 0)) with
        | none => simp
        | some u =>
          obtain ⟨k1, k2, k3⟩ := hk u hu
          exact absurd (by rw [k2]; exact HasReq.get hr) (hj.kept u k1 k3).1
      | none =>
        cases hu : s.unfinished.find? (fun u => decide (u.index = j ∧ u.downloadedSize ≠ 0)) with
        | none => rfl
        | some u => simp
  have hbound : ∀ j, j < n → there s j ≤ pieceBytes s.files.info.pieceSize s.files.info.fullSize j := by
    intro j h
    unfold there
    split
    · exact Nat.le_refl _
    · split
      · next q hq => exact marked_bound hs h _ (hI.base.req.get _ _ hq).2
      · split
        · next u hu =>
          have h1 := List.find?_some hu
          simp only [decide_eq_true_eq] at h1
          have := hI.base.kept u (List.mem_of_find?_eq_some hu) h1.2
          rw [h1.1] at this
          exact marked_bound hs h _ this
        · exact Nat.zero_le _
  have hle : allThere s n ≤ s.files.info.fullSize := by
    rw [← sum_pieces hs]; exact sum_le hbound
  have hsum : allThere s n = l.bytes s.files.info.pieceSize s.files.info.fullSize (·.has) + DataLeft.unfinishedTotal s := by
    unfold allThere DataLeft.unfinishedTotal DataLeft.requestedSize unfinishedSize
    rw [sum_congr hthere, sum_add, sum_add, ← hll, ← sum_bytes, hll]
    rw [sum_requests s.files.info n s.requests hj.keys (fun e he => hltOf _ (hreqHas _ ⟨e.2, he⟩)) (fun e he => hj.req _ _ he),
      sum_kept s.files.info n s.unfinished hj.once (fun u hu hd => hltOf _ (hkeptHas u hu hd)) hj.exact]
    omega
  have hrec : getReceivedBytes s.files.progress s.files.info.pieceSize s.files.info.fullSize =
      .ok (l.bytes s.files.info.pieceSize s.files.info.fullSize (·.has) : Int) := by
    rcases received_bytes l1 hs.ps_pos (full := s.files.info.fullSize) (by rw [hll]; exact hs.count) with h | h
    · exact h
    · exact absurd h hs.short
  have hfin : DataLeft.finishedBytes s = .ok (allThere s n) := by
    unfold DataLeft.finishedBytes
    rw [hrec]
    simp only [Res.bind_ok, Res.pure_eq, Res.ok.injEq]
    have := hs.full_lt
    omega
  refine ⟨hfin, hbound, hle, ?_⟩
  unfold DataLeft.dataLeft
  rw [hfin]
  simp only [Res.bind_ok, Res.pure_eq, Res.ok.injEq]
  have := hs.full_lt
  omega

end Verif.Downloader
