import Verif.Model.FileProgress
import Verif.Spec.FileProgress
import Verif.Proof.DataLeft

namespace Verif.Downloader
open Verif Layout Progress PieceState Spec Spec.Download Spec.DataLeft Spec.FileProgress FileProgress

theorem kept_sum (i : Info) (us : List PState) (p : Nat) (hs : ((us.filter (·.downloadedSize ≠ 0)).map (·.index)).Nodup)
    (hx : ∀ u ∈ us, Exact i u.index u) : ((us.filter fun u => u.index = p).map (·.downloadedSize)).sum = keptBytes i us p := by
  induction us with
  | nil => rfl
  | cons u us ih =>
    have hx' := fun w hw => hx w (List.mem_cons_of_mem u hw)
    by_cases hd : u.downloadedSize = 0
    · rw [List.filter_cons_of_neg (by simpa using hd)] at hs
      have h1 := ih hs hx'
      have h2 : keptBytes i (u :: us) p = keptBytes i us p := by
        unfold keptBytes
        rw [List.find?_cons_of_neg (by simp [hd])]
      rw [h2, ← h1]
      by_cases e : u.index = p
      · rw [List.filter_cons_of_pos (by simpa using e)]; simp [hd]
      · rw [List.filter_cons_of_neg (by simpa using e)]
    · rw [List.filter_cons_of_pos (by simpa using hd), List.map_cons, List.nodup_cons] at hs
      have h1 := ih hs.2 hx'
      by_cases e : u.index = p
      · have hno : us.find? (fun w => decide (w.index = p ∧ w.downloadedSize ≠ 0)) = none := by
          rw [List.find?_eq_none]
          intro w hw hc
          simp only [decide_eq_true_eq] at hc
          exact hs.1 (List.mem_map.2 ⟨w, List.mem_filter.2 ⟨hw, by simpa using hc.2⟩, by rw [hc.1, e]⟩)
        have h0 : keptBytes i us p = 0 := by unfold keptBytes; rw [hno]
        rw [List.filter_cons_of_pos (by simpa using e), List.map_cons, List.sum_cons, h1, h0]
        unfold keptBytes
        rw [List.find?_cons_of_pos (by simp [e, hd])]
        have := hx u List.mem_cons_self
        rw [e] at this
        unfold Exact at this
        simpa using this
      · rw [List.filter_cons_of_neg (by simpa using e), h1]
        unfold keptBytes
        rw [List.find?_cons_of_neg (by simp [e])]

theorem keptBytes_bound {s : St} {n : Nat} (hI : Inv s) (hs : Shape s.files.info n) {p : Nat} (hp : p < n) :
    keptBytes s.files.info s.unfinished p ≤ pieceBytes s.files.info.pieceSize s.files.info.fullSize p := by
  unfold keptBytes
  split
  · next u hu =>
    have h1 := List.find?_some hu
    simp only [decide_eq_true_eq] at h1
    have := hI.base.kept u (List.mem_of_find?_eq_some hu) h1.2
    rw [h1.1] at this
    exact marked_bound hs hp _ this
  · exact Nat.zero_le _

theorem unfinishedOf_eq {s : St} {n : Nat} (hI : Inv s) (hj : J s) (hs : Shape s.files.info n) {p : Nat} (hp : p < n)
    (hh : hasPiece s.files.progress p ≠ .ok true) : unfinishedOf s p = there s p := by
  unfold unfinishedOf there
  rw [if_neg hh]
  cases hr : s.requests.get p with
  | some q => exact hj.req _ _ (Map.get_mem hr)
  | none =>
    show keptSize s.unfinished p = keptBytes s.files.info s.unfinished p
    unfold keptSize
    rw [kept_sum s.files.info s.unfinished p hj.once hj.exact]
    have h1 := keptBytes_bound hI hs hp
    have h2 := (pieceBytes_range hs hp).2
    have := hs.ps_lt
    exact u32_id (by omega)

theorem sum_map_le (l : List Nat) (f : Nat → Nat) (c : Nat) (h : ∀ p ∈ l, f p ≤ c) : (l.map f).sum ≤ l.length * c := by
  induction l with
  | nil => simp
  | cons p l ih =>
    have h1 := h p List.mem_cons_self
    have h2 := ih fun q hq => h q (List.mem_cons_of_mem _ hq)
    rw [List.map_cons, List.sum_cons, List.length_cons, Nat.add_mul]
    omega

theorem sum_map_eq (l : List Nat) (f : Nat → Nat) (c : Nat) (h : ∀ p ∈ l, f p ≤ c) (he : (l.map f).sum = l.length * c) : ∀ p ∈ l, f p = c := by
  induction l with
  | nil => simp
  | cons p l ih =>
    have h1 := h p List.mem_cons_self
    have h2 := sum_map_le l f c fun q hq => h q (List.mem_cons_of_mem _ hq)
    rw [List.map_cons, List.sum_cons, List.length_cons, Nat.add_mul] at he
    intro q hq
    rcases List.mem_cons.1 hq with rfl | hq
    · omega
    · exact ih (fun q hq => h q (List.mem_cons_of_mem _ hq)) (by omega) q hq

/-- The bytes of pieces that are not there. -/
def rest (s : St) (l : List Nat) : Nat := (l.map fun p => if has s p then 0 else there s p).sum

theorem count_eq_of {s : St} {n : Nat} (hok : ∀ p, p < n → ∃ b, hasPiece s.files.progress p = .ok b)
    (hu : ∀ p, p < n → hasPiece s.files.progress p ≠ .ok true → unfinishedOf s p = there s p) (l : List Nat) :
    ∀ (a : Shown), (∀ p ∈ l, p < n) → a.received + l.length < 4294967296 → a.unfinished + rest s l < 4294967296 →
      count s l a = .ok ⟨a.received + l.countP (has s), a.unfinished + rest s l⟩ := by
  induction l with
  | nil => intro a _ _ _; simp [count, rest]
  | cons p l ih =>
    intro a hn h1 h2
    obtain ⟨b, hb⟩ := hok p (hn p List.mem_cons_self)
    have hr : rest s (p :: l) = (if has s p then 0 else there s p) + rest s l := by
      unfold rest; rw [List.map_cons, List.sum_cons]
    rw [hr] at h2 ⊢
    rw [List.length_cons] at h1
    have hn' : ∀ q ∈ l, q < n := fun q hq => hn q (List.mem_cons_of_mem _ hq)
    unfold count
    rw [hb]
    simp only [Res.bind_ok]
    cases b with
    | true =>
      have hh : has s p = true := by unfold has; simp [hb]
      rw [hh] at h2 ⊢
      simp only [if_true] at h2 ⊢
      rw [u32_id (by omega), ih _ hn' (by simp only; omega) (by simp only; omega)]
      rw [List.countP_cons_of_pos hh]
      simp only [Res.ok.injEq, Shown.mk.injEq]
      omega
    | false =>
      have hh : has s p = false := by unfold has; simp [hb]
      rw [hh] at h2 ⊢
      simp only [Bool.false_eq_true, if_false] at h2 ⊢
      rw [hu p (hn p List.mem_cons_self) (by rw [hb]; simp), u32_id (by omega), ih _ hn' (by simp only; omega) (by simp only; omega)]
      rw [List.countP_cons_of_neg (by rw [hh]; simp)]
      simp only [Res.ok.injEq, Shown.mk.injEq]
      exact ⟨trivial, by omega⟩

theorem share_sum (s : St) (l : List Nat) : l.countP (has s) * s.files.info.pieceSize + rest s l = (l.map (share s)).sum := by
  induction l with
  | nil => simp [rest]
  | cons p l ih =>
    have hr : rest s (p :: l) = (if has s p then 0 else there s p) + rest s l := by
      unfold rest; rw [List.map_cons, List.sum_cons]
    rw [hr, List.map_cons, List.sum_cons, ← ih, List.countP_cons, share]
    cases has s p with
    | true => simp only [if_true, Nat.add_mul]; omega
    | false => simp only [Bool.false_eq_true, if_false, Nat.add_zero]; omega

theorem rest_le (s : St) (l : List Nat) : rest s l ≤ (l.map (share s)).sum := by
  rw [← share_sum]; omega

theorem shown_state {init V : Nat → Prop} {g : Nat → Res Bool} {F : Prop} {s : St} {n : Nat} (hI : Inv s) (hv : Ver init V g F s) (hj : J s)
    (hs : Shape s.files.info n) (hlen : s.files.progress.pieces.length = n) (hn : n < 4294967296) {f : File} (h1 : f.startPieceIndex ≤ f.endPieceIndex)
    (h2 : f.endPieceIndex < n) (h3 : (f.endPieceIndex + 1 - f.startPieceIndex) * s.files.info.pieceSize < 4294967296) :
    ∃ a, shown s f = .ok a ∧ a.received = (span f).countP (has s) ∧ num s a = ((span f).map (share s)).sum ∧
      den s f = (span f).length * s.files.info.pieceSize ∧ (∀ p ∈ span f, share s p ≤ s.files.info.pieceSize) := by
  have hb := (left_state hI hv hj hs hlen).2.1
  obtain ⟨⟨l, l1, -, -, -⟩, -, -⟩ := hv.b
  have hll : l.length = n := by rw [← length_eq l1]; exact hlen
  have hspan : ∀ p ∈ span f, p < n := by
    intro p hp
    unfold span at hp
    rw [List.mem_range'_1] at hp
    omega
  have hle : ∀ p ∈ span f, share s p ≤ s.files.info.pieceSize := by
    intro p hp
    unfold share
    split
    · exact Nat.le_refl _
    · exact Nat.le_trans (hb p (hspan p hp)) (pieceBytes_range hs (hspan p hp)).2
  have hspl : (span f).length = f.endPieceIndex + 1 - f.startPieceIndex := by unfold span; rw [List.length_range']
  have hsum := sum_map_le (span f) (share s) s.files.info.pieceSize hle
  have hrest := rest_le s (span f)
  rw [hspl] at hsum
  have hc := count_eq_of (s := s) (n := n) (fun p hp => ⟨_, hasPiece_eq l1 p (by omega)⟩) (fun p hp hh => unfinishedOf_eq hI hj hs hp hh)
    (span f) {} hspan (by rw [hspl]; simp only; omega) (by simp only; omega)
  refine ⟨⟨0 + (span f).countP (has s), 0 + rest s (span f)⟩, ?_, Nat.zero_add _, ?_, ?_, hle⟩
  · unfold shown
    rw [if_pos (by omega)]
    exact hc
  · unfold num
    simp only [Nat.zero_add]
    exact share_sum s (span f)
  · unfold den pieces
    rw [hspl, u32_id (by omega), sub32_eq (by omega) (by omega), Nat.add_comm 1]

theorem closed_pieces (s : St) (p : Nat) : (connectionClosed s p).unfinished = s.unfinished ∧
    (connectionClosed s p).requests.map (·.2.piece) = s.requests.map (·.2.piece) := by
  unfold connectionClosed
  split
  · exact ⟨rfl, rfl⟩
  · refine ⟨rfl, ?_⟩
    unfold Map.mapAll
    rw [List.map_map]
    apply List.map_congr_left
    intro x _
    simp only [Function.comp]
    split <;> rfl

theorem closedAll_pieces (ps : List Nat) : ∀ s : St, (ps.foldl connectionClosed s).unfinished = s.unfinished ∧
    (ps.foldl connectionClosed s).requests.map (·.2.piece) = s.requests.map (·.2.piece) := by
  induction ps with
  | nil => intro s; exact ⟨rfl, rfl⟩
  | cons p ps ih => intro s; exact ⟨(ih _).1.trans (closed_pieces s p).1, (ih _).2.trans (closed_pieces s p).2⟩

theorem requests_sum (i : Info) (p : Nat) (m : Map Req) (hs : Sorted m) (hr : ReqOk i m) :
    ((((m.map (·.2.piece)).filter fun u => u.downloadedSize ≠ 0).filter fun u => u.index = p).map (·.downloadedSize)).sum =
      match Map.get m p with
      | some q => q.piece.downloadedSize
      | none => 0 := by
  induction m with
  | nil => rfl
  | cons e m ih =>
    obtain ⟨k, v⟩ := e
    unfold Sorted at hs
    rw [List.pairwise_cons] at hs
    have h1 := ih hs.2 fun j q hq => hr j q (List.mem_cons_of_mem _ hq)
    have hk : v.piece.index = k := (hr k v List.mem_cons_self).1
    have hd : ((((v.piece :: m.map (·.2.piece)).filter fun u => decide (u.downloadedSize ≠ 0)).filter fun u => decide (u.index = p)).map (·.downloadedSize)).sum =
        (if k = p then v.piece.downloadedSize else 0) +
        ((((m.map (·.2.piece)).filter fun u => decide (u.downloadedSize ≠ 0)).filter fun u => decide (u.index = p)).map (·.downloadedSize)).sum := by
      by_cases hz : v.piece.downloadedSize = 0
      · rw [List.filter_cons_of_neg (by simpa using hz), hz]; simp
      · rw [List.filter_cons_of_pos (by simpa using hz)]
        by_cases e : k = p
        · rw [List.filter_cons_of_pos (by simpa [hk] using e), if_pos e, List.map_cons, List.sum_cons]
        · rw [List.filter_cons_of_neg (by simpa [hk] using e), if_neg e, Nat.zero_add]
    rw [List.map_cons, hd, h1]
    by_cases e : k = p
    · have : Map.get (α := Req) m p = none := get_none fun x hx => by have := hs.1 x hx; simp only at this; omega
      rw [this]
      simp [Map.get, e]
    · simp [Map.get, e]

/-- What is said of a piece is the same after stopping. -/
theorem stop_unfinished {init V : Nat → Prop} {g : Nat → Res Bool} {F : Prop} {s : St} {n p : Nat} (hI : Inv s) (hv : Ver init V g F s) (hj : J s)
    (hs : Shape s.files.info n) (hlen : s.files.progress.pieces.length = n) (hp : p < n) (hh : has s p = false) :
    unfinishedOf (stop s) p = unfinishedOf s p := by
  have hI' := closedAll_inv (s.peers.map (·.1)) hI
  have hreq := closedAll_pieces (s.peers.map (·.1)) s
  have hjs := stop_J hI hv hj
  have hfiles : (stop s).files = s.files := hI'.2
  have hun : (stop s).unfinished = s.unfinished ++ ((s.requests.map (·.2.piece)).filter fun u => u.downloadedSize ≠ 0) := by
    show ((s.peers.map (·.1)).foldl connectionClosed s).unfinished ++ (((s.peers.map (·.1)).foldl connectionClosed s).requests.map (·.2.piece)).filter _ = _
    rw [hreq.1, hreq.2]
  have hnone : (stop s).requests.get p = none := rfl
  unfold unfinishedOf
  rw [hnone]
  simp only
  unfold keptSize
  rw [hun, List.filter_append, List.map_append, List.sum_append]
  have hnew : ((((s.requests.map (·.2.piece)).filter fun u => u.downloadedSize ≠ 0).filter fun u => u.index = p).map (·.downloadedSize)).sum =
      match s.requests.get p with
      | some q => q.piece.downloadedSize
      | none => 0 := by
    exact requests_sum s.files.info p s.requests hj.keys hI.base.req
  rw [hnew, kept_sum s.files.info s.unfinished p hj.once hj.exact]
  have h1 := keptBytes_bound hI hs hp
  have h2 := (pieceBytes_range hs hp).2
  have h3 := hs.ps_lt
  cases hr : s.requests.get p with
  | none => rw [Nat.add_zero]
  | some q =>
    have h0 : keptBytes s.files.info s.unfinished p = 0 := by
      unfold keptBytes
      split
      · next u hu =>
        have h1 := List.find?_some hu
        simp only [decide_eq_true_eq] at h1
        exact absurd (by rw [h1.1]; exact HasReq.get hr) (hj.kept u (List.mem_of_find?_eq_some hu) h1.2).1
      · rfl
    have h4 : q.piece.downloadedSize = bytesOf s.files.info p q.piece := hj.req _ _ (Map.get_mem hr)
    have h5 : bytesOf s.files.info p q.piece ≤ pieceBytes s.files.info.pieceSize s.files.info.fullSize p :=
      marked_bound hs hp _ (hI.base.req.get _ _ hr).2
    rw [h0, Nat.zero_add]
    simp only
    exact u32_id (by omega)

end Verif.Downloader
