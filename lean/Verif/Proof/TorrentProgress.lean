import Verif.Model.TorrentProgress
import Verif.Spec.TorrentProgress
import Verif.Proof.FileProgress

namespace Verif.Downloader
open Verif Layout Progress PieceState Spec Spec.Download Spec.DataLeft Spec.FileProgress Spec.TorrentProgress FileProgress TorrentProgress

theorem countP_range {α : Type} (q : α → Bool) (f : Nat → Bool) (l : List α) (h : ∀ j (hj : j < l.length), f j = q l[j]) :
    (List.range l.length).countP f = l.countP q := by
  induction l using List.reverseRecOn with
  | nil => rfl
  | append_singleton l a ih =>
    rw [List.length_append, List.length_singleton, List.range_succ, List.countP_append, List.countP_append]
    rw [ih fun j hj => by rw [h j (by rw [List.length_append]; omega), List.getElem_append_left hj]]
    have := h l.length (by rw [List.length_append, List.length_singleton]; omega)
    rw [List.getElem_append_right (Nat.le_refl _)] at this
    simp only [Nat.sub_self, List.getElem_cons_zero] at this
    simp [List.countP_cons, this]

section
variable {init V : Nat → Prop} {g : Nat → Res Bool} {F : Prop} {s : St} {n : Nat}

theorem found_kept {us : List PState} {j : Nat} {u : PState}
    (h : us.find? (fun u => decide (u.index = j ∧ u.downloadedSize ≠ 0)) = some u) : u ∈ us ∧ u.index = j ∧ u.downloadedSize ≠ 0 := by
  have h1 := List.find?_some h
  exact ⟨List.mem_of_find?_eq_some h, by simpa using h1⟩

/-- What arrived of a piece that is not there, from both places. -/
theorem open_bytes (hv : Ver init V g F s) (hj : J s) (j : Nat) :
    (if has s j then 0 else there s j) = reqBytes s.files.info s.requests j + keptBytes s.files.info s.unfinished j := by
  obtain ⟨⟨l, l1, -, -, -⟩, -, -⟩ := hv.b
  have hreq : ∀ q, s.requests.get j = some q → hasPiece s.files.progress j = .ok false :=
    fun q hr => missing_has l1 (hv.reqs j (HasReq.get hr))
  have hkept : ∀ u, s.unfinished.find? (fun u => decide (u.index = j ∧ u.downloadedSize ≠ 0)) = some u → hasPiece s.files.progress j = .ok false ∧
      s.requests.get j = none := by
    intro u hu
    obtain ⟨h1, h2, h3⟩ := found_kept hu
    have := hj.kept u h1 h3
    rw [h2] at this
    refine ⟨this.2, ?_⟩
    cases hr : s.requests.get j with
    | none => rfl
    | some q => exact absurd (HasReq.get hr) this.1
  unfold has there reqBytes keptBytes
  cases hr : s.requests.get j with
  | some q =>
    cases hu : s.unfinished.find? (fun u => decide (u.index = j ∧ u.downloadedSize ≠ 0)) with
    | some u => rw [(hkept u hu).2] at hr; cases hr
    | none => simp [hreq q hr]
  | none =>
    cases hu : s.unfinished.find? (fun u => decide (u.index = j ∧ u.downloadedSize ≠ 0)) with
    | some u => simp [(hkept u hu).1]
    | none =>
      simp
      exact fun h h' => absurd h' h

theorem unf_all (hI : Inv s) (hv : Ver init V g F s) (hj : J s) (hs : Shape s.files.info n) {j : Nat} (h : j < n) :
    unfinishedOf s j = if has s j then 0 else there s j := by
  rw [open_bytes hv hj j]
  unfold unfinishedOf reqBytes
  cases hr : s.requests.get j with
  | some q =>
    have hk : keptBytes s.files.info s.unfinished j = 0 := by
      unfold keptBytes
      cases hu : s.unfinished.find? (fun u => decide (u.index = j ∧ u.downloadedSize ≠ 0)) with
      | none => rfl
      | some u =>
        obtain ⟨h1, h2, h3⟩ := found_kept hu
        exact absurd (by rw [h2]; exact HasReq.get hr) (hj.kept u h1 h3).1
    rw [hk, Nat.add_zero]
    exact hj.req _ _ (Map.get_mem hr)
  | none =>
    simp only [Nat.zero_add]
    unfold keptSize
    rw [kept_sum s.files.info s.unfinished j hj.once hj.exact]
    have h1 := keptBytes_bound hI hs h
    have h2 := (pieceBytes_range hs h).2
    have := hs.ps_lt
    exact u32_id (by omega)

theorem kept_in (hv : Ver init V g F s) (hj : J s) (hlen : s.files.progress.pieces.length = n) {u : PState} (hu : u ∈ s.unfinished)
    (hd : u.downloadedSize ≠ 0) : u.index < n := by
  obtain ⟨⟨l, l1, -, -, -⟩, -, -⟩ := hv.b
  have h := (has_false l1 _).1 (hj.kept u hu hd).2
  rw [← hlen, length_eq l1]
  refine Decidable.byContradiction fun hn => ?_
  rw [List.getElem?_eq_none (by omega)] at h; simp at h

theorem req_in (hv : Ver init V g F s) (hlen : s.files.progress.pieces.length = n) {e : Nat × Req} (he : e ∈ s.requests) : e.1 < n := by
  obtain ⟨⟨l, l1, -, -, -⟩, -, -⟩ := hv.b
  have h := (has_false l1 _).1 (missing_has l1 (hv.reqs e.1 ⟨e.2, he⟩))
  rw [← hlen, length_eq l1]
  refine Decidable.byContradiction fun hn => ?_
  rw [List.getElem?_eq_none (by omega)] at h; simp at h

theorem rest_total (hv : Ver init V g F s) (hj : J s) (hlen : s.files.progress.pieces.length = n) :
    rest s (List.range n) = DataLeft.unfinishedTotal s := by
  unfold rest DataLeft.unfinishedTotal DataLeft.requestedSize unfinishedSize
  rw [sum_congr fun j _ => open_bytes hv hj j, sum_add]
  rw [sum_requests s.files.info n s.requests hj.keys (fun e he => req_in hv hlen he) (fun e he => hj.req _ _ he),
      sum_kept s.files.info n s.unfinished hj.once (fun u hu hd => kept_in hv hj hlen hu hd) hj.exact]
  omega

theorem has_range (hv : Ver init V g F s) (hlen : s.files.progress.pieces.length = n) :
    s.files.progress.receivedPiecesCount.toNat = (List.range n).countP (has s) ∧
    s.files.progress.selectedPieces.toNat = (wanted s n).length ∧
    s.files.progress.selectedReceivedPiecesCount.toNat = (wanted s n).countP (has s) ∧
    (s.files.progress.selectedPieces = s.files.progress.pieces.length ↔ wanted s n = List.range n) := by
  obtain ⟨⟨l, l1, -, -, -⟩, -, -⟩ := hv.b
  have hll : l.length = n := by rw [← length_eq l1]; exact hlen
  have hh : ∀ j (hj : j < l.length), has s j = l[j].has := by
    intro j hj
    unfold has
    rw [hasPiece_eq l1 j hj]
    simp
  have hc : ∀ j (hj : j < l.length), chosen s j = l[j].sel := by
    intro j hj
    unfold chosen
    rw [selectedPiece_eq l1 j hj]
    simp
  have h2 : (wanted s n).length = l.selected := by
    unfold wanted
    rw [← List.countP_eq_length_filter, ← hll]
    exact countP_range (·.sel) _ l hc
  refine ⟨?_, ?_, ?_, ?_⟩
  · rw [l1.received, ← hll, countP_range (·.has) (has s) l hh]
    rfl
  · rw [l1.selected, h2]
    rfl
  · unfold wanted
    rw [l1.selrec, List.countP_filter, ← hll,
      countP_range (fun p : Piece => p.has && p.sel) (fun a => has s a && chosen s a) l fun j hj => by rw [hh j hj, hc j hj]]
    rfl
  · rw [l1.selected, hlen, ← h2]
    unfold wanted
    constructor
    · intro h
      rw [List.filter_eq_self]
      have h3 : ((List.range n).filter (chosen s)).length = (List.range n).length := by rw [List.length_range]; exact_mod_cast h
      exact List.length_filter_eq_length_iff.1 h3
    · intro h
      rw [h, List.length_range]

theorem progress_state (hI : Inv s) (hv : Ver init V g F s) (hj : J s) (hs : Shape s.files.info n)
    (hlen : s.files.progress.pieces.length = n) :
    TorrentProgress.progress s = (((List.range n).map (share s)).sum, n * s.files.info.pieceSize) := by
  have hb := (left_state hI hv hj hs hlen).2.1
  have hle : ∀ p ∈ List.range n, share s p ≤ s.files.info.pieceSize := by
    intro p hp
    rw [List.mem_range] at hp
    unfold share
    split
    · exact Nat.le_refl _
    · exact Nat.le_trans (hb p hp) (pieceBytes_range hs hp).2
  have hsum := sum_map_le _ _ _ hle
  rw [List.length_range] at hsum
  have := hs.ps_pos
  unfold TorrentProgress.progress capped
  rw [if_neg (by omega), (has_range hv hlen).1, ← rest_total hv hj hlen, share_sum, hlen, if_neg (by omega)]

theorem sum_filter (l : List Nat) (q r : Nat → Bool) (f : Nat → Nat) (h : ∀ p ∈ l, r p = false → f p = 0) :
    ((l.filter fun p => r p && q p).map f).sum = ((l.filter q).map f).sum := by
  induction l with
  | nil => rfl
  | cons p l ih =>
    have h1 := ih fun x hx => h x (List.mem_cons_of_mem _ hx)
    by_cases hq : q p = true
    · rw [List.filter_cons_of_pos (p := q) hq, List.map_cons, List.sum_cons]
      by_cases hr : r p = true
      · rw [List.filter_cons_of_pos (by simp [hq, hr]), List.map_cons, List.sum_cons, h1]
      · rw [List.filter_cons_of_neg (by simp [hr]), h1, h p List.mem_cons_self (Bool.not_eq_true _ ▸ hr), Nat.zero_add]
    · rw [List.filter_cons_of_neg (p := q) hq, List.filter_cons_of_neg (by simp [hq]), h1]

theorem selected_state (hI : Inv s) (hv : Ver init V g F s) (hj : J s) (hs : Shape s.files.info n)
    (hlen : s.files.progress.pieces.length = n) (he : EmptyKept s n) (hw : arrived s (wanted s n) < 4294967296) :
    selectedUnfinished s = .ok (arrived s (wanted s n)) := by
  unfold selectedUnfinished
  rw [hlen, if_pos]
  · have h1 := sum_filter (List.range n) (chosen s) (keyed s) (unfinishedOf s) (by
      intro p _ hk
      unfold keyed at hk
      rw [Bool.or_eq_false_iff] at hk
      unfold unfinishedOf
      cases hr : s.requests.get p with
      | some q => rw [hr] at hk; simp at hk
      | none =>
        have : (s.unfinished.filter fun u => decide (u.index = p)) = [] := by
          rw [List.filter_eq_nil_iff]
          intro u hu hc
          have := List.any_eq_false.1 hk.1 u hu
          exact this hc
        simp only [keptSize, this]
        rfl)
    have h2 : ((wanted s n).map (unfinishedOf s)).sum = arrived s (wanted s n) := by
      unfold arrived
      congr 1
      apply List.map_congr_left
      intro p hp
      exact unf_all hI hv hj hs (List.mem_range.1 (List.mem_filter.1 hp).1)
    have h3 : (((List.range n).filter fun p => keyed s p && decide (selectedPiece s.files.progress p = .ok true)).map (unfinishedOf s)).sum =
        arrived s (wanted s n) := h1.trans h2
    rw [h3, u32_id hw]
  · rw [Bool.and_eq_true, List.all_eq_true, List.all_eq_true]
    refine ⟨fun u hu => ?_, fun e he' => ?_⟩
    · by_cases hd : u.downloadedSize = 0
      · exact decide_eq_true (he u hu hd)
      · exact decide_eq_true (kept_in hv hj hlen hu hd)
    · exact decide_eq_true (req_in hv hlen he')

theorem selection_state (hI : Inv s) (hv : Ver init V g F s) (hj : J s) (hs : Shape s.files.info n)
    (hlen : s.files.progress.pieces.length = n) (he : EmptyKept s n) (hw : arrived s (wanted s n) < 4294967296) (h0 : wanted s n ≠ []) :
    selectionProgress s = .ok (((wanted s n).map (share s)).sum, (wanted s n).length * s.files.info.pieceSize) := by
  obtain ⟨-, c1, c2, c3⟩ := has_range hv hlen
  have hb := (left_state hI hv hj hs hlen).2.1
  unfold selectionProgress
  by_cases hall : s.files.progress.selectedPieces = s.files.progress.pieces.length
  · rw [if_pos hall, progress_state hI hv hj hs hlen, c3.1 hall, List.length_range]
  · have hps := hs.ps_pos
    rw [if_neg hall, if_neg (by omega), selected_state hI hv hj hs hlen he hw]
    simp only [Res.bind_ok]
    have hl : 0 < (wanted s n).length := List.length_pos_iff.2 h0
    rw [if_neg (by omega)]
    have hle : ∀ p ∈ wanted s n, share s p ≤ s.files.info.pieceSize := by
      intro p hp
      have hp := List.mem_range.1 (List.mem_filter.1 hp).1
      unfold share
      split
      · exact Nat.le_refl _
      · exact Nat.le_trans (hb p hp) (pieceBytes_range hs hp).2
    have hsum := sum_map_le _ _ _ hle
    have hss := share_sum s (wanted s n)
    unfold rest at hss
    unfold arrived capped
    rw [c1, c2, hss, Nat.mul_comm s.files.info.pieceSize, if_neg (by omega)]
    rfl

end

end Verif.Downloader
