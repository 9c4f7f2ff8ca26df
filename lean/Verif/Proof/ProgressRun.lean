import Verif.Proof.Bitfield

namespace Verif.Progress
open Verif Verif.Spec

theorem step_rel {s : PP} {l l1 : Pieces} (h : Rel s l) (o : ProgOp) (ho : l.step o = some l1) :
    ∃ s1, step s o = .ok s1 ∧ Rel s1 l1 := by
  cases o with
  | add i =>
    simp only [Pieces.step] at ho
    split at ho
    · injection ho with ho; subst ho; exact addPiece_rel h i (by assumption)
    · cases ho
  | remove i =>
    simp only [Pieces.step] at ho
    split at ho
    · injection ho with ho; subst ho; exact removePiece_rel h i (by assumption)
    · cases ho
  | removeWhere w =>
    simp only [Pieces.step] at ho
    split at ho
    · injection ho with ho; subst ho; exact removeReceived_rel h w (by assumption)
    · cases ho
  | select a b sel =>
    simp only [Pieces.step] at ho
    split at ho
    · injection ho with ho; subst ho; exact select_rel h a b sel (by assumption)
    · cases ho
  | resize n =>
    simp only [Pieces.step, Option.some.injEq] at ho
    subst ho
    exact ⟨_, rfl, resize_rel h n⟩

theorem run_rel {s : PP} {l : Pieces} (h : Rel s l) (ops : List ProgOp) (l' : Pieces)
    (hl : l.run ops = some l') : ∃ s', run s ops = .ok s' ∧ Rel s' l' := by
  induction ops generalizing s l with
  | nil =>
    injection hl with hl
    subst hl
    exact ⟨s, rfl, h⟩
  | cons o os ih =>
    simp only [Pieces.run] at hl
    cases ho : l.step o with
    | none => rw [ho] at hl; cases hl
    | some l1 =>
      rw [ho] at hl
      simp only [Option.bind_some] at hl
      obtain ⟨s1, h1, r1⟩ := step_rel h o ho
      obtain ⟨s', h2, r2⟩ := ih r1 hl
      refine ⟨s', ?_, r2⟩
      simp only [run, h1, Res.bind_ok, h2]

theorem step_ub {s : PP} {l : Pieces} (h : Rel s l) (o : ProgOp)
    (h32 : ∀ i, o = .add i → i < 4294967296) (ho : l.step o = none) : step s o = .ub := by
  cases o with
  | add i =>
    have hi := h32 i rfl
    simp only [Pieces.step] at ho
    split at ho
    · cases ho
    · rename_i hn
      have hi' : i = 4294967295 := by omega
      subst hi'
      have hge : 4294967295 ≥ s.pieces.length := by rw [length_eq h]; omega
      have hr := resize_rel h 0
      have hl : l.resize 0 = [] := by simp [Pieces.resize]
      rw [hl] at hr
      have hf : finished (resize s 0) = false := by rw [finished_eq hr]; simp
      simp only [step, addPiece, if_pos hge, Nat.reduceAdd, Nat.reduceMod, hasPiece, hf]
      rw [rd_pieces_ub hr _ (by simp)]
      rfl
  | remove i =>
    simp only [Pieces.step] at ho
    split at ho
    · cases ho
    · rename_i hi
      simp only [step, removePiece, hasPiece, selectedPiece]
      rw [rd_pieces_ub h i hi]
      split <;> simp
  | removeWhere w =>
    simp only [Pieces.step] at ho
    split at ho
    · cases ho
    · rename_i hw
      have key : ∀ (n i : Nat) (s : PP) (l : Pieces), Rel s l → i + n = l.length → i ≤ w.length →
          w.length < l.length → removeReceivedLoop w i n s = .ub := by
        intro n
        induction n with
        | zero => intro i s l _ h1 h2 h3; omega
        | succ n ih =>
          intro i s l r h1 h2 h3
          simp only [removeReceivedLoop]
          by_cases hiw : i < w.length
          · rw [rd_eq_ok hiw]
            simp only [Res.bind_ok]
            cases w[i]
            · simp only [Bool.false_eq_true, if_false, Res.pure_eq, Res.bind_ok]
              exact ih (i + 1) s l r (by omega) (by omega) h3
            · obtain ⟨s1, e1, r1⟩ := removePiece_rel r i (by omega)
              simp only [if_true, e1, Res.bind_ok]
              exact ih (i + 1) s1 _ r1 (by simp [Pieces.remove]; omega) (by omega)
                (by simpa [Pieces.remove] using h3)
          · have : rd w i = .ub := by simp [rd, List.getElem?_eq_none (show w.length ≤ i by omega)]
            rw [this]; rfl
      simp only [step, removeReceived, length_eq h]
      exact key l.length 0 s l h (by omega) (by omega) (by omega)
  | select a b sel =>
    simp only [Pieces.step] at ho
    split at ho
    · cases ho
    · rename_i hb
      have key : ∀ (n i : Nat) (s : PP) (l : Pieces), Rel s l → i + n > l.length → 0 < n →
          selectLoop sel i n s = .ub := by
        intro n
        induction n with
        | zero => intro i s l _ h1 h2; omega
        | succ n ih =>
          intro i s l r h1 h2
          simp only [selectLoop]
          by_cases hi : i < l.length
          · obtain ⟨s1, e1, r1⟩ := selectOne_rel r i hi sel
            rw [e1]
            simp only [Res.bind_ok]
            exact ih (i + 1) s1 _ r1 (by simp; omega) (by omega)
          · simp [selectOne, selectedPiece, rd_pieces_ub r i hi]
      simp only [step, select]
      exact key _ _ s l h (by omega) (by omega)
  | resize n => simp [Pieces.step] at ho

theorem run_ub {s : PP} {l : Pieces} (h : Rel s l) (ops : List ProgOp)
    (h32 : ∀ i, .add i ∈ ops → i < 4294967296) (hl : l.run ops = none) : run s ops = .ub := by
  induction ops generalizing s l with
  | nil => cases hl
  | cons o os ih =>
    simp only [Pieces.run] at hl
    cases ho : l.step o with
    | none =>
      have := step_ub h o (fun i hi => h32 i (by simp [hi])) ho
      simp only [run, this, Res.bind_ub]
    | some l1 =>
      rw [ho] at hl
      simp only [Option.bind_some] at hl
      obtain ⟨s1, h1, r1⟩ := step_rel h o ho
      simp only [run, h1, Res.bind_ok]
      exact ih r1 (fun i hi => h32 i (by simp [hi])) hl

theorem selFinished_count (l : Pieces) :
    l.countP (fun p => p.has && p.sel) = l.countP (·.sel) ↔ ∀ p ∈ l, p.sel = true → p.has = true := by
  induction l with
  | nil => simp
  | cons p l ih =>
    have hle : l.countP (fun p => p.has && p.sel) ≤ l.countP (·.sel) :=
      List.countP_mono_left (by intro x _; simp)
    simp only [List.countP_cons, List.mem_cons, forall_eq_or_imp]
    rw [← ih]
    rcases p with ⟨_ | _, _ | _⟩ <;> simp <;> omega

theorem mapIdx_sum_snoc (l : Pieces) (p : Piece) (f : Nat → Piece → Nat) :
    ((l ++ [p]).mapIdx f).sum = (l.mapIdx f).sum + f l.length p := by
  rw [List.mapIdx_append]
  simp

theorem snoc_induction {α} {motive : List α → Prop} (l : List α) (nil : motive [])
    (snoc : ∀ l a, motive l → motive (l ++ [a])) : motive l := by
  rw [← List.reverse_reverse l]
  induction l.reverse with
  | nil => exact nil
  | cons a l ih => rw [List.reverse_cons]; exact snoc _ _ ih

theorem bytes_full (l : Pieces) (ps full : Nat) (q : Piece → Bool) (h : l.length * ps ≤ full) :
    l.bytes ps full q = l.countP q * ps := by
  induction l using snoc_induction with
  | nil => simp [Pieces.bytes]
  | snoc l p ih =>
    have hl : l.length * ps + ps ≤ full := by
      simp only [List.length_append, List.length_cons, List.length_nil, Nat.zero_add, Nat.add_mul,
        Nat.one_mul] at h
      exact h
    have := ih (by omega)
    unfold Pieces.bytes at *
    rw [mapIdx_sum_snoc, this, List.countP_append]
    have : Pieces.pieceSize ps full l.length = ps := by unfold Pieces.pieceSize; omega
    rw [this]
    simp only [List.countP_cons, List.countP_nil, Nat.zero_add, Nat.add_mul]
    split <;> simp

/-- Bytes of a list of pieces whose last piece is the (possibly short) last piece of the torrent. -/
theorem bytes_snoc (l : Pieces) (p : Piece) (ps full : Nat) (q : Piece → Bool)
    (h : l.length * ps ≤ full) (h2 : full ≤ (l.length + 1) * ps) :
    (l ++ [p]).bytes ps full q = l.countP q * ps + if q p then full - l.length * ps else 0 := by
  have hf := bytes_full l ps full q h
  unfold Pieces.bytes at *
  rw [mapIdx_sum_snoc, hf]
  have : Pieces.pieceSize ps full l.length = full - l.length * ps := by
    unfold Pieces.pieceSize
    rw [Nat.add_mul] at h2
    omega
  rw [this]

end Verif.Progress
