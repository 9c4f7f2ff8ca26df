import Verif.Model.Progress
import Verif.Spec.Progress

namespace Verif.Progress
open Verif Verif.Spec

abbrev enc : Piece → UInt8 := Pieces.flagByte

/-- The concrete state represents the pieces `l`, counters included. -/
structure Rel (s : PP) (l : Pieces) : Prop where
  pieces : s.pieces = l.map enc
  received : s.receivedPiecesCount = l.received
  selected : s.selectedPieces = l.selected
  selrec : s.selectedReceivedPiecesCount = l.selectedReceived

theorem enc_has : ∀ p : Piece, (enc p &&& HasFlag != 0) = p.has := by
  rintro ⟨_ | _, _ | _⟩ <;> decide
theorem enc_sel : ∀ p : Piece, (enc p &&& UnselectedFlag == 0) = p.sel := by
  rintro ⟨_ | _, _ | _⟩ <;> decide
theorem enc_wanted : ∀ p : Piece, (enc p == 0) = (!p.has && p.sel) := by
  rintro ⟨_ | _, _ | _⟩ <;> decide
theorem enc_add : ∀ p : Piece, enc p ||| HasFlag = enc { p with has := true } := by
  rintro ⟨_ | _, _ | _⟩ <;> decide
theorem enc_remove : ∀ p : Piece, enc p &&& ~~~ HasFlag = enc { p with has := false } := by
  rintro ⟨_ | _, _ | _⟩ <;> decide
theorem enc_select : ∀ p : Piece, enc p &&& ~~~ UnselectedFlag = enc { p with sel := true } := by
  rintro ⟨_ | _, _ | _⟩ <;> decide
theorem enc_unselect : ∀ p : Piece, enc p ||| UnselectedFlag = enc { p with sel := false } := by
  rintro ⟨_ | _, _ | _⟩ <;> decide
theorem enc_lastsel : ∀ p : Piece, (enc p == HasFlag) = (p.has && p.sel) := by
  rintro ⟨_ | _, _ | _⟩ <;> decide

theorem length_eq {s l} (h : Rel s l) : s.pieces.length = l.length := by rw [h.pieces, List.length_map]

theorem rd_pieces {s l} (h : Rel s l) (i : Nat) (hi : i < l.length) :
    rd s.pieces i = .ok (enc l[i]) := by
  simp [rd, h.pieces, hi]

theorem rd_pieces_ub {s l} (h : Rel s l) (i : Nat) (hi : ¬ i < l.length) :
    rd s.pieces i = .ub := by
  have : l[i]? = none := List.getElem?_eq_none (by omega)
  simp [rd, h.pieces, this]

theorem finished_eq {s l} (h : Rel s l) : finished s = (l ≠ [] ∧ ∀ p ∈ l, p.has = true : Bool) := by
  unfold finished
  rw [h.received, h.pieces, List.length_map]
  have : ((l.received : Int) == (l.length : Int)) = decide (∀ p ∈ l, p.has = true) := by
    rw [Bool.eq_iff_iff]
    simp only [beq_iff_eq, Int.ofNat_inj, decide_eq_true_eq]
    exact List.countP_eq_length
  rw [this]
  cases l <;> simp

theorem hasPiece_eq {s l} (h : Rel s l) (i : Nat) (hi : i < l.length) : hasPiece s i = .ok l[i].has := by
  unfold hasPiece
  split
  · rename_i hf
    rw [finished_eq h] at hf
    simp only [decide_eq_true_eq] at hf
    rw [hf.2 l[i] (List.getElem_mem hi)]
  · rw [rd_pieces h i hi]
    simp [enc_has]

theorem selectedPiece_eq {s l} (h : Rel s l) (i : Nat) (hi : i < l.length) :
    selectedPiece s i = .ok l[i].sel := by
  simp [selectedPiece, rd_pieces h i hi, enc_sel]

theorem wantedPiece_eq {s l} (h : Rel s l) (i : Nat) (hi : i < l.length) :
    wantedPiece s i = .ok (!l[i].has && l[i].sel) := by
  simp [wantedPiece, rd_pieces h i hi, enc_wanted]

theorem countP_set_int (q : Piece → Bool) (l : Pieces) (i : Nat) (hi : i < l.length) (a : Piece) :
    ((l.set i a).countP q : Int)
      = (l.countP q : Int) - (if q l[i] then 1 else 0) + (if q a then 1 else 0) := by
  rw [List.countP_set hi]
  have := List.boole_getElem_le_countP (p := q) hi
  by_cases h1 : q l[i] = true <;> by_cases h2 : q a = true <;>
    simp only [h1, h2, if_true, if_false, Bool.false_eq_true] at * <;> omega

theorem modify_eq_set {α} (l : List α) (i : Nat) (f : α → α) (hi : i < l.length) :
    l.modify i f = l.set i (f l[i]) := by
  apply List.ext_getElem (by simp)
  intro j h1 h2
  rw [List.getElem_modify, List.getElem_set]
  split
  · rename_i h; subst h; rfl
  · rfl

/-! calculatePieces -/

theorem calc_fold (l : Pieces) (s : PP) :
    (l.map enc).foldl (fun s p =>
    let s := if p &&& HasFlag != 0 then { s with receivedPiecesCount := s.receivedPiecesCount + 1 } else s
    if p &&& UnselectedFlag == 0 then
      let s := { s with selectedPieces := s.selectedPieces + 1 }
      if p &&& HasFlag != 0 then
        { s with selectedReceivedPiecesCount := s.selectedReceivedPiecesCount + 1 } else s
    else s) s
    = { pieces := s.pieces, selectedPieces := s.selectedPieces + l.selected,
        receivedPiecesCount := s.receivedPiecesCount + l.received,
        selectedReceivedPiecesCount := s.selectedReceivedPiecesCount + l.selectedReceived } := by
  induction l generalizing s with
  | nil => simp [Pieces.selected, Pieces.received, Pieces.selectedReceived]
  | cons p l ih =>
    simp only [List.map_cons, List.foldl_cons]
    rw [ih]
    simp only [enc_has, enc_sel]
    rcases p with ⟨_ | _, _ | _⟩ <;>
      simp [Pieces.selected, Pieces.received, Pieces.selectedReceived] <;> omega

theorem calculatePieces_rel (s : PP) (l : Pieces) (h : s.pieces = l.map enc) : Rel (calculatePieces s) l := by
  unfold calculatePieces
  rw [h, calc_fold]
  constructor <;> simp

theorem resize_rel {s l} (h : Rel s l) (n : Nat) : Rel (resize s n) (l.resize n) := by
  unfold resize
  split
  · apply calculatePieces_rel
    simp only [h.pieces, Pieces.resize, List.map_append, List.map_take, List.map_replicate, List.length_map]
    congr 1
  · rename_i hn
    rw [length_eq h] at hn
    have : n = l.length := by omega
    subst this
    simpa [Pieces.resize] using h

theorem addPiece_rel {s l} (h : Rel s l) (i : Nat) (hi : i < l.length ∨ i + 1 < 4294967296) :
    ∃ s', addPiece s i = .ok s' ∧ Rel s' (l.add i) := by
  -- first bring the table to the right length
  have key : ∀ (s : PP) (l : Pieces), Rel s l → (hi : i < l.length) → ∃ s',
      (do
        let has ← hasPiece s i
        if !has then do
          let wanted ← wantedPiece s i
          let p ← rd s.pieces i
          pure { s with
            selectedReceivedPiecesCount :=
              if wanted then s.selectedReceivedPiecesCount + 1 else s.selectedReceivedPiecesCount
            pieces := s.pieces.set i (p ||| HasFlag)
            receivedPiecesCount := s.receivedPiecesCount + 1 }
        else pure s) = Res.ok s' ∧ Rel s' (l.modify i (fun p => { p with has := true })) := by
    intro s l h hi
    rw [modify_eq_set _ _ _ hi]
    rw [hasPiece_eq h i hi]
    simp only [Res.bind_ok]
    by_cases hp : l[i].has = true
    · simp only [hp, Bool.not_true, Bool.false_eq_true, if_false, Res.pure_eq]
      refine ⟨s, rfl, ?_⟩
      have : ({ l[i] with has := true } : Piece) = l[i] := by
        cases hq : l[i]; simp_all
      rw [this, List.set_getElem_self]
      exact h
    · have hp' : l[i].has = false := by simpa using hp
      simp only [hp', Bool.not_false, if_true, wantedPiece_eq h i hi, rd_pieces h i hi, Res.bind_ok,
        Res.pure_eq, Bool.true_and]
      refine ⟨_, rfl, ?_⟩
      constructor
      · simp [h.pieces, enc_add, List.map_set]
      · simp [h.received, Pieces.received, countP_set_int _ _ _ hi, hp']
      · simp [h.selected, Pieces.selected, countP_set_int _ _ _ hi]
      · simp [h.selrec, Pieces.selectedReceived, countP_set_int _ _ _ hi, hp']
        split <;> simp_all
  unfold addPiece
  by_cases hl : i < l.length
  · have e : l.add i = l.modify i (fun p => { p with has := true }) := by
      unfold Pieces.add Pieces.resize
      rw [show max l.length (i + 1) = l.length by omega]
      simp
    rw [e]
    have : ¬ (i ≥ s.pieces.length) := by rw [length_eq h]; omega
    simp only [if_neg this]
    exact key s l h hl
  · have hge : i ≥ s.pieces.length := by rw [length_eq h]; omega
    simp only [if_pos hge, Nat.mod_eq_of_lt (show i + 1 < 4294967296 by omega)]
    unfold Pieces.add
    rw [show max l.length (i + 1) = i + 1 by omega]
    exact key _ _ (resize_rel h (i + 1)) (by simp [Pieces.resize]; omega)

theorem removePiece_rel {s l} (h : Rel s l) (i : Nat) (hi : i < l.length) :
    ∃ s', removePiece s i = .ok s' ∧ Rel s' (l.remove i) := by
  unfold removePiece Pieces.remove
  rw [modify_eq_set _ _ _ hi, hasPiece_eq h i hi]
  simp only [Res.bind_ok]
  by_cases hp : l[i].has = true
  · simp only [hp, if_true, selectedPiece_eq h i hi, rd_pieces h i hi, Res.bind_ok, Res.pure_eq]
    refine ⟨_, rfl, ?_⟩
    constructor
    · simp [h.pieces, enc_remove, List.map_set]
    · simp [h.received, Pieces.received, countP_set_int _ _ _ hi, hp]
    · simp [h.selected, Pieces.selected, countP_set_int _ _ _ hi]
    · simp [h.selrec, Pieces.selectedReceived, countP_set_int _ _ _ hi, hp]
      split <;> simp_all
  · have hp' : l[i].has = false := by simpa using hp
    simp only [hp', Bool.false_eq_true, if_false, Res.pure_eq]
    refine ⟨s, rfl, ?_⟩
    have : ({ l[i] with has := false } : Piece) = l[i] := by
      cases hq : l[i]; simp_all
    rw [this, List.set_getElem_self]
    exact h

theorem selectOne_rel {s l} (h : Rel s l) (i : Nat) (hi : i < l.length) (sel : Bool) :
    ∃ s', selectOne s i sel = .ok s' ∧ Rel s' (l.modify i (fun p => { p with sel := sel })) := by
  unfold selectOne
  rw [modify_eq_set _ _ _ hi, selectedPiece_eq h i hi]
  simp only [Res.bind_ok]
  by_cases hp : l[i].sel = sel
  · simp only [hp, beq_self_eq_true, if_true, Res.pure_eq]
    refine ⟨s, rfl, ?_⟩
    have : ({ l[i] with sel := sel } : Piece) = l[i] := by
      cases hq : l[i]; simp_all
    rw [this, List.set_getElem_self]
    exact h
  · simp only [beq_iff_eq, hp, if_false, rd_pieces h i hi, Res.bind_ok, enc_has]
    cases sel
    · have hp' : l[i].sel = true := by simpa using hp
      simp only [Bool.false_eq_true, if_false, Res.pure_eq]
      refine ⟨_, rfl, ?_⟩
      split <;> rename_i hh <;>
      · constructor
        · simp [h.pieces, enc_unselect, List.map_set]
        · simp [h.received, Pieces.received, countP_set_int _ _ _ hi]
        · simp [h.selected, Pieces.selected, countP_set_int _ _ _ hi, hp']
        · simp [h.selrec, Pieces.selectedReceived, countP_set_int _ _ _ hi, hp', hh]
    · have hp' : l[i].sel = false := by simpa using hp
      simp only [if_true, Res.pure_eq]
      refine ⟨_, rfl, ?_⟩
      split <;> rename_i hh <;>
      · constructor
        · simp [h.pieces, enc_select, List.map_set]
        · simp [h.received, Pieces.received, countP_set_int _ _ _ hi]
        · simp [h.selected, Pieces.selected, countP_set_int _ _ _ hi, hp']
        · simp [h.selrec, Pieces.selectedReceived, countP_set_int _ _ _ hi, hp', hh]

theorem selectLoop_rel (sel : Bool) (n : Nat) (i : Nat) {s l} (h : Rel s l) (hi : i + n ≤ l.length) :
    ∃ s', selectLoop sel i n s = .ok s' ∧
      Rel s' (l.mapIdx fun j p => if i ≤ j ∧ j < i + n then { p with sel := sel } else p) := by
  induction n generalizing i s l with
  | zero =>
    refine ⟨s, rfl, ?_⟩
    have : (l.mapIdx fun j p => if i ≤ j ∧ j < i + 0 then { p with sel := sel } else p) = l := by
      apply List.ext_getElem (by simp)
      intro j h1 h2
      simp; omega
    rw [this]; exact h
  | succ n ih =>
    obtain ⟨s1, h1, r1⟩ := selectOne_rel h i (by omega) sel
    obtain ⟨s2, h2, r2⟩ := ih (i + 1) r1 (by simp; omega)
    refine ⟨s2, ?_, ?_⟩
    · simp only [selectLoop, h1, Res.bind_ok, h2]
    · have : (l.mapIdx fun j p => if i ≤ j ∧ j < i + (n + 1) then { p with sel := sel } else p)
          = ((l.modify i fun p => { p with sel := sel }).mapIdx fun j p =>
              if i + 1 ≤ j ∧ j < i + 1 + n then { p with sel := sel } else p) := by
        apply List.ext_getElem (by simp)
        intro j h1 h2
        simp only [List.getElem_mapIdx, List.getElem_modify]
        by_cases hij : i = j
        · subst hij; simp
        · simp [hij]
          split <;> split <;> first | rfl | omega
      rw [this]; exact r2

theorem select_rel {s l} (h : Rel s l) (a b : Nat) (sel : Bool) (hb : b < l.length ∨ b < a) :
    ∃ s', select s a b sel = .ok s' ∧ Rel s' (l.select a b sel) := by
  by_cases hab : b < a
  · refine ⟨s, ?_, ?_⟩
    · unfold select
      rw [show b + 1 - a = 0 by omega]; rfl
    · have : l.select a b sel = l := by
        apply List.ext_getElem (by simp [Pieces.select])
        intro j h1 h2
        simp [Pieces.select]; omega
      rw [this]; exact h
  · obtain ⟨s', h1, r1⟩ := selectLoop_rel sel (b + 1 - a) a h (by omega)
    refine ⟨s', h1, ?_⟩
    have : (fun j (p : Piece) => if a ≤ j ∧ j < a + (b + 1 - a) then { p with sel := sel } else p)
        = (fun j p => if a ≤ j ∧ j ≤ b then { p with sel := sel } else p) := by
      funext j p
      split <;> split <;> first | rfl | omega
    rw [this] at r1
    exact r1

theorem removeLoop_rel (w : List Bool) (n : Nat) (i : Nat) {s l} (h : Rel s l)
    (hi : i + n ≤ l.length) (hw : l.length ≤ w.length) :
    ∃ s', removeReceivedLoop w i n s = .ok s' ∧
      Rel s' (l.mapIdx fun j p => if i ≤ j ∧ j < i + n ∧ w[j]? = some true then { p with has := false } else p) := by
  induction n generalizing i s l with
  | zero =>
    refine ⟨s, rfl, ?_⟩
    have : (l.mapIdx fun j p => if i ≤ j ∧ j < i + 0 ∧ w[j]? = some true then { p with has := false } else p) = l := by
      apply List.ext_getElem (by simp)
      intro j h1 h2
      simp; omega
    rw [this]; exact h
  | succ n ih =>
    have hwi : i < w.length := by omega
    have hrd : rd w i = .ok w[i] := rd_eq_ok hwi
    have hw? : w[i]? = some w[i] := List.getElem?_eq_getElem hwi
    cases hb : w[i] with
    | false =>
      obtain ⟨s2, h2, r2⟩ := ih (i + 1) h (by omega) hw
      refine ⟨s2, ?_, ?_⟩
      · simp [removeReceivedLoop, hrd, hb, h2]
      · have : (l.mapIdx fun j p => if i ≤ j ∧ j < i + (n + 1) ∧ w[j]? = some true then { p with has := false } else p)
            = (l.mapIdx fun j p => if i + 1 ≤ j ∧ j < i + 1 + n ∧ w[j]? = some true then { p with has := false } else p) := by
          apply List.ext_getElem (by simp)
          intro j h1 h2
          simp only [List.getElem_mapIdx]
          by_cases hij : i = j
          · subst hij; simp [hw?, hb]
          · have e : (i ≤ j ∧ j < i + (n + 1) ∧ w[j]? = some true) ↔ (i + 1 ≤ j ∧ j < i + 1 + n ∧ w[j]? = some true) := by
              constructor <;> (rintro ⟨x, y, z⟩; exact ⟨by omega, by omega, z⟩)
            simp only [e]
        rw [this]; exact r2
    | true =>
      obtain ⟨s1, h1, r1⟩ := removePiece_rel h i (by omega)
      obtain ⟨s2, h2, r2⟩ := ih (i + 1) r1 (by simp [Pieces.remove]; omega) (by simpa [Pieces.remove] using hw)
      refine ⟨s2, ?_, ?_⟩
      · simp [removeReceivedLoop, hrd, hb, h1, h2]
      · have : (l.mapIdx fun j p => if i ≤ j ∧ j < i + (n + 1) ∧ w[j]? = some true then { p with has := false } else p)
            = ((l.remove i).mapIdx fun j p => if i + 1 ≤ j ∧ j < i + 1 + n ∧ w[j]? = some true then { p with has := false } else p) := by
          apply List.ext_getElem (by simp [Pieces.remove])
          intro j h1 h2
          simp only [List.getElem_mapIdx, Pieces.remove, List.getElem_modify]
          by_cases hij : i = j
          · subst hij; simp [hw?, hb]
          · have e : (i ≤ j ∧ j < i + (n + 1) ∧ w[j]? = some true) ↔ (i + 1 ≤ j ∧ j < i + 1 + n ∧ w[j]? = some true) := by
              constructor <;> (rintro ⟨x, y, z⟩; exact ⟨by omega, by omega, z⟩)
            simp only [e, hij, if_false]
        rw [this]; exact r2

theorem removeReceived_rel {s l} (h : Rel s l) (w : List Bool) (hw : l.length ≤ w.length) :
    ∃ s', removeReceived s w = .ok s' ∧ Rel s' (l.removeWhere w) := by
  unfold removeReceived
  rw [length_eq h]
  obtain ⟨s', h1, r1⟩ := removeLoop_rel w l.length 0 h (by omega) hw
  refine ⟨s', h1, ?_⟩
  have : (l.mapIdx fun j p => if 0 ≤ j ∧ j < 0 + l.length ∧ w[j]? = some true then { p with has := false } else p)
      = l.removeWhere w := by
    apply List.ext_getElem (by simp [Pieces.removeWhere])
    intro j h1 h2
    simp only [List.length_mapIdx] at h1
    simp [Pieces.removeWhere, h1]
  rw [this] at r1
  exact r1

theorem init_rel (n : Nat) : Rel (init {} n) (List.replicate n Piece.new) := by
  constructor
  · simp only [init, List.nil_append, List.length_nil, Nat.sub_zero, List.map_replicate]; rfl
  · simp [init, Pieces.received, Piece.new, List.countP_replicate]
  · simp [init, Pieces.selected, Piece.new, List.countP_replicate]
  · simp [init, Pieces.selectedReceived, Piece.new, List.countP_replicate]

end Verif.Progress
