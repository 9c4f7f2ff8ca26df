import Verif.Proof.Layout
import Verif.Proof.ProgressRun

/-! File selection: `Files::select` keeps the pieces of the other selected files. -/

namespace Verif.Layout
open Verif Verif.Spec Verif.Progress

/-- Files in order: each ends before (or in the piece where) the next one starts. -/
structure Ordered (files : List File) (n : Nat) : Prop where
  se : ∀ k (hk : k < files.length), files[k].startPieceIndex ≤ files[k].endPieceIndex
  next : ∀ k (hk : k + 1 < files.length), files[k].endPieceIndex ≤ files[k + 1].startPieceIndex
  lt : ∀ k (hk : k < files.length), files[k].endPieceIndex < n
  n32 : n < 4294967296

theorem Ordered.before {files n} (o : Ordered files n) (j k : Nat) (hjk : j < k) (hk : k < files.length) :
    files[j].endPieceIndex ≤ files[k].startPieceIndex := by
  induction k with
  | zero => omega
  | succ k ih =>
    by_cases h : j = k
    · subst h; exact o.next j hk
    · have := ih (by omega) (by omega)
      have := o.se k (by omega)
      have := o.next k hk
      omega

theorem keepStart_spec {files n} (o : Ordered files n) (sel : List Bool) (hsel : sel.length = files.length)
    (idx : Nat) (hidx : idx < files.length) (i : Nat) (hi : i ≤ idx) :
    ∃ b, keepStart files sel files[idx].startPieceIndex i = .ok b ∧
      (b = true ↔ ∃ k, ∃ hk : k < i, sel[k]? = some true ∧ files[k].endPieceIndex = files[idx].startPieceIndex) := by
  induction i with
  | zero => exact ⟨false, rfl, by simp⟩
  | succ i ih =>
    obtain ⟨b, hb, hb'⟩ := ih (by omega)
    have hi2 : i < files.length := by omega
    have hs : sel[i]? = some (sel[i]'(by omega)) := List.getElem?_eq_getElem (by omega)
    unfold keepStart
    simp only [rd_eq_ok hi2, Res.bind_ok, rd_eq_ok (show i < sel.length by omega), Res.pure_eq]
    split
    · rename_i he
      split
      · rename_i ht
        exact ⟨true, rfl, by simp only [true_iff]; exact ⟨i, by omega, by rw [hs, ht], he⟩⟩
      · rename_i ht
        refine ⟨b, hb, hb'.trans ⟨?_, ?_⟩⟩
        · rintro ⟨k, hk, h1, h2⟩; exact ⟨k, by omega, h1, h2⟩
        · rintro ⟨k, hk, h1, h2⟩
          by_cases hki : k = i
          · subst hki; rw [hs] at h1; injection h1 with h1; exact absurd h1 ht
          · exact ⟨k, by omega, h1, h2⟩
    · rename_i he
      refine ⟨false, rfl, ?_⟩
      simp only [Bool.false_eq_true, false_iff, not_exists]
      rintro k hk ⟨h1, h2⟩
      by_cases hki : k = i
      · subst hki; exact he h2
      · have a1 := o.before k i (by omega) hi2
        have a2 := o.se i hi2
        have a3 := o.before i idx (by omega) hidx
        omega

theorem keepEnd_sound {files : List File} (sel : List Bool) (hsel : sel.length = files.length) (e : Nat) (i : Nat) :
    ∃ b, keepEnd files sel e i = .ok b ∧
      (b = true → ∃ k, ∃ hk : k < files.length, k < i ∧ sel[k]? = some true ∧ files[k].startPieceIndex = e) := by
  induction i with
  | zero => exact ⟨false, rfl, by simp⟩
  | succ i ih =>
    unfold keepEnd
    split
    · rename_i hi
      have hs : sel[i]? = some (sel[i]'(by omega)) := List.getElem?_eq_getElem (by omega)
      simp only [rd_eq_ok hi, Res.bind_ok, rd_eq_ok (show i < sel.length by omega), Res.pure_eq]
      split
      · rename_i he
        split
        · rename_i ht
          exact ⟨true, rfl, fun _ => ⟨i, hi, by omega, by rw [hs, ht], he⟩⟩
        · obtain ⟨b, hb, hb'⟩ := ih
          refine ⟨b, hb, fun h => ?_⟩
          obtain ⟨k, hk, h1, h2⟩ := hb' h
          exact ⟨k, hk, by omega, h2⟩
      · exact ⟨false, rfl, by simp⟩
    · exact ⟨false, rfl, by simp⟩

theorem keepEnd_first {files : List File} (sel : List Bool) (hsel : sel.length = files.length) (e : Nat) (i : Nat)
    (hi : i < files.length) (h1 : sel[i]? = some true) (h2 : files[i].startPieceIndex = e) :
    keepEnd files sel e (i + 1) = .ok true := by
  have hs : sel[i]? = some (sel[i]'(by omega)) := List.getElem?_eq_getElem (by omega)
  rw [hs] at h1
  injection h1 with h1
  unfold keepEnd
  simp [hi, rd_eq_ok hi, rd_eq_ok (show i < sel.length by omega), h1, h2]

/-- Piece `p` is needed by a selected file. -/
def Needed (files : List File) (sel : List Bool) (p : Nat) : Prop :=
  ∃ k, ∃ hk : k < files.length, sel[k]? = some true ∧ files[k].startPieceIndex ≤ p ∧ p ≤ files[k].endPieceIndex

/-- No three consecutive files share a piece. -/
def NoThree (files : List File) : Prop :=
  ∀ k (hk : k + 2 < files.length), ¬ (files[k].endPieceIndex = files[k + 1].startPieceIndex ∧
    files[k + 1].startPieceIndex = files[k + 1].endPieceIndex ∧
    files[k + 1].endPieceIndex = files[k + 2].startPieceIndex)

/-- The relation kept by every selection change. -/
structure SelRel (info : Info) (s : FilesState) (sel : List Bool) (l : Pieces) : Prop where
  info_eq : s.info = info
  sel_eq : s.selection = sel
  len : sel.length = info.files.length
  rel : Rel s.progress l
  plen : l.length = info.piecesCount
  needed : ∀ p (hp : p < l.length), l[p].sel = true ↔ Needed info.files sel p

theorem select_get (l : Pieces) (a b : Nat) (v : Bool) (p : Nat) (hp : p < l.length) (hp' : p < (l.select a b v).length) :
    (l.select a b v)[p].sel = if a ≤ p ∧ p ≤ b then v else l[p].sel := by
  simp only [Pieces.select, List.getElem_mapIdx]
  split <;> rfl

theorem select_len (l : Pieces) (a b : Nat) (v : Bool) : (l.select a b v).length = l.length := by
  unfold Pieces.select; simp

theorem needed_set_true {files : List File} {sel : List Bool} (hsel : sel.length = files.length) (idx : Nat)
    (hidx : idx < files.length) (p : Nat) :
    Needed files (sel.set idx true) p ↔
      (files[idx].startPieceIndex ≤ p ∧ p ≤ files[idx].endPieceIndex) ∨ Needed files sel p := by
  unfold Needed
  constructor
  · rintro ⟨k, hk, h1, h2⟩
    by_cases hki : k = idx
    · subst hki; exact .inl h2
    · rw [List.getElem?_set_ne (by omega)] at h1
      exact .inr ⟨k, hk, h1, h2⟩
  · rintro (h | ⟨k, hk, h1, h2⟩)
    · exact ⟨idx, hidx, by rw [List.getElem?_set_self (by omega)], h⟩
    · by_cases hki : k = idx
      · subst hki; exact ⟨k, hk, by rw [List.getElem?_set_self (by omega)], h2⟩
      · exact ⟨k, hk, by rw [List.getElem?_set_ne (by omega)]; exact h1, h2⟩

theorem filesSelect_rel {info : Info} {s : FilesState} {sel : List Bool} {l : Pieces}
    (h : SelRel info s sel l) (o : Ordered info.files info.piecesCount) (h3 : NoThree info.files)
    (idx : Nat) (hidx : idx < info.files.length) (v : Bool) :
    ∃ s' l', filesSelect s idx v = .ok s' ∧ SelRel info s' (sel.set idx v) l' ∧
      (∀ p : Nat, (l'[p]?).map (·.has) = (l[p]?).map (·.has)) := by
  obtain ⟨hi, hsl, hlen, hrel, hplen, hneed⟩ := h
  have hisel : idx < sel.length := by omega
  have has_select : ∀ a b, ∀ p : Nat, ((Pieces.select l a b v)[p]?).map (·.has) = (l[p]?).map (·.has) := by
    intro a b p
    unfold Pieces.select
    rw [List.getElem?_mapIdx]
    cases l[p]? with
    | none => rfl
    | some x => simp only [Option.map_some]; split <;> rfl
  unfold filesSelect
  simp only [hi, hsl, rd_eq_ok hisel, rd_eq_ok hidx, Res.bind_ok]
  by_cases hcur : sel[idx] = v
  · simp only [hcur, ne_eq, not_true_eq_false, if_false, Res.pure_eq]
    refine ⟨s, l, rfl, ?_, fun _ => rfl⟩
    have : sel.set idx v = sel := by rw [← hcur, List.set_getElem_self]
    rw [this]
    exact ⟨hi, hsl, hlen, hrel, hplen, hneed⟩
  · simp only [ne_eq, hcur, not_false_eq_true, if_true]
    have hse := o.se idx hidx
    have hlt := o.lt idx hidx
    have hn32 := o.n32
    cases v with
    | true =>
      simp only [Bool.not_true, Bool.false_eq_true, if_false]
      obtain ⟨p', hp', hr'⟩ := select_rel hrel info.files[idx].startPieceIndex info.files[idx].endPieceIndex true
        (.inl (by omega))
      rw [hp']
      refine ⟨_, _, rfl, ⟨by simpa using hi, rfl, by simpa using hlen, hr', by rw [select_len, hplen], ?_⟩, has_select _ _⟩
      intro p hp
      rw [select_len] at hp
      rw [select_get _ _ _ _ _ hp, needed_set_true hlen idx hidx]
      rw [← hneed p hp]
      split
      · rename_i hh; simp [hh]
      · rename_i hh; simp [hh]
    | false =>
      simp only [Bool.not_false, if_true]
      have hcur' : sel[idx] = true := by simpa using hcur
      have hlen' : (sel.set idx false).length = info.files.length := by simpa using hlen
      have hself : (sel.set idx false)[idx]? = some false := List.getElem?_set_self hisel
      obtain ⟨ks, hks, hks'⟩ := keepStart_spec o (sel.set idx false) hlen' idx hidx idx (Nat.le_refl _)
      obtain ⟨ke, hke, hke'⟩ := keepEnd_sound (sel.set idx false) hlen' info.files[idx].endPieceIndex (idx + 2)
      rw [hks, hke]
      simp only [Res.bind_ok]
      -- who needs a piece of this file now
      have who : ∀ p, info.files[idx].startPieceIndex ≤ p → p ≤ info.files[idx].endPieceIndex →
          (Needed info.files (sel.set idx false) p ↔
            (ks = true ∧ p = info.files[idx].startPieceIndex) ∨
            (∃ hi1 : idx + 1 < info.files.length, (sel.set idx false)[idx + 1]? = some true ∧
              info.files[idx + 1].startPieceIndex = info.files[idx].endPieceIndex ∧
              p = info.files[idx].endPieceIndex)) := by
        intro p hp1 hp2
        constructor
        · rintro ⟨k, hk, h1, h2, h3'⟩
          rcases Nat.lt_trichotomy k idx with hlt' | heq | hgt
          · have := o.before k idx hlt' hidx
            exact .inl ⟨hks'.mpr ⟨k, hlt', h1, by omega⟩, by omega⟩
          · subst heq; rw [hself] at h1; simp at h1
          · have hb := o.before idx k hgt hk
            by_cases hk1 : k = idx + 1
            · subst hk1; exact .inr ⟨hk, h1, by omega, by omega⟩
            · exfalso
              have c1 := o.next idx (by omega)
              have c2 := o.se (idx + 1) (by omega)
              have c3 : info.files[idx + 1].endPieceIndex ≤ info.files[idx + 2].startPieceIndex := o.next (idx + 1) (by omega)
              have c4 : info.files[idx + 2].startPieceIndex ≤ info.files[k].startPieceIndex := by
                by_cases hk2 : k = idx + 2
                · subst hk2; exact Nat.le_refl _
                · have := o.before (idx + 2) k (by omega) hk
                  have := o.se (idx + 2) (by omega)
                  omega
              exact h3 idx (by omega) ⟨by omega, by omega, by omega⟩
        · rintro (⟨hk, hp⟩ | ⟨hi1, h1, h2, h3'⟩)
          · obtain ⟨k, hk, h1, h2⟩ := hks'.mp hk
            refine ⟨k, by omega, h1, ?_, by omega⟩
            have := o.se k (by omega)
            omega
          · refine ⟨idx + 1, hi1, h1, by omega, ?_⟩
            have := o.se (idx + 1) hi1
            omega
      -- other pieces are untouched
      have other : ∀ p, ¬ (info.files[idx].startPieceIndex ≤ p ∧ p ≤ info.files[idx].endPieceIndex) →
          (Needed info.files (sel.set idx false) p ↔ Needed info.files sel p) := by
        intro p hp
        constructor
        · rintro ⟨k, hk, h1, h2⟩
          by_cases hki : k = idx
          · subst hki; rw [hself] at h1; simp at h1
          · rw [List.getElem?_set_ne (by omega)] at h1
            exact ⟨k, hk, h1, h2⟩
        · rintro ⟨k, hk, h1, h2⟩
          by_cases hki : k = idx
          · subst hki; exact absurd h2 hp
          · exact ⟨k, hk, by rw [List.getElem?_set_ne (by omega)]; exact h1, h2⟩
      -- the meaning of `ke`
      have keFirst : (∃ hi1 : idx + 1 < info.files.length, (sel.set idx false)[idx + 1]? = some true ∧
              info.files[idx + 1].startPieceIndex = info.files[idx].endPieceIndex) → ke = true := by
        rintro ⟨hi1, h1, h2⟩
        have := keepEnd_first (sel.set idx false) hlen' _ (idx + 1) hi1 h1 h2
        rw [this] at hke
        injection hke with hke
        exact hke.symm
      have keBack : ke = true → (∃ hi1 : idx + 1 < info.files.length, (sel.set idx false)[idx + 1]? = some true ∧
              info.files[idx + 1].startPieceIndex = info.files[idx].endPieceIndex) ∨
              (ks = true ∧ info.files[idx].startPieceIndex = info.files[idx].endPieceIndex) := by
        intro hk
        obtain ⟨k, hk1, hk2, h1, h2⟩ := hke' hk
        rcases Nat.lt_trichotomy k idx with hlt' | heq | hgt
        · have a1 := o.before k idx hlt' hidx
          have a2 := o.se k hk1
          exact .inr ⟨hks'.mpr ⟨k, hlt', h1, by omega⟩, by omega⟩
        · subst heq; rw [hself] at h1; simp at h1
        · have : k = idx + 1 := by omega
          subst this
          exact .inl ⟨hk1, h1, h2⟩
      generalize hA : info.files[idx].startPieceIndex = A at *
      generalize hB : info.files[idx].endPieceIndex = B at *
      have fin : ∀ a b, (b < l.length ∨ b < a) →
          (∀ p, p < l.length → ((a ≤ p ∧ p ≤ b) ↔ (A ≤ p ∧ p ≤ B) ∧ ¬ Needed info.files (sel.set idx false) p)) →
          ∃ s' l', (do
            let p ← select s.progress a b false
            pure { s with info := info, selection := sel.set idx false, progress := p }) = Res.ok s' ∧
            SelRel info s' (sel.set idx false) l' ∧ ∀ p : Nat, (l'[p]?).map (·.has) = (l[p]?).map (·.has) := by
        intro a b hab hrange
        obtain ⟨p', hp', hr'⟩ := select_rel hrel a b false hab
        rw [hp']
        refine ⟨_, _, rfl, ⟨rfl, rfl, hlen', hr', by rw [select_len, hplen], ?_⟩, has_select _ _⟩
        intro p hp
        rw [select_len] at hp
        rw [select_get _ _ _ _ _ hp]
        split
        · rename_i hh
          have := (hrange p hp).mp hh
          simp [this.2]
        · rename_i hh
          rw [hneed p hp]
          by_cases hin : A ≤ p ∧ p ≤ B
          · have : Needed info.files (sel.set idx false) p := by
              apply Classical.byContradiction
              intro hnn
              exact hh ((hrange p hp).mpr ⟨hin, hnn⟩)
            simp only [this, iff_true]
            exact ⟨idx, hidx, by rw [List.getElem?_eq_getElem hisel, hcur'], by omega, by omega⟩
          · exact (other p hin).symm
      have einfo : s = { s with info := info } := by rw [← hi]
      rw [show u32 (A + 1) = A + 1 from u32_id (by omega)]
      cases hksb : ks <;> cases hkeb : ke <;>
        simp only [hksb, hkeb, if_true, if_false, Bool.false_eq_true, Bool.true_eq_false, false_and, true_and, false_or, forall_const, imp_false, or_false, false_implies] at who keFirst keBack ⊢
      · rw [einfo]
        apply fin A B (.inl (by omega))
        intro p hp
        constructor
        · intro hh
          refine ⟨hh, fun hn => ?_⟩
          obtain ⟨h1, h2, h3, _⟩ := (who p hh.1 hh.2).mp hn
          exact keFirst ⟨h1, h2, h3⟩
        · exact fun hh => hh.1
      · obtain ⟨k1, k2, k3⟩ := keBack
        have hw : ∀ p, A ≤ p → p ≤ B → (Needed info.files (sel.set idx false) p ↔ p = B) := by
          intro p h1 h2
          rw [who p h1 h2]
          exact ⟨fun ⟨_, _, _, h⟩ => h, fun h => ⟨k1, k2, k3, h⟩⟩
        by_cases hB0 : B = 0
        · simp only [hB0, if_true]
          rw [einfo, show u32 (A + 1) = A + 1 from u32_id (by omega)]
          apply fin (A + 1) 0 (.inr (by omega))
          intro p hp
          constructor
          · intro hh; omega
          · rintro ⟨hh, hn⟩
            exact absurd ((hw p hh.1 hh.2).mpr (by omega)) hn
        · simp only [hB0, if_false]
          rw [einfo]
          apply fin A (B - 1) (.inl (by omega))
          intro p hp
          constructor
          · intro hh
            exact ⟨by omega, fun hn => by have := (hw p hh.1 (by omega)).mp hn; omega⟩
          · rintro ⟨hh, hn⟩
            have : p ≠ B := fun e => hn ((hw p hh.1 hh.2).mpr e)
            omega
      · rw [einfo]
        have hw : ∀ p, A ≤ p → p ≤ B → (Needed info.files (sel.set idx false) p ↔ p = A) := by
          intro p h1 h2
          rw [who p h1 h2]
          refine ⟨fun h => ?_, fun h => .inl h⟩
          rcases h with h | ⟨a1, a2, a3, _⟩
          · exact h
          · exact absurd ⟨a1, a2, a3⟩ keFirst
        apply fin (A + 1) B (.inl (by omega))
        intro p hp
        constructor
        · intro hh
          exact ⟨by omega, fun hn => by have := (hw p (by omega) hh.2).mp hn; omega⟩
        · rintro ⟨hh, hn⟩
          have : p ≠ A := fun e => hn ((hw p hh.1 hh.2).mpr e)
          omega
      · have hw : ∀ p, A ≤ p → p ≤ B → (Needed info.files (sel.set idx false) p ↔ p = A ∨ p = B) := by
          intro p h1 h2
          rw [who p h1 h2]
          constructor
          · rintro (h | ⟨_, _, _, h⟩)
            · exact .inl h
            · exact .inr h
          · rintro (h | h)
            · exact .inl h
            · rcases keBack with ⟨a1, a2, a3⟩ | e
              · exact .inr ⟨a1, a2, a3, h⟩
              · exact .inl (by omega)
        by_cases hB0 : B = 0
        · simp only [hB0, if_true]
          rw [einfo, show u32 (A + 1 + 1) = A + 1 + 1 from u32_id (by omega)]
          apply fin (A + 1 + 1) 0 (.inr (by omega))
          intro p hp
          constructor
          · intro hh; omega
          · rintro ⟨hh, hn⟩
            exact absurd ((hw p hh.1 hh.2).mpr (by omega)) hn
        · simp only [hB0, if_false]
          rw [einfo]
          apply fin (A + 1) (B - 1) (.inl (by omega))
          intro p hp
          constructor
          · intro hh
            exact ⟨by omega, fun hn => by have := (hw p (by omega) (by omega)).mp hn; omega⟩
          · rintro ⟨hh, hn⟩
            have : ¬ (p = A ∨ p = B) := fun e => hn ((hw p hh.1 hh.2).mpr e)
            omega

theorem selectFiles_loop {info : Info} (o : Ordered info.files info.piecesCount) (h3 : NoThree info.files)
    (fl : List Bool) (hfl : fl.length ≤ info.files.length)
    {s : FilesState} {sel : List Bool} {l : Pieces} (h : SelRel info s sel l) (k : Nat) (hk : k ≤ fl.length) :
    ∃ s' l', (List.range k).foldl (fun r i => do
        let s ← r
        let v ← rd fl i
        filesSelect s i v) (.ok s) = Res.ok s' ∧ SelRel info s' (fl.take k ++ sel.drop k) l' := by
  induction k with
  | zero => exact ⟨s, l, rfl, by simpa using h⟩
  | succ k ih =>
    obtain ⟨s1, l1, h1, r1⟩ := ih (by omega)
    have hsl := h.len
    have hkl : k < fl.length := by omega
    rw [List.range_succ, List.foldl_append, h1]
    simp only [List.foldl_cons, List.foldl_nil, Res.bind_ok, rd_eq_ok hkl]
    obtain ⟨s2, l2, h2, r2, _⟩ := filesSelect_rel r1 o h3 k (by omega) fl[k]
    refine ⟨s2, l2, h2, ?_⟩
    have : (fl.take k ++ sel.drop k).set k fl[k] = fl.take (k + 1) ++ sel.drop (k + 1) := by
      rw [List.set_append_right _ _ (by simp; omega)]
      rw [show k - (fl.take k).length = 0 by simp; omega]
      rw [List.drop_eq_getElem_cons (show k < sel.length by omega), List.set_cons_zero]
      rw [List.take_add_one, List.getElem?_eq_getElem hkl]
      simp only [Option.toList_some, List.append_assoc, List.cons_append, List.nil_append]
    rw [← this]
    exact r2

theorem selStep_rel {info : Info} (o : Ordered info.files info.piecesCount) (h3 : NoThree info.files)
    {s : FilesState} {sel : List Bool} {l : Pieces} (h : SelRel info s sel l) (op : SelOp)
    (hop : op.valid info.piecesCount) :
    ∃ s' l', selStep s op = .ok s' ∧ SelRel info s' (selAfter sel op) l' := by
  cases op with
  | file idx v =>
    simp only [selStep, selectFile, selAfter, h.info_eq]
    split
    · rename_i hlt
      refine ⟨s, l, rfl, ?_⟩
      rw [List.set_eq_of_length_le (by rw [h.len]; omega)]
      exact h
    · rename_i hlt
      obtain ⟨s', l', h1, r, _⟩ := filesSelect_rel h o h3 idx (by omega) v
      exact ⟨s', l', h1, r⟩
  | files fl =>
    simp only [selStep, selectFiles, selAfter, h.info_eq, h.len]
    split
    · rename_i hlt
      exact ⟨s, l, rfl, by rw [if_neg (by omega)]; exact h⟩
    · rename_i hlt
      obtain ⟨s', l', h1, r⟩ := selectFiles_loop o h3 fl (by omega) h fl.length (Nat.le_refl _)
      refine ⟨s', l', h1, ?_⟩
      rw [if_pos (by omega)]
      rw [List.take_length] at r
      exact r
  | received p =>
    simp only [SelOp.valid] at hop
    have hpl : p < l.length := by rw [h.plen]; exact hop
    obtain ⟨q, hq, r⟩ := addPiece_rel h.rel p (.inl hpl)
    simp only [selStep, hq, Res.bind_ok, Res.pure_eq, selAfter]
    have hmax : max l.length (p + 1) = l.length := by omega
    have hres : l.resize l.length = l := by unfold Pieces.resize; simp
    have hadd : l.add p = l.modify p (fun x => { x with has := true }) := by
      unfold Pieces.add; rw [hmax, hres]
    refine ⟨_, _, rfl, h.info_eq, h.sel_eq, h.len, r, ?_, ?_⟩
    · rw [hadd]; simpa using h.plen
    · intro x hx
      have hx' : x < l.length := by simpa [hadd] using hx
      rw [← h.needed x hx']
      simp only [hadd, List.getElem_modify]
      split <;> rfl
  | lost p =>
    simp only [SelOp.valid] at hop
    have hpl : p < l.length := by rw [h.plen]; exact hop
    obtain ⟨q, hq, r⟩ := removePiece_rel h.rel p hpl
    simp only [selStep, hq, Res.bind_ok, Res.pure_eq, selAfter]
    refine ⟨_, _, rfl, h.info_eq, h.sel_eq, h.len, r, ?_, ?_⟩
    · unfold Pieces.remove; simpa using h.plen
    · intro x hx
      have hx' : x < l.length := by simpa [Pieces.remove] using hx
      rw [← h.needed x hx']
      simp only [Pieces.remove, List.getElem_modify]
      split <;> rfl

theorem selRun_rel {info : Info} (o : Ordered info.files info.piecesCount) (h3 : NoThree info.files)
    {s : FilesState} {sel : List Bool} {l : Pieces} (h : SelRel info s sel l) (ops : List SelOp)
    (hops : ∀ op ∈ ops, op.valid info.piecesCount) :
    ∃ s' l', selRun s ops = .ok s' ∧ SelRel info s' (ops.foldl selAfter sel) l' := by
  induction ops generalizing s sel l with
  | nil => exact ⟨s, l, rfl, h⟩
  | cons op ops ih =>
    obtain ⟨s1, l1, h1, r1⟩ := selStep_rel o h3 h op (hops op (by simp))
    obtain ⟨s2, l2, h2, r2⟩ := ih r1 (fun x hx => hops x (by simp [hx]))
    refine ⟨s2, l2, ?_, r2⟩
    simp only [selRun, h1, Res.bind_ok, h2]

/-! The layout of non-empty files. -/

theorem fileStart_mono (sizes : List Nat) {j k : Nat} (h : j ≤ k) : fileStart sizes j ≤ fileStart sizes k := by
  unfold fileStart
  have : sizes.take j = (sizes.take k).take j := by rw [List.take_take, Nat.min_eq_left h]
  rw [this]
  exact take_sum_le _ _

theorem hasData_iff (ps : Nat) (hps : 0 < ps) (sizes : List Nat) (k : Nat) (hk : k < sizes.length)
    (hpos : 0 < sizes[k]) (p : Nat) :
    hasData ps sizes k p ↔ fileStart sizes k / ps ≤ p ∧ p ≤ (fileEnd sizes k - 1) / ps := by
  have he := fileEnd_eq sizes k hk
  unfold hasData
  constructor
  · rintro ⟨b, h1, h2, rfl⟩
    exact ⟨Nat.div_le_div_right h1, Nat.div_le_div_right (by omega)⟩
  · rintro ⟨h1, h2⟩
    by_cases hp : fileStart sizes k / ps = p
    · exact ⟨fileStart sizes k, Nat.le_refl _, by omega, hp⟩
    · have h3 : fileStart sizes k < p * ps := by
        have : fileStart sizes k / ps < p := by omega
        exact (Nat.div_lt_iff_lt_mul hps).mp this
      have h4 : p * ps ≤ fileEnd sizes k - 1 := (Nat.le_div_iff_mul_le hps).mp h2
      exact ⟨p * ps, by omega, by omega, Nat.mul_div_cancel _ hps⟩

theorem byte_in_file (sizes : List Nat) (b : Nat) (hb : b < sizes.sum) :
    ∃ k, k < sizes.length ∧ fileStart sizes k ≤ b ∧ b < fileEnd sizes k := by
  induction sizes generalizing b with
  | nil => simp at hb
  | cons s rest ih =>
    simp only [List.sum_cons] at hb
    by_cases h : b < s
    · exact ⟨0, by simp, by simp [fileStart], by simp [fileEnd]; exact h⟩
    · obtain ⟨k, hk, h1, h2⟩ := ih (b - s) (by omega)
      refine ⟨k + 1, by simpa using hk, ?_, ?_⟩
      · simp [fileStart] at *; omega
      · simp [fileEnd] at *; omega

/-- The files of a parsed multi-file torrent. -/
theorem parse_multi (ps n : Nat) (sizes : List Nat) (hps : 0 < ps) (hps32 : ps < 4294967296)
    (h64 : sizes.sum < 18446744073709551616) (h32 : sizes.sum / ps < 4294967296) :
    ∃ i, parseInfo ps n (.multi sizes) = .ok i ∧ i.piecesCount = n ∧ i.pieceSize = ps ∧ i.fullSize = sizes.sum ∧
      i.files.length = sizes.length ∧
      (∀ k (hk : k < sizes.length), i.files[k]? = some
        { size := sizes[k], startPieceIndex := fileStart sizes k / ps, startPiecePos := fileStart sizes k % ps
          endPieceIndex := if sizes[k] = 0 then fileStart sizes k / ps else (fileEnd sizes k - 1) / ps
          endPiecePos := fileEnd sizes k % ps }) ∧
      i = finishInfo { files := i.files, piecesCount := n, pieceSize := ps, fullSize := sizes.sum } := by
  obtain ⟨h1, h2, h3⟩ := fileLoop_spec ps sizes 0 (by omega)
  have hne : ¬ (sizes ≠ [] ∧ ps = 0) := by omega
  simp only [parseInfo, hne, if_false, h1, Nat.zero_add]
  have hf : ∀ i : Info, (finishInfo i).files = i.files ∧ (finishInfo i).piecesCount = i.piecesCount ∧
      (finishInfo i).pieceSize = i.pieceSize ∧ (finishInfo i).fullSize = i.fullSize := by
    intro i; unfold finishInfo; split <;> simp
  refine ⟨_, rfl, (hf _).2.1, (hf _).2.2.1, (hf _).2.2.2, ?_, ?_, ?_⟩
  · rw [(hf _).1]; exact h2
  · intro k hk
    rw [(hf _).1]
    simp only
    rw [h3 k hk, Nat.zero_add]
    have he := fileEnd_eq sizes k hk
    have hle := fileEnd_le sizes k
    rw [makeFile_eq ps _ _ hps hps32 (by omega) (by rw [← he]; exact div_lt_of_lt hps h32 hle)]
    rw [he]
  · rw [(hf _).1]

theorem ordered_of (ps : Nat) (hps : 0 < ps) (sizes : List Nat) (hpos : ∀ s ∈ sizes, 0 < s) (i : Info)
    (hlen : i.files.length = sizes.length)
    (hn : i.piecesCount = pieceCount ps sizes.sum) (hn32 : i.piecesCount < 4294967296)
    (hget : ∀ k (hk : k < sizes.length), i.files[k]? = some
        { size := sizes[k], startPieceIndex := fileStart sizes k / ps, startPiecePos := fileStart sizes k % ps
          endPieceIndex := if sizes[k] = 0 then fileStart sizes k / ps else (fileEnd sizes k - 1) / ps
          endPiecePos := fileEnd sizes k % ps }) :
    Ordered i.files i.piecesCount ∧
    ∀ k (hk : k < i.files.length), i.files[k].startPieceIndex = fileStart sizes k / ps ∧
      i.files[k].endPieceIndex = (fileEnd sizes k - 1) / ps := by
  have hall : ∀ k (hk : k < i.files.length), i.files[k].startPieceIndex = fileStart sizes k / ps ∧
      i.files[k].endPieceIndex = (fileEnd sizes k - 1) / ps := by
    intro k hk
    have hk' : k < sizes.length := by omega
    have := hget k hk'
    rw [List.getElem?_eq_getElem hk] at this
    injection this with this
    have hp := hpos sizes[k] (List.getElem_mem hk')
    rw [this]
    simp only [true_and]
    rw [if_neg (by omega)]
  refine ⟨⟨?_, ?_, ?_, hn32⟩, hall⟩
  · intro k hk
    have hk' : k < sizes.length := by omega
    rw [(hall k hk).1, (hall k hk).2]
    have := fileEnd_eq sizes k hk'
    have := hpos sizes[k] (List.getElem_mem hk')
    exact Nat.div_le_div_right (by omega)
  · intro k hk
    rw [(hall k (by omega)).2, (hall (k + 1) hk).1]
    have : fileStart sizes (k + 1) = fileEnd sizes k := rfl
    rw [this]
    exact Nat.div_le_div_right (by omega)
  · intro k hk
    have hk' : k < sizes.length := by omega
    rw [(hall k hk).2, hn]
    have h1 := fileEnd_eq sizes k hk'
    have h2 := hpos sizes[k] (List.getElem_mem hk')
    have h3 := fileEnd_le sizes k
    unfold pieceCount
    rw [show sizes.sum + ps - 1 = (sizes.sum - 1) + ps by omega, Nat.add_div_right _ hps]
    have := Nat.div_le_div_right (c := ps) (show fileEnd sizes k - 1 ≤ sizes.sum - 1 by omega)
    omega

end Verif.Layout
