import Verif.Spec.Location
/-! Proofs about places, moving and deleting. -/

namespace Verif.Location
open Verif Spec.Location

/-! ### Paths -/

theorem splitSep_ne (s : List UInt8) : splitSep s ≠ [] := by
  cases s with
  | nil => simp [splitSep]
  | cons c s =>
    rw [splitSep]
    split
    · simp
    · split <;> simp

theorem splitSep_append (a b : List UInt8) : splitSep (a ++ 47 :: b) = splitSep a ++ splitSep b := by
  induction a with
  | nil => simp [splitSep]
  | cons c a ih =>
    rw [List.cons_append, splitSep, splitSep, ih]
    split
    · simp
    · cases h : splitSep a with
      | nil => exact absurd h (splitSep_ne a)
      | cons w ws => simp

theorem splitSep_word {w : List UInt8} (h : ∀ c ∈ w, c ≠ 47) : splitSep w = [w] := by
  induction w with
  | nil => rfl
  | cons c w ih =>
    rw [splitSep, if_neg (h c (by simp)), ih (fun x hx => h x (by simp [hx]))]

theorem takeWhile_clean {s t : List UInt8} (h : ∀ c ∈ s, c ≠ 0) :
    (s ++ t).takeWhile (· != 0) = s ++ t.takeWhile (· != 0) := by
  rw [List.takeWhile_append_of_pos]
  intro c hc
  simpa using h c hc

theorem takeWhile_all {s : List UInt8} (h : ∀ c ∈ s, c ≠ 0) : s.takeWhile (· != 0) = s := by
  have := takeWhile_clean (t := []) h
  simpa using this

theorem step_plain {w : List UInt8} (h : Plain w) (p : Place) : step p w = p ++ [w] := by
  rw [step, if_neg, if_neg]
  · exact h.2.2.2
  · rintro (h1 | h1)
    · exact h.1 h1
    · exact h.2.2.1 h1

theorem resolve_append {p : List UInt8} (h : Location p) (t : List UInt8) :
    resolve (p ++ t) = (splitSep (t.takeWhile (· != 0))).foldl step (resolve p) := by
  rw [resolve, resolve, takeWhile_clean h.1, takeWhile_all h.1]
  rcases h.2 with h2 | ⟨a, h2⟩
  · subst h2
    simp [splitSep, step]
  · subst h2
    rw [List.append_assoc, List.singleton_append, splitSep_append, splitSep_append, List.foldl_append, List.foldl_append]
    simp [splitSep, step]

theorem resolve_word {p : List UInt8} (h : Location p) {w : List UInt8} (hw : Plain w) :
    resolve (p ++ w) = resolve p ++ [w] := by
  rw [resolve_append h, takeWhile_all (fun c hc => (hw.2.1 c hc).2), splitSep_word (fun c hc => (hw.2.1 c hc).1)]
  simp [step_plain hw]

theorem location_push {p : List UInt8} (h : Location p) {w : List UInt8} (hw : Plain w) : Location (p ++ w ++ [47]) :=
  ⟨by
    intro c hc
    simp only [List.mem_append, List.mem_singleton] at hc
    rcases hc with (hc | hc) | hc
    · exact h.1 c hc
    · exact (hw.2.1 c hc).2
    · subst hc; decide, .inr ⟨_, rfl⟩⟩

theorem resolve_sep {p : List UInt8} (h : Location p) {w : List UInt8} (hw : Plain w) :
    resolve (p ++ w ++ [47]) = resolve p ++ [w] := by
  have hz : ∀ c ∈ w ++ [47], c ≠ 0 := by
    intro c hc
    simp only [List.mem_append, List.mem_singleton] at hc
    rcases hc with hc | hc
    · exact (hw.2.1 c hc).2
    · subst hc; decide
  rw [List.append_assoc, resolve_append h, takeWhile_all hz, splitSep_append, splitSep_word (fun c hc => (hw.2.1 c hc).1)]
  simp [step_plain hw, splitSep]
  rw [step, if_pos (.inl rfl)]

theorem resolve_parts (ws : List (List UInt8)) : ∀ {p : List UInt8}, Location p → (∀ w ∈ ws, Plain w) →
    Location (ws.foldl (fun s p => s ++ p ++ [47]) p) ∧
      resolve (ws.foldl (fun s p => s ++ p ++ [47]) p) = resolve p ++ ws := by
  induction ws with
  | nil => intro p h _; simpa using h
  | cons w ws ih =>
    intro p h hw
    obtain ⟨h1, h2⟩ := ih (location_push h (hw w (by simp))) (fun x hx => hw x (by simp [hx]))
    refine ⟨h1, ?_⟩
    rw [List.foldl_cons, h2, resolve_sep h (hw w (by simp))]
    simp

theorem slash_location {p : List UInt8} (h : ∀ c ∈ p, c ≠ 0) : Location (slash p) := by
  unfold slash
  split
  · rename_i hp
    refine ⟨?_, .inr ⟨p, rfl⟩⟩
    intro c hc
    simp only [List.mem_append, List.mem_singleton] at hc
    rcases hc with hc | hc
    · exact h c hc
    · subst hc; decide
  · rename_i hp
    refine ⟨h, ?_⟩
    by_cases h0 : p = []
    · exact .inl h0
    · right
      have : p.getLast? = some 47 := by
        by_cases h1 : p.getLast? = some 47
        · exact h1
        · exact absurd ⟨h0, h1⟩ hp
      refine ⟨p.dropLast, ?_⟩
      have h2 := List.dropLast_concat_getLast h0
      rw [List.getLast?_eq_some_getLast h0] at this
      simp only [Option.some.injEq] at this
      rw [← this]; exact h2.symm

theorem slash_id {p : List UInt8} (h : Location p) : slash p = p := by
  unfold slash
  rw [if_neg]
  rintro ⟨h1, h2⟩
  rcases h.2 with h3 | ⟨a, h3⟩
  · exact h1 h3
  · subst h3; simp at h2

theorem slash_resolve {p : List UInt8} (h : ∀ c ∈ p, c ≠ 0) : resolve (slash p) = resolve p := by
  unfold slash
  split
  · rw [resolve, resolve, takeWhile_clean h, takeWhile_all h]
    have : List.takeWhile (fun x : UInt8 => x != 0) [47] = [47] := by decide
    rw [this, splitSep_append]
    simp [splitSep, step]
  · rfl

theorem full_place {f : Metafile.FileName} (hf : Named f) {p : List UInt8} (h : ∀ c ∈ p, c ≠ 0) :
    fullPath f p = resolve p ++ f.path ++ [f.name] := by
  obtain ⟨h1, h2⟩ := resolve_parts f.path (slash_location h) hf.2
  rw [fullPath, fullText, resolve_word h1 hf.1, h2, slash_resolve h]

theorem root_place {name : List UInt8} (hn : Plain name) {p : List UInt8} (h : Location p) :
    rootPath name p = resolve p ++ [name] := resolve_word h hn

/-! ### The file system -/

/-- What the list says of a place. -/
def look (fs : Fs) (p : Place) : Option Node := (fs.find? (fun e => e.1 = p)).map (·.2)

theorem get_look {fs : Fs} {p : Place} (h : p ≠ []) : get fs p = look fs p := by rw [get, if_neg h]; rfl

theorem look_nil (p : Place) : look [] p = none := rfl

theorem look_cons (e : Place × Node) (fs : Fs) (p : Place) : look (e :: fs) p = if e.1 = p then some e.2 else look fs p := by
  unfold look
  by_cases h : e.1 = p
  · rw [if_pos h, List.find?_cons_of_pos (by simpa using h)]; rfl
  · rw [if_neg h, List.find?_cons_of_neg (by simpa using h)]

theorem look_mem {fs : Fs} {p : Place} {x : Node} (h : look fs p = some x) : (p, x) ∈ fs := by
  induction fs with
  | nil => simp [look_nil] at h
  | cons e fs ih =>
    rw [look_cons] at h
    split at h
    · rename_i he
      obtain rfl : e.2 = x := by simpa using h
      subst he
      simp
    · exact List.mem_cons_of_mem _ (ih h)

theorem mem_look {fs : Fs} {e : Place × Node} (h : e ∈ fs) : look fs e.1 ≠ none := by
  induction fs with
  | nil => simp at h
  | cons x fs ih =>
    rw [look_cons]
    split
    · simp
    · rename_i hx
      rcases List.mem_cons.1 h with h | h
      · exact absurd (by rw [h]) hx
      · exact ih h

theorem look_filter (k : Place → Bool) (fs : Fs) (p : Place) :
    look (fs.filter (fun e => k e.1)) p = if k p then look fs p else none := by
  induction fs with
  | nil => simp [look_nil]
  | cons e fs ih =>
    rw [List.filter_cons, look_cons]
    by_cases he : e.1 = p
    · subst he
      by_cases hk : k e.1
      · rw [if_pos hk, look_cons, if_pos rfl, if_pos rfl, if_pos hk]
      · rw [if_neg hk, ih, if_neg hk, if_neg hk]
    · rw [if_neg he]
      split
      · rw [look_cons, if_neg he, ih]
      · exact ih

/-- Everything above something is a folder. -/
theorem above_dir {fs : Fs} (ht : Tree fs) (q : Place) : ∀ (r : Place), get fs (q ++ r) ≠ none → r ≠ [] → get fs q = some .dir := by
  intro r
  induction h : r.length generalizing r with
  | zero => intro _ h2; exact absurd (List.length_eq_zero_iff.1 h) h2
  | succ n ih =>
    intro h1 h2
    have hne : q ++ r ≠ [] := by simp [h2]
    cases hl : look fs (q ++ r) with
    | none => rw [get_look hne, hl] at h1; exact absurd rfl h1
    | some x =>
      have := (ht _ (look_mem hl)).2
      simp only at this
      rw [List.dropLast_append_of_ne_nil h2] at this
      by_cases hd : r.dropLast = []
      · rw [hd] at this; simpa using this
      · exact ih r.dropLast (by rw [List.length_dropLast, h]; rfl) (by rw [this]; simp) hd

theorem above_busy {fs : Fs} (q r : Place) (h : get fs (q ++ r) ≠ none) (hr : r ≠ []) :
    (fs.any (fun e => inside q e.1)) = true := by
  have hne : q ++ r ≠ [] := by simp [hr]
  cases hl : look fs (q ++ r) with
  | none => rw [get_look hne, hl] at h; exact absurd rfl h
  | some x =>
    rw [List.any_eq_true]
    refine ⟨_, look_mem hl, ?_⟩
    have : 0 < r.length := List.length_pos_iff.2 hr
    simp [inside, this, List.isPrefixOf_iff_prefix]

theorem notPrefix {p q : Place} (h : ¬ p <+: q) : p.isPrefixOf q = false := by
  cases hb : p.isPrefixOf q with
  | false => rfl
  | true => exact absurd (List.isPrefixOf_iff_prefix.1 hb) h

/-! ### Renaming -/

theorem look_move (o n : Place) (hno : ¬ n <+: o) (hon : ¬ o <+: n) (fs : Fs) (r : Place) :
    look ((fs.filter (fun e => !n.isPrefixOf e.1)).map
      (fun e => if o.isPrefixOf e.1 then (n ++ e.1.drop o.length, e.2) else e)) (n ++ r) = look fs (o ++ r) := by
  induction fs with
  | nil => rfl
  | cons e fs ih =>
    rw [List.filter_cons, look_cons]
    by_cases hn : n <+: e.1
    · rw [if_neg (by simp [List.isPrefixOf_iff_prefix, hn]), ih, if_neg]
      intro he
      rw [he] at hn
      rcases List.prefix_or_prefix_of_prefix hn (List.prefix_append o r) with h | h
      · exact hno h
      · exact hon h
    · rw [if_pos (by simp [notPrefix hn]), List.map_cons, look_cons, ih]
      by_cases ho : o <+: e.1
      · obtain ⟨t, ht⟩ := ho
        have hp : o.isPrefixOf e.1 = true := List.isPrefixOf_iff_prefix.2 ⟨t, ht⟩
        rw [if_pos hp, ← ht]
        simp only [List.drop_left', List.append_cancel_left_eq]
      · have hp : ¬ o.isPrefixOf e.1 = true := fun h => ho (List.isPrefixOf_iff_prefix.1 h)
        rw [if_neg hp, if_neg, if_neg]
        · intro he; exact ho ⟨r, he.symm⟩
        · intro he; exact hn ⟨r, he.symm⟩

theorem look_stay (o n : Place) (fs : Fs) (q : Place) (hn : ¬ n <+: q) :
    look ((fs.filter (fun e => !n.isPrefixOf e.1)).map
      (fun e => if o.isPrefixOf e.1 then (n ++ e.1.drop o.length, e.2) else e)) q = if o <+: q then none else look fs q := by
  induction fs with
  | nil => simp [look_nil]
  | cons e fs ih =>
    rw [List.filter_cons, look_cons]
    by_cases hne : n <+: e.1
    · rw [if_neg (by simp [List.isPrefixOf_iff_prefix, hne]), ih, if_neg (c := e.1 = q)]
      intro he; rw [he] at hne; exact hn hne
    · rw [if_pos (by simp [notPrefix hne]), List.map_cons, look_cons, ih]
      by_cases ho : o <+: e.1
      · rw [if_pos (List.isPrefixOf_iff_prefix.2 ho), if_neg (c := (n ++ e.1.drop o.length, e.2).1 = q)]
        · by_cases hq : o <+: q
          · rw [if_pos hq, if_pos hq]
          · rw [if_neg hq, if_neg hq, if_neg]
            intro he; rw [he] at ho; exact hq ho
        · intro he; exact hn ⟨_, he⟩
      · rw [if_neg (fun h => ho (List.isPrefixOf_iff_prefix.1 h))]
        by_cases he : e.1 = q
        · rw [if_pos he, if_neg, if_pos he]
          rw [← he]; exact ho
        · rw [if_neg he, if_neg he]

/-- What `rename` does: what was at and below `o` is at and below `n`, everything else stays. -/
theorem rename_spec {fs fs' : Fs} (ht : Tree fs) {o n : Place} (h : rename fs o n = some fs') :
    (∀ r, get fs' (n ++ r) = get fs (o ++ r)) ∧
    (∀ q, ¬ n <+: q → ¬ o <+: q → get fs' q = get fs q) ∧
    (o ≠ n → ∀ r, get fs' (o ++ r) = none) := by
  unfold rename at h
  split at h
  · rename_i hs
    obtain rfl : fs = fs' := by simpa using h
    obtain ⟨rfl, _⟩ := hs
    exact ⟨fun _ => rfl, fun _ _ _ => rfl, fun h => absurd rfl h⟩
  · rename_i hs
    split at h
    · rename_i hm
      have h := Option.some.inj h
      subst h
      unfold mayRename at hm
      simp only [Bool.and_eq_true, decide_eq_true_eq, Bool.not_eq_true', ne_eq] at hm
      obtain ⟨⟨⟨⟨hp, hi⟩, hn0⟩, ho0⟩, hk⟩ := hm
      have hn0' : n ≠ [] := by simpa using hn0
      have ho0' : o ≠ [] := by simpa using ho0
      have hpr : get fs o ≠ none := by
        intro h0; rw [h0] at hk; simp at hk
      have hne : o ≠ n := by
        intro h0
        apply hs
        refine ⟨h0, ?_⟩
        unfold present
        cases hg : get fs o with
        | none => exact absurd hg hpr
        | some x => rfl
      have hon : ¬ o <+: n := by
        rintro ⟨t, ht2⟩
        have htne : t ≠ [] := by rintro rfl; simp at ht2; exact hne ht2
        have : inside o n = true := by
          rw [← ht2]
          have : 0 < t.length := List.length_pos_iff.2 htne
          simp [inside, this, List.isPrefixOf_iff_prefix]
        rw [this] at hi; simp at hi
      have hno : ¬ n <+: o := by
        rintro ⟨t, ht2⟩
        have htne : t ≠ [] := by rintro rfl; simp at ht2; exact hne ht2.symm
        rw [← ht2] at hpr
        have hd := above_dir ht n t hpr htne
        have hb := above_busy n t hpr htne
        rw [hd] at hk
        cases hg : get fs o with
        | none => rw [← ht2] at hg; exact hpr hg
        | some x =>
          rw [hg] at hk
          cases x with
          | dir => simp only [isEmpty, hd, hb] at hk; simp at hk
          | file c => simp at hk
      refine ⟨?_, ?_, ?_⟩
      · intro r
        rw [get_look (by simp [hn0']), get_look (by simp [ho0'])]
        exact look_move o n hno hon fs r
      · intro q h1 h2
        by_cases hq : q = []
        · rw [hq]; rfl
        · rw [get_look hq, get_look hq, look_stay o n fs q h1, if_neg h2]
      · intro _ r
        rw [get_look (by simp [ho0']), look_stay o n fs _ ?_, if_pos (List.prefix_append o r)]
        intro h1
        rcases List.prefix_or_prefix_of_prefix h1 (List.prefix_append o r) with h | h
        · exact hno h
        · exact hon h
    · simp at h

/-! ### Making folders -/

theorem makeDirs_keeps (q : Place) : ∀ (fs fs' : Fs) (p : Place), makeDirs fs p q = some fs' →
    ∀ r x, get fs r = some x → get fs' r = some x := by
  induction q with
  | nil => intro fs fs' p h r x hx; rw [makeDirs] at h; have h := Option.some.inj h; subst h; exact hx
  | cons n q ih =>
    intro fs fs' p h r x hx
    rw [makeDirs] at h
    split at h
    · exact ih _ _ _ h r x hx
    · simp at h
    · rename_i hg
      refine ih _ _ _ h r x ?_
      by_cases hr : r = []
      · subst hr; simpa [get] using hx
      · rw [get_look hr] at hx ⊢
        rw [look_cons]
        split
        · rename_i he
          rw [get_look (by simp)] at hg
          rw [← he] at hx
          rw [hg] at hx; simp at hx
        · exact hx

theorem createPath_keeps {fs fs' : Fs} {p : List UInt8} (h : createPath fs p = some fs') :
    ∀ r x, get fs r = some x → get fs' r = some x := by
  unfold createPath at h
  split at h
  · simp at h
  · split at h
    · obtain rfl : fs = fs' := by simpa using h
      exact fun _ _ h => h
    · exact makeDirs_keeps _ _ _ _ h

/-! ### Removing -/

theorem remove_eq (fs : Fs) (p : Place) : remove fs p = fs ∨ remove fs p = fs.filter (fun e => e.1 ≠ p) := by
  unfold remove
  split
  · exact .inr rfl
  · split
    · exact .inr rfl
    · exact .inl rfl
  · exact .inl rfl

theorem look_without (fs : Fs) (p q : Place) :
    look (fs.filter (fun e => e.1 ≠ p)) q = if q = p then none else look fs q := by
  have := look_filter (fun x => decide (x ≠ p)) fs q
  refine Eq.trans this ?_
  by_cases h : q = p
  · simp [h]
  · simp [h]

theorem remove_other {fs : Fs} {p q : Place} (h : q ≠ p) : get (remove fs p) q = get fs q := by
  by_cases hq : q = []
  · simp [hq, get]
  rcases remove_eq fs p with h1 | h1
  · rw [h1]
  · rw [h1, get_look hq, get_look hq, look_without, if_neg h]

theorem remove_none {fs : Fs} {p q : Place} {x : Node} (h : get (remove fs p) q = some x) : get fs q = some x := by
  by_cases hq : q = []
  · rw [hq] at h ⊢; simpa [get] using h
  rcases remove_eq fs p with h1 | h1
  · rwa [h1] at h
  · rw [h1, get_look hq, look_without] at h
    split at h
    · simp at h
    · rwa [get_look hq]

theorem remove_gone (fs : Fs) (p : Place) (c : List UInt8) : get (remove fs p) p ≠ some (.file c) := by
  intro h
  have h2 := remove_none h
  have hp : p ≠ [] := by rintro rfl; simp [get] at h
  unfold remove at h
  rw [h2] at h
  simp only at h
  rw [get_look hp, look_without, if_pos rfl] at h
  simp at h

theorem removeAll_get (fs : Fs) (p q : Place) (hq : q ≠ []) :
    get (removeAll fs p) q = if p <+: q then none else get fs q := by
  rw [get_look hq, get_look hq, removeAll]
  have := look_filter (fun x => !p.isPrefixOf x) fs q
  refine Eq.trans this ?_
  by_cases h : p <+: q
  · rw [if_pos h, if_neg]; simp [List.isPrefixOf_iff_prefix, h]
  · rw [if_neg h, if_pos]; simp [notPrefix h]

theorem removes_some (ps : List Metafile.FileName) (path : List UInt8) : ∀ (fs : Fs) (q : Place) (x : Node),
    get (ps.foldl (fun s f => remove s (fullPath f path)) fs) q = some x → get fs q = some x := by
  induction ps with
  | nil => intro fs q x h; exact h
  | cons f ps ih => intro fs q x h; exact remove_none (ih _ q x h)

theorem removes_other (ps : List Metafile.FileName) (path : List UInt8) : ∀ (fs : Fs) (q : Place),
    (∀ f ∈ ps, q ≠ fullPath f path) → get (ps.foldl (fun s f => remove s (fullPath f path)) fs) q = get fs q := by
  induction ps with
  | nil => intro fs q _; rfl
  | cons f ps ih =>
    intro fs q h
    exact (ih _ q (fun g hg => h g (by simp [hg]))).trans (remove_other (h f (by simp)))

theorem removes_gone (ps : List Metafile.FileName) (path : List UInt8) : ∀ (fs : Fs), ∀ f ∈ ps, ∀ c,
    get (ps.foldl (fun s f => remove s (fullPath f path)) fs) (fullPath f path) ≠ some (.file c) := by
  induction ps with
  | nil => intro fs f hf; simp at hf
  | cons g ps ih =>
    intro fs f hf c h
    rcases List.mem_cons.1 hf with hf | hf
    · subst hf
      exact remove_gone fs _ c (removes_some ps path _ _ _ h)
    · exact ih _ f hf c h

/-! ### The room needed -/

theorem needLoop_ok (fs : Fs) (st : Storage) (path : List UInt8) (sel : List (Nat × Nat))
    (hi : ∀ s ∈ sel, s.1 < st.files.length)
    (hd : ∀ f ∈ st.files, get fs (fullPath f path) ≠ some .dir) :
    ∀ v : Validation, v.required + (sel.map (·.2)).sum < 2 ^ 64 → v.missing ≤ v.required →
    needLoop fs st path sel v = .ok { v with
      missing := v.missing + (sel.map (fun s => s.2 - onDisk fs (fullPath ((st.files[s.1]?).getD ⟨[], []⟩) path))).sum
      required := v.required + (sel.map (·.2)).sum } := by
  induction sel with
  | nil => intro v _ _; simp [needLoop]
  | cons s sel ih =>
    intro v h1 h2
    obtain ⟨i, size⟩ := s
    have hlt : i < st.files.length := hi (i, size) (by simp)
    have hrd : rd st.files i = .ok st.files[i] := by simp [rd, hlt]
    have hget : (st.files[i]?).getD ⟨[], []⟩ = st.files[i] := by simp [hlt]
    have hex : (if present fs (fullPath st.files[i] path) then fileSize fs (fullPath st.files[i] path) else 0) =
        onDisk fs (fullPath st.files[i] path) := by
      have := hd st.files[i] (List.getElem_mem _)
      unfold present fileSize onDisk
      cases hg : get fs (fullPath st.files[i] path) with
      | none => simp
      | some x =>
        cases x with
        | dir => exact absurd hg this
        | file c => simp
    simp only [List.map_cons, List.sum_cons] at h1 ⊢
    rw [needLoop, hrd, Res.bind_ok]
    dsimp only
    rw [hex, hget]
    have e1 : (v.required + size) % 18446744073709551616 = v.required + size := by omega
    have e2 : (if onDisk fs (fullPath st.files[i] path) < size then
        (v.missing + (size - onDisk fs (fullPath st.files[i] path))) % 18446744073709551616 else v.missing) =
        v.missing + (size - onDisk fs (fullPath st.files[i] path)) := by
      split <;> omega
    rw [e1, e2, ih (fun x hx => hi x (by simp [hx]))]
    · simp only [Nat.add_assoc]
    · dsimp only; omega
    · dsimp only; omega

theorem get_of_mem {fs : Fs} {x : Place} {r : Node} (h : (x, r) ∈ fs) : ∃ y, get fs x = some y := by
  unfold get
  split
  · exact ⟨_, rfl⟩
  · cases hf : fs.find? (fun e => e.1 = x) with
    | none =>
      have := List.find?_eq_none.1 hf _ h
      simp at this
    | some e => exact ⟨e.2, rfl⟩

theorem get_mem {fs : Fs} {x : Place} {r : Node} (hx : x ≠ []) (h : get fs x = some r) : (x, r) ∈ fs := by
  unfold get at h
  rw [if_neg hx] at h
  cases hf : fs.find? (fun e => e.1 = x) with
  | none => rw [hf] at h; simp at h
  | some e =>
    rw [hf] at h
    simp only [Option.map_some, Option.some.injEq] at h
    have h1 := List.mem_of_find?_eq_some hf
    have h2 := List.find?_some hf
    simp only [decide_eq_true_eq] at h2
    rw [← h, ← h2]; exact h1

end Verif.Location
