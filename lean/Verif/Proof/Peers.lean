import Verif.Spec.Peers
/-! The known peers and the connections. -/

namespace Verif.Peers
open Verif Net Spec.Peering

theorem bindR {α β} {x : Res α} {f : α → Res β} {b : β} (h : x.bind f = .ok b) : ∃ a, x = .ok a ∧ f a = .ok b := by
  cases x <;> simp_all [Res.bind]

theorem bindR' {α β} {x : Res α} {f : α → Res β} {b : β} (h : (x >>= f) = .ok b) : ∃ a, x = .ok a ∧ f a = .ok b := bindR h

theorem quiet_inv {r : Res State} {x : State × List Out} (h : quiet r = .ok x) : r = .ok x.1 ∧ x.2 = [] := by
  obtain ⟨a, h1, h2⟩ := bindR h
  cases h2
  exact ⟨h1, rfl⟩

/-! ### Addresses -/

theorem Same.symm {a b : Addr} (h : Same a b) : Same b a := ⟨h.1.symm, h.2.1.symm, h.2.2.symm⟩

theorem Same.trans {a b c : Addr} (h : Same a b) (h' : Same b c) : Same a c :=
  ⟨h.1.trans h'.1, h.2.1.trans h'.2.1, h.2.2.trans h'.2.2⟩

theorem Same.refl (a : Addr) : Same a a := ⟨rfl, rfl, rfl⟩

theorem eq_of_same {a b : Addr} (h : Same a b) : a.eq b = true := by
  obtain ⟨h1, h2, h3⟩ := h
  simp only [Addr.eq, Addr.size, h2, beq_self_eq_true, Bool.true_and, beq_iff_eq]
  rw [h3, h1]

theorem same_of_eq {l : List Addr} (hl : Apart l) {a b : Addr} (ha : a ∈ l) (hb : b ∈ l) (h : a.eq b = true) :
    Same a b := by
  simp only [Addr.eq, Addr.size, Bool.and_eq_true, beq_iff_eq] at h
  obtain ⟨h1, h2⟩ := h
  have h4 : a.bytes.take 4 = b.bytes.take 4 := by
    cases h6 : a.ipv6
    · simpa [h6] using h2
    · rw [h6] at h2
      have := congrArg (List.take 4) h2
      simpa [List.take_take] using this
  have h6 := hl a ha b hb h1 h4
  exact ⟨h6, h1, by rw [← h6]; exact h2⟩

theorem Apart.mono {l m : List Addr} (h : Apart m) (hs : ∀ a ∈ l, a ∈ m) : Apart l :=
  fun a ha b hb => h a (hs a ha) b (hs b hb)

/-! ### Entries -/

/-- What is left of an entry without the flags. -/
def Known.bare (k : Known) : Known := { k with flags := 0 }

theorem find_some {known : List Known} {a : Addr} {i : Nat} (h : find known a = some i) :
    ∃ k, known[i]? = some k ∧ k.addr.eq a = true := by
  obtain ⟨hi, hk, _⟩ := List.findIdx?_eq_some_iff_getElem.mp h
  exact ⟨known[i], List.getElem?_eq_getElem hi, hk⟩

theorem find_none {known : List Known} {a : Addr} (h : find known a = none) : ∀ k ∈ known, k.addr.eq a = false := by
  have := List.findIdx?_eq_none_iff.mp h
  exact this

theorem modify_map {α β} (f : α → α) (g : α → β) (h : ∀ a, g (f a) = g a) (i : Nat) (l : List α) :
    (l.modify i f).map g = l.map g := by
  induction l generalizing i with
  | nil => cases i <;> rfl
  | cons a l ih => cases i with
    | zero => simp [h]
    | succ i => simp [ih]

/-- What `scan` does. -/
theorem scan_spec {flags : Option (List UInt8)} {i : Nat} {ps : List Addr} {known : List Known} {r : List Known × List Known}
    (h : scan flags i ps known = .ok r) :
    r.1.map Known.bare = known.map Known.bare ∧ (r.2.map Known.addr).Sublist ps ∧
      (∀ n ∈ r.2, n.bare = { addr := n.addr }) ∧ ∀ n ∈ r.2, ∀ k ∈ known, k.addr.eq n.addr = false := by
  induction ps generalizing i known r with
  | nil => simp only [scan] at h; cases h; simp
  | cons a ps ih =>
    simp only [scan] at h
    obtain ⟨f, _, h⟩ := bindR' h
    cases hf : find known a with
    | none =>
      rw [hf] at h
      obtain ⟨r', h1, h2⟩ := bindR h
      cases h2
      obtain ⟨g1, g2, g3, g4⟩ := ih h1
      refine ⟨g1, by simpa using g2.cons_cons a, ?_, ?_⟩
      · intro n hn
        rcases List.mem_cons.mp hn with rfl | hn
        · rfl
        · exact g3 n hn
      · intro n hn
        rcases List.mem_cons.mp hn with rfl | hn
        · exact find_none hf
        · exact g4 n hn
    | some j =>
      rw [hf] at h
      obtain ⟨g1, g2, g3, g4⟩ := ih h
      refine ⟨?_, g2.cons a, g3, ?_⟩
      · rw [g1]; apply modify_map; intro; rfl
      · intro n hn k hk
        have hm : (known.modify j fun k => { k with flags := k.flags ||| f }).map Known.addr = known.map Known.addr := by
          apply modify_map; intro; rfl
        have : k.addr ∈ (known.modify j fun k => { k with flags := k.flags ||| f }).map Known.addr := by
          rw [hm]; exact List.mem_map_of_mem hk
        obtain ⟨k', hk', he⟩ := List.mem_map.mp this
        rw [← he]; exact g4 n hn k' hk'

theorem bare_addr {l m : List Known} (h : l.map Known.bare = m.map Known.bare) : l.map Known.addr = m.map Known.addr := by
  have := congrArg (List.map Known.addr) h
  simpa [List.map_map, Function.comp_def, Known.bare] using this

theorem bare_get {l m : List Known} (h : l.map Known.bare = m.map Known.bare) {i : Nat} {k : Known} (hk : m[i]? = some k) :
    ∃ k', l[i]? = some k' ∧ k'.bare = k.bare := by
  have := congrArg (fun x => x[i]?) h
  simp only [List.getElem?_map, hk, Option.map_some] at this
  cases hl : l[i]? with
  | none => rw [hl] at this; simp at this
  | some k' => rw [hl] at this; exact ⟨k', rfl, by simpa using this⟩

theorem modify_get {α} {l : List α} {i j : Nat} {f : α → α} {a : α} (h : l[i]? = some a) :
    (l.modify j f)[i]? = some (if j = i then f a else a) := by
  rw [List.getElem?_modify, h]
  split <;> simp

/-- An entry keeps its place when others come in before it. -/
theorem insert_get {l n : List Known} {cur i : Nat} {k : Known} (hc : cur ≤ l.length) (h : l[i]? = some k) :
    (l.take cur ++ n ++ l.drop cur)[if cur ≤ i then i + n.length else i]? = some k := by
  have hl : (l.take cur).length = cur := by rw [List.length_take]; omega
  by_cases hi : cur ≤ i
  · rw [if_pos hi, List.getElem?_append_right (by simp [hl]; omega)]
    rw [List.getElem?_drop]
    have : cur + (i + n.length - (l.take cur ++ n).length) = i := by simp [hl]; omega
    rw [this]; exact h
  · rw [if_neg hi, List.append_assoc, List.getElem?_append_left (by omega), List.getElem?_take, if_pos (by omega)]
    exact h

/-! ### Nothing is read that is not there -/

/-- The places are places of known peers. -/
structure Wf (s : State) : Prop where
  cur : s.cur < s.known.length ∨ (s.cur = 0 ∧ s.known = [])
  idx : ∀ c ∈ s.act, c.idx < s.known.length

theorem advance_wf {s : State} (h : Wf s) (hc : s.cur < s.known.length) : Wf (advance s) := by
  refine ⟨.inl ?_, h.idx⟩
  simp only [advance]
  split <;> omega

theorem dialAt_wf {s : State} {idx now : Nat} {a : Addr} {opens : Bool} (h : Wf s) (hi : idx < s.known.length) :
    Wf (dialAt s idx a now opens) := by
  constructor
  · simp only [dialAt, List.length_modify]
    rcases h.cur with h | ⟨h, h'⟩
    · exact .inl h
    · rw [h'] at hi; simp at hi
  · intro c hc
    simp only [dialAt, List.length_modify] at hc ⊢
    rcases List.mem_append.mp hc with hc | hc
    · exact h.idx c hc
    · simp at hc; subst hc; exact hi

theorem nextLoop_wf {now : Nat} {opens : Bool} (n c : Nat) {s : State} (h : Wf s) (hn : n ≤ s.known.length) :
    ∃ r, nextLoop now opens n c s = .ok r ∧ Wf r.1 := by
  induction n generalizing c s with
  | zero => exact ⟨_, rfl, h⟩
  | succ n ih =>
    cases c with
    | zero => exact ⟨_, rfl, h⟩
    | succ c =>
      have hc : s.cur < s.known.length := by
        rcases h.cur with h | ⟨_, h⟩
        · exact h
        · rw [h] at hn; simp at hn
      simp only [nextLoop, List.getElem?_eq_getElem hc]
      split
      · have hd := dialAt_wf (now := now) (opens := opens) (a := s.known[s.cur].addr) h hc
        have hl : s.cur < (dialAt s s.cur s.known[s.cur].addr now opens).known.length := by simpa [dialAt] using hc
        have ha := advance_wf hd hl
        obtain ⟨r, h1, h2⟩ := ih c ha (by simp only [advance, dialAt, List.length_modify]; omega)
        exact ⟨(r.1, _ :: r.2), by rw [h1]; rfl, h2⟩
      · exact ih (c + 1) (advance_wf h hc) (by simp only [advance]; omega)

theorem connect_wf {s : State} {a : Addr} {now : Nat} {opens : Bool} (h : Wf s) :
    ∃ r, connect s a now opens = .ok r ∧ Wf r.1 := by
  unfold connect
  split
  · exact ⟨_, rfl, h⟩
  · cases hf : find s.known a with
    | none =>
      have hw : Wf { s with known := s.known ++ [{ addr := a }] } := by
        refine ⟨.inl ?_, ?_⟩
        · rcases h.cur with h | ⟨h, _⟩ <;> simp <;> omega
        · intro c hc; have := h.idx c hc; simp; omega
      simp only [List.getElem?_concat_length, Bool.false_eq_true, if_false]
      exact ⟨_, rfl, dialAt_wf hw (by simp)⟩
    | some i =>
      obtain ⟨k, hk, _⟩ := find_some hf
      have hi : i < s.known.length := (List.getElem?_eq_some_iff.mp hk).1
      simp only [hk]
      split
      · exact ⟨_, rfl, h⟩
      · exact ⟨_, rfl, dialAt_wf h hi⟩

theorem scan_ok {flags : Option (List UInt8)} {i : Nat} {ps : List Addr} {known : List Known}
    (hf : ∀ fl, flags = some fl → i + ps.length ≤ fl.length) : ∃ r, scan flags i ps known = .ok r := by
  induction ps generalizing i known with
  | nil => exact ⟨_, rfl⟩
  | cons a ps ih =>
    have hrec : ∀ known, ∃ r, scan flags (i + 1) ps known = .ok r :=
      fun known => ih (fun fl h => by have := hf fl h; simp at this; omega)
    have hfl : ∃ f, flagAt flags i = .ok f := by
      cases flags with
      | none => exact ⟨_, rfl⟩
      | some fl => exact ⟨_, rd_eq_ok (by have := hf fl rfl; simp at this; omega)⟩
    obtain ⟨f, hfl⟩ := hfl
    simp only [scan, hfl]
    cases find known a with
    | none =>
      obtain ⟨r, hr⟩ := hrec known
      exact ⟨(r.1, { addr := a, flags := f } :: r.2), by simp only [bind, Res.bind, hr]⟩
    | some j =>
      obtain ⟨r, hr⟩ := hrec (known.modify j fun k => { k with flags := k.flags ||| f })
      exact ⟨r, by simp only [bind, Res.bind, hr]⟩

theorem found_wf' {s : State} {first : Bool} {ps : List Addr} {flags : Option (List UInt8)} (h : Wf s)
    {known new : List Known} (hr : scan flags 0 ps s.known = .ok (known, new)) :
    ∃ s', found s first ps flags = .ok s' ∧ Wf s' := by
  have hl : known.length = s.known.length := by
    have := congrArg List.length (scan_spec hr).1
    simpa using this
  simp only [found, hr, bind, Res.bind]
  split
  · refine ⟨_, rfl, ?_, ?_⟩
    · rcases h.cur with h | ⟨h, h'⟩
      · exact .inl (by simpa [hl] using h)
      · exact .inr ⟨h, List.eq_nil_of_length_eq_zero (by simp [hl, h'])⟩
    · intro c hc; simpa [hl] using h.idx c hc
  · rename_i hnew
    have hn : 0 < new.length := List.length_pos_iff.mpr hnew
    split
    · refine ⟨_, rfl, ?_, ?_⟩
      · refine .inl ?_
        rcases h.cur with h | ⟨h, _⟩ <;> simp <;> omega
      · intro c hc
        obtain ⟨c', hc', rfl⟩ := List.mem_map.mp hc
        have := h.idx c' hc'
        split <;> simp <;> omega
    · refine ⟨_, rfl, .inl ?_, ?_⟩
      · rcases h.cur with h | ⟨h, _⟩
        · simp only [List.length_append]; split <;> omega
        · simp [h]; omega
      · intro c hc
        have := h.idx c hc
        simp; omega

theorem found_wf {s : State} {first : Bool} {ps : List Addr} {flags : Option (List UInt8)} (h : Wf s)
    (hf : ∀ fl, flags = some fl → ps.length ≤ fl.length) : ∃ s', found s first ps flags = .ok s' ∧ Wf s' := by
  obtain ⟨⟨known, new⟩, hr⟩ := scan_ok (flags := flags) (i := 0) (ps := ps) (known := s.known) (by simpa using hf)
  exact found_wf' h hr

theorem update_wf {s : State} {idx : Nat} {f : Known → Known} (h : Wf s) (hi : idx < s.known.length) :
    ∃ s', update s idx f = .ok s' ∧ Wf s' := by
  refine ⟨_, by rw [update, if_pos hi], ?_, ?_⟩
  · rcases h.cur with h | ⟨h, h'⟩
    · exact .inl (by simpa using h)
    · rw [h'] at hi; simp at hi
  · intro c hc; simpa using h.idx c hc

theorem hangUp_ok {cs : List Conn} {known : List Known} (h : ∀ c ∈ cs, c.idx < known.length) :
    ∃ k, hangUp cs known = .ok k ∧ k.length = known.length := by
  induction cs generalizing known with
  | nil => exact ⟨_, rfl, rfl⟩
  | cons c cs ih =>
    rw [hangUp, if_pos (h c (by simp))]
    obtain ⟨k, h1, h2⟩ := ih (known := known.modify c.idx fun k => { k with status := .disconnected })
      (fun c hc => by simpa using h c (by simp [hc]))
    exact ⟨k, h1, by simpa using h2⟩

theorem step_wf {s : State} {e : Ev} (h : Wf s) (hf : Flagged e) : ∃ r, step s e = .ok r ∧ Wf r.1 := by
  cases e with
  | start => exact ⟨_, rfl, h.1, h.2⟩
  | stop =>
    obtain ⟨k, h1, h2⟩ := hangUp_ok h.idx
    refine ⟨_, by simp only [step, stop, h1, bind, Res.bind, quiet, pure]; rfl, ?_, by simp⟩
    rcases h.cur with h | ⟨h, h'⟩
    · exact .inl (by simpa [h2] using h)
    · exact .inr ⟨h, List.eq_nil_of_length_eq_zero (by simp [h2, h'])⟩
  | startConnecting => exact ⟨_, rfl, h.1, h.2⟩
  | stopConnecting => exact ⟨_, rfl, h.1, h.2⟩
  | next now max opens =>
    simp only [step, connectNext]
    split
    · exact ⟨_, rfl, h⟩
    · exact nextLoop_wf _ _ h (Nat.le_refl _)
  | found first ps flags =>
    obtain ⟨s', h1, h2⟩ := found_wf (first := first) (ps := ps) (flags := flags) h
      (fun fl he => by subst he; exact hf)
    exact ⟨_, by simp only [step, h1, quiet, Res.bind]; rfl, h2⟩
  | connect a now opens => exact connect_wf h
  | holepunch a now max opens =>
    simp only [step, holepunch]
    split
    · exact connect_wf h
    · exact ⟨_, rfl, h⟩
  | incoming a =>
    refine ⟨_, rfl, .inl ?_, ?_⟩
    · rcases h.cur with h | ⟨h, _⟩ <;> simp [incoming] <;> omega
    · intro c hc
      rcases List.mem_append.mp hc with hc | hc
      · have := h.idx c hc; simp [incoming]; omega
      · simp at hc; subst hc; simp [incoming]
  | disconnect id unwanted =>
    simp only [step, disconnect]
    split
    · exact ⟨_, rfl, h⟩
    · rename_i c hc
      split
      · obtain ⟨s', h1, h2⟩ := update_wf (f := fun k => { k with unwanted := true }) h (h.idx c (List.mem_of_find?_eq_some hc))
        exact ⟨_, by simp only [h1, bind, Res.bind, pure]; rfl, h2⟩
      · exact ⟨_, rfl, h⟩
  | handshake id =>
    simp only [step, handshake]
    split
    · exact ⟨_, rfl, h⟩
    · rename_i c hc
      obtain ⟨s', h1, h2⟩ := update_wf (f := fun k => { k with status := .connected }) h (h.idx c (List.mem_of_find?_eq_some hc))
      exact ⟨_, by simp only [h1, quiet, Res.bind]; rfl, h2⟩
  | closed id now =>
    simp only [step, closed]
    split
    · exact ⟨_, rfl, h⟩
    · rename_i c hc
      obtain ⟨s', h1, h2⟩ := update_wf (f := fun k => { k with status := .disconnected, last := now }) h
        (h.idx c (List.mem_of_find?_eq_some hc))
      exact ⟨_, by simp only [h1, bind, Res.bind, pure]; rfl, h2.1, fun c hc => h2.2 c (List.mem_of_mem_eraseP hc)⟩

theorem step_wf' {s : State} {e : Ev} {r : State × List Out} (h : Wf s) (hr : step s e = .ok r) : Wf r.1 := by
  have key : Flagged e → Wf r.1 := by
    intro hf
    obtain ⟨r', h1, h2⟩ := step_wf h hf
    rw [hr] at h1; cases h1; exact h2
  cases e with
  | found first ps flags =>
    obtain ⟨h1, _⟩ := quiet_inv hr
    obtain ⟨⟨known, new⟩, h3, _⟩ := bindR' h1
    obtain ⟨s', h4, h5⟩ := found_wf' (first := first) h h3
    rw [h1] at h4; cases h4; exact h5
  | _ => exact key (by simp [Flagged])

theorem runFrom_wf {s : State} {h : List Ev} (hw : Wf s) (hf : ∀ e ∈ h, Flagged e) : ∃ r, runFrom s h = .ok r ∧ Wf r.1 := by
  induction h generalizing s with
  | nil => exact ⟨_, rfl, hw⟩
  | cons e h ih =>
    obtain ⟨r, h1, h2⟩ := step_wf hw (hf e (by simp))
    obtain ⟨r', h3, h4⟩ := ih h2 (fun e he => hf e (by simp [he]))
    exact ⟨(r'.1, r.2 ++ r'.2), by simp only [runFrom, h1, Res.bind, h3], h4⟩

theorem wf_init : Wf {} := ⟨.inr ⟨rfl, rfl⟩, by simp⟩

theorem runFrom_append {s : State} {h h' : List Ev} {r : State × List Out} (hr : runFrom s (h ++ h') = .ok r) :
    ∃ m o, runFrom s h = .ok m ∧ runFrom m.1 h' = .ok (r.1, o) ∧ r.2 = m.2 ++ o := by
  induction h generalizing s r with
  | nil => exact ⟨(s, []), r.2, rfl, hr, rfl⟩
  | cons e h ih =>
    simp only [List.cons_append, runFrom] at hr
    obtain ⟨a, h1, h2⟩ := bindR hr
    obtain ⟨b, h3, h4⟩ := bindR h2
    cases h4
    obtain ⟨m, o, g1, g2, g3⟩ := ih h3
    exact ⟨(m.1, a.2 ++ m.2), o, by simp only [runFrom, h1, Res.bind, g1], g2, by simp [g3]⟩

end Verif.Peers
