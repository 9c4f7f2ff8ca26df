import Verif.Proof.PeersMove
/-! Connections and the known peers they refer to. -/

namespace Verif.Peers
open Verif Net Spec.Peering

/-- Each connection refers to the known peer it is with; all addresses are among `L`. -/
structure Right (L : List Addr) (s : State) : Prop where
  mem : ∀ k ∈ s.known, k.addr ∈ L
  conn : ∀ c ∈ s.act, ∃ k, s.known[c.idx]? = some k ∧ Belongs k c

theorem addr_mem {l m : List Known} (h : l.map Known.addr = m.map Known.addr) {P : Addr → Prop} (hm : ∀ k ∈ m, P k.addr) :
    ∀ k ∈ l, P k.addr := by
  intro k hk
  have : k.addr ∈ m.map Known.addr := by rw [← h]; exact List.mem_map_of_mem hk
  obtain ⟨k', hk', he⟩ := List.mem_map.mp this
  rw [← he]; exact hm k' hk'

theorem addr_get {l m : List Known} (h : l.map Known.addr = m.map Known.addr) {i : Nat} {k : Known} (hk : m[i]? = some k) :
    ∃ k', l[i]? = some k' ∧ k'.addr = k.addr := by
  have := congrArg (fun x => x[i]?) h
  simp only [List.getElem?_map, hk, Option.map_some] at this
  cases hl : l[i]? with
  | none => rw [hl] at this; simp at this
  | some k' => rw [hl] at this; exact ⟨k', rfl, by simpa using this⟩

theorem modify_get_inv {α} {l : List α} {i j : Nat} {f : α → α} {b : α} (h : (l.modify j f)[i]? = some b) :
    ∃ a, l[i]? = some a ∧ b = if j = i then f a else a := by
  rw [List.getElem?_modify] at h
  cases hl : l[i]? with
  | none => rw [hl] at h; simp at h
  | some a => rw [hl] at h; exact ⟨a, rfl, by simpa using h.symm⟩

/-- An entry is settled when its connection is gone. -/
def Known.settled (k : Known) : Known := { k with status := .disconnected }

theorem hangUp_spec {cs : List Conn} {known k : List Known} (h : hangUp cs known = .ok k) :
    k.map Known.settled = known.map Known.settled ∧
      ∀ (i : Nat) x, k[i]? = some x → x.status ≠ .disconnected →
        (∀ c ∈ cs, c.idx ≠ i) ∧ ∃ y, known[i]? = some y ∧ y.status ≠ .disconnected := by
  induction cs generalizing known with
  | nil => simp only [hangUp] at h; cases h; exact ⟨rfl, fun i x hx hs => ⟨by simp, x, hx, hs⟩⟩
  | cons c cs ih =>
    simp only [hangUp] at h
    split at h
    · obtain ⟨h1, h2⟩ := ih h
      refine ⟨?_, ?_⟩
      · rw [h1]; apply modify_map; intro; rfl
      · intro i x hx hs
        obtain ⟨g1, y, g2, g3⟩ := h2 i x hx hs
        obtain ⟨z, hz, rfl⟩ := modify_get_inv g2
        by_cases hc : c.idx = i
        · rw [if_pos hc] at g3
          simp at g3
        · rw [if_neg hc] at g3
          refine ⟨?_, z, hz, g3⟩
          intro c' hc'
          rcases List.mem_cons.mp hc' with rfl | hc'
          · exact hc
          · exact g1 c' hc'
    · cases h

theorem settled_addr {l m : List Known} (h : l.map Known.settled = m.map Known.settled) :
    l.map Known.addr = m.map Known.addr := by
  have := congrArg (List.map Known.addr) h
  simpa [List.map_map, Function.comp_def, Known.settled] using this

/-- Changes of an entry that keep its address keep things right. -/
theorem Right.modify {L : List Addr} {s : State} (h : Right L s) (i : Nat) (f : Known → Known)
    (hf : ∀ k, (f k).addr = k.addr) : Right L { s with known := s.known.modify i f } := by
  have hm : (s.known.modify i f).map Known.addr = s.known.map Known.addr := modify_map f _ hf i _
  refine ⟨addr_mem (P := (· ∈ L)) hm h.mem, ?_⟩
  intro c hc
  obtain ⟨k, h1, h2⟩ := h.conn c hc
  obtain ⟨k', h3, h4⟩ := addr_get hm h1
  exact ⟨k', h3, by unfold Belongs; rw [h4]; exact h2⟩

theorem Right.dial {L : List Addr} {s : State} (h : Right L s) {i now : Nat} {a : Addr} {opens : Bool} {p : Known}
    (hp : s.known[i]? = some p) (hs : Same p.addr a) : Right L (dialAt s i a now opens) := by
  have hr := h.modify i (fun p => { p with status := .connecting, last := now, attempts := (p.attempts + 1) % 4294967296 })
    (fun _ => rfl)
  refine ⟨hr.mem, ?_⟩
  intro c hc
  rcases List.mem_append.mp hc with hc | hc
  · exact hr.conn c hc
  · simp at hc
    subst hc
    exact ⟨_, modify_get hp, by simp only [Belongs]; split <;> exact hs⟩

theorem move_right {L : List Addr} (hL : Apart L) {e : Ev} (he : ∀ a ∈ mentioned e, a ∈ L) {s s' : State} {o : List Out}
    (hi : Right L s) (h : Move e s o s') : Right L s' := by
  cases h with
  | same hk ha =>
    refine ⟨addr_mem (P := (· ∈ L)) (bare_addr hk) hi.mem, ?_⟩
    intro c hc
    rw [ha] at hc
    obtain ⟨k, h1, h2⟩ := hi.conn c hc
    obtain ⟨k', h3, h4⟩ := addr_get (bare_addr hk) h1
    exact ⟨k', h3, by unfold Belongs; rw [h4]; exact h2⟩
  | auto _ hp _ => exact hi.dial hp (Same.refl _)
  | manual ha _ _ hp heq _ _ =>
    exact hi.dial hp (same_of_eq hL (hi.mem _ (List.mem_of_getElem? hp)) (he _ ha) heq)
  | @add _ new pos hpos hk ha hs hb hnew _ =>
    refine ⟨?_, ?_⟩
    · intro k hkm
      rw [hk] at hkm
      rcases List.mem_append.mp hkm with hkm | hkm
      · rcases List.mem_append.mp hkm with hkm | hkm
        · exact hi.mem k (List.mem_of_mem_take hkm)
        · exact he _ (hs.subset (List.mem_map_of_mem hkm))
      · exact hi.mem k (List.mem_of_mem_drop hkm)
    · intro c hc
      rw [ha] at hc
      obtain ⟨c', hc', rfl⟩ := List.mem_map.mp hc
      obtain ⟨k, h1, h2⟩ := hi.conn c' hc'
      have := insert_get (n := new) hpos h1
      rw [← hk] at this
      refine ⟨k, ?_, ?_⟩
      · simp only [shift]; split <;> rename_i hx <;> simpa [hx] using this
      · simp only [shift, Belongs]; split <;> exact h2
  | @incoming a ha =>
    refine ⟨?_, ?_⟩
    · intro k hkm
      rcases List.mem_append.mp hkm with hkm | hkm
      · exact hi.mem k hkm
      · simp at hkm; subst hkm; exact he _ (by simp [ha, mentioned])
    · intro c hc
      rcases List.mem_append.mp hc with hc | hc
      · obtain ⟨k, h1, h2⟩ := hi.conn c hc
        exact ⟨k, by simp only [Peers.incoming]; rw [List.getElem?_append_left (List.getElem?_eq_some_iff.mp h1).1]; exact h1, h2⟩
      · simp at hc
        subst hc
        exact ⟨{ addr := a, status := .connected }, by simp [Peers.incoming], Same.refl _⟩
  | ban _ => exact hi.modify _ _ (fun _ => rfl)
  | hand _ => exact hi.modify _ _ (fun _ => rfl)
  | @close c id now _ _ =>
    have := hi.modify c.idx (fun k => { k with status := .disconnected, last := now }) (fun _ => rfl)
    exact ⟨this.mem, fun c hc => this.conn c (List.mem_of_mem_eraseP hc)⟩
  | stop hk hs ha =>
    refine ⟨?_, by simp [ha]⟩
    rw [hs]
    exact addr_mem (P := (· ∈ L)) (settled_addr (hangUp_spec hk).1) hi.mem

/-- The peers that count as connected are those with a connection (`→`). -/
def Used (s : State) : Prop :=
  ∀ i k, s.known[i]? = some k → k.status ≠ .disconnected → ∃ c ∈ s.act, c.idx = i

theorem Used.modify {s : State} (h : Used s) (i : Nat) (f : Known → Known)
    (hf : ∀ k, (f k).status ≠ .disconnected → k.status ≠ .disconnected ∨ ∃ c ∈ s.act, c.idx = i) :
    Used { s with known := s.known.modify i f } := by
  intro j k hk hs
  obtain ⟨x, hj, rfl⟩ := modify_get_inv hk
  by_cases hij : i = j
  · rw [if_pos hij] at hs
    rcases hf x hs with hx | hx
    · exact h j x hj hx
    · rw [← hij]; exact hx
  · rw [if_neg hij] at hs
    exact h j x hj hs

theorem dialAt_used {s : State} (hi : Used s) {i now : Nat} {a : Addr} {opens : Bool} : Used (dialAt s i a now opens) := by
  intro j k hk hs
  obtain ⟨x, hj, rfl⟩ := modify_get_inv hk
  by_cases hij : i = j
  · exact ⟨⟨s.fresh, i, a, opens⟩, by simp [dialAt], hij⟩
  · rw [if_neg hij] at hs
    obtain ⟨c, hc, hx⟩ := hi j x hj hs
    exact ⟨c, by simp [dialAt, hc], hx⟩

theorem move_used {e : Ev} {s s' : State} {o : List Out} (hi : Used s) (h : Move e s o s') : Used s' := by
  cases h with
  | same hk ha =>
    intro i k hk' hs
    obtain ⟨k2, h1, h2⟩ := bare_get hk.symm hk'
    rw [ha]
    exact hi i k2 h1 (by
      have := congrArg Known.status h2
      simp only [Known.bare] at this
      rw [this]; exact hs)
  | auto _ _ _ => exact dialAt_used hi
  | manual _ _ _ _ _ _ _ => exact dialAt_used hi
  | @add _ new pos hpos hk ha hs hb hnew _ =>
    intro i k hik hst
    rw [hk] at hik
    have hl : (s.known.take pos).length = pos := by rw [List.length_take]; omega
    have hnewst : ∀ n ∈ new, n.status = .disconnected := by
      intro n hn
      have := congrArg Known.status (hb n hn)
      simpa [Known.bare] using this
    have hc : ∃ j, s.known[j]? = some k ∧ i = if pos ≤ j then j + new.length else j := by
      by_cases h1 : i < pos
      · rw [List.append_assoc, List.getElem?_append_left (by omega), List.getElem?_take, if_pos h1] at hik
        exact ⟨i, hik, by rw [if_neg (by omega)]⟩
      · by_cases h2 : i < pos + new.length
        · rw [List.append_assoc, List.getElem?_append_right (by omega), List.getElem?_append_left (by omega)] at hik
          exact absurd (hnewst k (List.mem_of_getElem? hik)) hst
        · rw [List.getElem?_append_right (by simp; omega), List.getElem?_drop] at hik
          refine ⟨_, hik, ?_⟩
          simp only [List.length_append, hl]
          rw [if_pos (by omega)]
          omega
    obtain ⟨j, hj, hij⟩ := hc
    obtain ⟨c, hc, hcj⟩ := hi j k hj hst
    refine ⟨shift pos new.length c, by rw [ha]; exact List.mem_map_of_mem hc, ?_⟩
    rw [hij]
    simp only [shift, hcj]
    split <;> simp [hcj]
  | @incoming a ha =>
    intro i k hk hs
    simp only [Peers.incoming] at hk ⊢
    by_cases hil : i < s.known.length
    · rw [List.getElem?_append_left hil] at hk
      obtain ⟨c, hc, hx⟩ := hi i k hk hs
      exact ⟨c, by simp [hc], hx⟩
    · have : i = s.known.length := by
        have := (List.getElem?_eq_some_iff.mp hk).1
        simp at this
        omega
      exact ⟨⟨s.fresh, s.known.length, a, true⟩, by simp, this.symm⟩
  | ban _ => exact hi.modify _ _ (fun k hk => .inl hk)
  | @hand c hc => exact hi.modify _ _ (fun k hk => .inr ⟨c, hc, rfl⟩)
  | @close c id now _ hc =>
    intro j k hk hs
    obtain ⟨x, hj, rfl⟩ := modify_get_inv hk
    by_cases hij : c.idx = j
    · rw [if_pos hij] at hs
      simp at hs
    · rw [if_neg hij] at hs
      obtain ⟨c', hc', hx⟩ := hi j x hj hs
      refine ⟨c', ?_, hx⟩
      obtain ⟨_, as, bs, hl, has⟩ := List.find?_eq_some_iff_append.mp hc
      have he : s.act.eraseP (·.id == id) = as ++ bs := by
        rw [hl, List.eraseP_append_right _ (by intro b hb; have := has b hb; simpa using this)]
        rw [List.eraseP_cons_of_pos (by assumption)]
      rw [hl] at hc'
      simp only [he]
      rcases List.mem_append.mp hc' with hm | hm
      · simp [hm]
      · rcases List.mem_cons.mp hm with rfl | hm
        · exact absurd hx hij
        · simp [hm]
  | stop hk hs ha =>
    intro i k hik hst
    rw [hs] at hik
    obtain ⟨h1, y, h2, h3⟩ := (hangUp_spec hk).2 i k hik hst
    obtain ⟨c, hc, hx⟩ := hi i y h2 h3
    exact absurd hx (h1 c hc)

/-- No peer has two connections, and all of them count as connected. -/
structure Single (s : State) : Prop where
  apart : s.act.Pairwise (fun c c' => c.idx ≠ c'.idx)
  busy : ∀ c ∈ s.act, ∃ k, s.known[c.idx]? = some k ∧ k.status ≠ .disconnected
  shown : ∀ c ∈ s.act, c.shown = true

theorem Single.dial {s : State} (h : Single s) {i now : Nat} {a : Addr} {opens : Bool} {p : Known}
    (hp : s.known[i]? = some p) (hi : ∀ c ∈ s.act, c.idx ≠ i) (ho : opens = true) : Single (dialAt s i a now opens) := by
  refine ⟨?_, ?_, ?_⟩
  · simp only [dialAt, List.pairwise_append]
    exact ⟨h.apart, by simp, fun c hc c' hc' => by simp at hc'; subst hc'; exact hi c hc⟩
  · intro c hc
    rcases List.mem_append.mp hc with hc | hc
    · obtain ⟨k, h1, h2⟩ := h.busy c hc
      exact ⟨_, modify_get h1, by rw [if_neg (fun hx => hi c hc hx.symm)]; exact h2⟩
    · simp at hc
      subst hc
      exact ⟨_, modify_get hp, by simp⟩
  · intro c hc
    rcases List.mem_append.mp hc with hc | hc
    · exact h.shown c hc
    · simp at hc; subst hc; exact ho

theorem Single.modify {s : State} (h : Single s) (i : Nat) (f : Known → Known)
    (hf : ∀ k, k.status ≠ .disconnected → (f k).status ≠ .disconnected) : Single { s with known := s.known.modify i f } := by
  refine ⟨h.apart, ?_, h.shown⟩
  intro c hc
  obtain ⟨k, h1, h2⟩ := h.busy c hc
  exact ⟨_, modify_get h1, by split; exact hf k h2; exact h2⟩

theorem move_single {L : List Addr} (hL : Apart L) {e : Ev} (he : ∀ a ∈ mentioned e, a ∈ L) (ho : Opens e) {s s' : State}
    {o : List Out} (hr : Right L s) (hw : ∀ c ∈ s.act, c.idx < s.known.length) (hi : Single s) (h : Move e s o s') :
    Single s' := by
  cases h with
  | same hk ha =>
    refine ⟨by rw [ha]; exact hi.apart, ?_, by rw [ha]; exact hi.shown⟩
    intro c hc
    rw [ha] at hc
    obtain ⟨k, h1, h2⟩ := hi.busy c hc
    obtain ⟨k', h3, h4⟩ := bare_get hk h1
    exact ⟨k', h3, by
      have := congrArg Known.status h4
      simp only [Known.bare] at this
      rw [this]; exact h2⟩
  | auto hev hp hrd =>
    refine hi.dial hp ?_ (by subst hev; exact ho)
    intro c hc hx
    obtain ⟨k, h1, h2⟩ := hi.busy c hc
    rw [hx, hp] at h1
    cases h1
    simp only [ready, Bool.and_eq_true, beq_iff_eq] at hrd
    exact h2 hrd.1.1
  | manual ha _ hop hp heq _ hact =>
    refine hi.dial hp ?_ (hop ho)
    intro c hc hx
    obtain ⟨k, h1, h2⟩ := hr.conn c hc
    rw [hx, hp] at h1
    cases h1
    have h3 := same_of_eq hL (hr.mem _ (List.mem_of_getElem? hp)) (he _ ha) heq
    have h4 := eq_of_same (Same.trans (Same.symm h2) h3)
    simp only [active, List.any_eq_false] at hact
    have := hact c hc
    rw [hi.shown c hc] at this
    simp [h4] at this
  | @add _ new pos hpos hk ha hs hb hnew _ =>
    refine ⟨?_, ?_, ?_⟩
    · rw [ha, List.pairwise_map]
      refine hi.apart.imp ?_
      intro c c' hcc
      simp only [shift]
      split <;> split <;> simp <;> omega
    · intro c hc
      rw [ha] at hc
      obtain ⟨c', hc', rfl⟩ := List.mem_map.mp hc
      obtain ⟨k, h1, h2⟩ := hi.busy c' hc'
      have := insert_get (n := new) hpos h1
      rw [← hk] at this
      refine ⟨k, ?_, h2⟩
      simp only [shift]; split <;> rename_i hx <;> simpa [hx] using this
    · intro c hc
      rw [ha] at hc
      obtain ⟨c', hc', rfl⟩ := List.mem_map.mp hc
      simp only [shift]; split <;> exact hi.shown c' hc'
  | @incoming a ha =>
    refine ⟨?_, ?_, ?_⟩
    · simp only [Peers.incoming, List.pairwise_append]
      refine ⟨hi.apart, by simp, fun c hc c' hc' => ?_⟩
      simp at hc'; subst hc'
      have := hw c hc
      simp; omega
    · intro c hc
      rcases List.mem_append.mp hc with hc | hc
      · obtain ⟨k, h1, h2⟩ := hi.busy c hc
        exact ⟨k, by simp only [Peers.incoming]; rw [List.getElem?_append_left (List.getElem?_eq_some_iff.mp h1).1]; exact h1, h2⟩
      · simp at hc
        subst hc
        exact ⟨{ addr := a, status := .connected }, by simp [Peers.incoming], by simp⟩
    · intro c hc
      rcases List.mem_append.mp hc with hc | hc
      · exact hi.shown c hc
      · simp at hc; subst hc; rfl
  | ban _ => exact hi.modify _ _ (fun _ h => h)
  | hand _ => exact hi.modify _ _ (fun _ _ => by simp)
  | @close c id now _ hc =>
    obtain ⟨_, as, bs, hl, has⟩ := List.find?_eq_some_iff_append.mp hc
    have hea : s.act.eraseP (·.id == id) = as ++ bs := by
      rw [hl, List.eraseP_append_right _ (by intro b hb; have := has b hb; simpa using this)]
      rw [List.eraseP_cons_of_pos (by assumption)]
    have hpw := hi.apart
    rw [hl] at hpw
    have hne : ∀ c' ∈ as ++ bs, c'.idx ≠ c.idx := by
      intro c' hc'
      rw [List.pairwise_append] at hpw
      obtain ⟨_, h2, h3⟩ := hpw
      rcases List.mem_append.mp hc' with hm | hm
      · exact h3 c' hm c (by simp)
      · exact ((List.pairwise_cons.mp h2).1 c' hm).symm
    have hsub : ∀ c' ∈ as ++ bs, c' ∈ s.act := by
      intro c' hc'
      rw [hl]
      rcases List.mem_append.mp hc' with hm | hm <;> simp [hm]
    refine ⟨?_, ?_, ?_⟩
    · exact hi.apart.sublist List.eraseP_sublist
    · intro c' hc'
      simp only [hea] at hc'
      obtain ⟨k, h1, h2⟩ := hi.busy c' (hsub c' hc')
      exact ⟨_, modify_get h1, by rw [if_neg (fun hx => hne c' hc' hx.symm)]; exact h2⟩
    · intro c' hc'
      exact hi.shown c' (List.mem_of_mem_eraseP hc')
  | stop hk hs ha => exact ⟨by simp [ha], by simp [ha], by simp [ha]⟩

/-! ### Histories -/

theorem runFrom_right {L : List Addr} (hL : Apart L) {h : List Ev} {s : State} {r : State × List Out}
    (hm : ∀ e ∈ h, ∀ a ∈ mentioned e, a ∈ L) (hw : Wf s) (hi : Right L s) (hr : runFrom s h = .ok r) : Right L r.1 := by
  induction h generalizing s r with
  | nil => simp only [runFrom] at hr; cases hr; exact hi
  | cons e h ih =>
    simp only [runFrom] at hr
    obtain ⟨a, h1, h2⟩ := bindR hr
    obtain ⟨b, h3, h4⟩ := bindR h2
    cases h4
    have hmv := step_moves hw h1
    have ha : Right L a.1 := hmv.keep (I := fun s _ => Right L s) (tr := [])
      (fun _ _ _ _ hi hmv => move_right hL (hm e (by simp)) hi hmv) hi
    exact ih (r := b) (fun e he => hm e (by simp [he])) (step_wf' hw h1) ha h3

theorem runFrom_used {h : List Ev} {s : State} {r : State × List Out} (hw : Wf s) (hi : Used s) (hr : runFrom s h = .ok r) :
    Used r.1 := by
  induction h generalizing s r with
  | nil => simp only [runFrom] at hr; cases hr; exact hi
  | cons e h ih =>
    simp only [runFrom] at hr
    obtain ⟨a, h1, h2⟩ := bindR hr
    obtain ⟨b, h3, h4⟩ := bindR h2
    cases h4
    have ha : Used a.1 := (step_moves hw h1).keep (I := fun s _ => Used s) (tr := []) (fun _ _ _ _ hi hmv => move_used hi hmv) hi
    exact ih (r := b) (step_wf' hw h1) ha h3

theorem runFrom_single {L : List Addr} (hL : Apart L) {h : List Ev} {s : State} {r : State × List Out}
    (hm : ∀ e ∈ h, ∀ a ∈ mentioned e, a ∈ L) (ho : ∀ e ∈ h, Opens e) (hw : Wf s) (hi : Right L s) (hsi : Single s)
    (hr : runFrom s h = .ok r) : Single r.1 := by
  induction h generalizing s r with
  | nil => simp only [runFrom] at hr; cases hr; exact hsi
  | cons e h ih =>
    simp only [runFrom] at hr
    obtain ⟨a, h1, h2⟩ := bindR hr
    obtain ⟨b, h3, h4⟩ := bindR h2
    cases h4
    have ha : Right L a.1 ∧ Single a.1 := (step_moves hw h1).keep (I := fun s _ => Right L s ∧ Single s) (tr := [])
      (fun s _ _ _ hi hmv => ⟨move_right hL (hm e (by simp)) hi.1 hmv,
        move_single hL (hm e (by simp)) (ho e (by simp)) hi.1
          (fun c hc => by
            obtain ⟨k, hk, _⟩ := hi.1.conn c hc
            exact (List.getElem?_eq_some_iff.mp hk).1) hi.2 hmv⟩) ⟨hi, hsi⟩
    exact ih (r := b) (fun e he => hm e (by simp [he])) (fun e he => ho e (by simp [he])) (step_wf' hw h1) ha.1 ha.2 h3

end Verif.Peers
