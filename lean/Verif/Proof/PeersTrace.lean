import Verif.Proof.PeersRight
/-! Who is dialled when. -/

namespace Verif.Peers
open Verif Net Spec.Peering

/-- Something happened with the address at that time. -/
def Heard (tr : List Out) (b : Addr) (t : Nat) : Prop := (∃ auto, .dial b t auto ∈ tr) ∨ .gone b t ∈ tr

structure Ord (T : Nat) (tr : List Out) (s : State) : Prop where
  uniq : (s.known.map Known.addr).Pairwise (fun a b => ¬ Same a b)
  cap : ∀ k ∈ s.known, k.last ≤ T
  bans : ∀ b, .ban b ∈ tr → ∃ k ∈ s.known, Same k.addr b ∧ k.unwanted = true
  times : ∀ b t, Heard tr b t → 0 < t ∧ ∃ k ∈ s.known, Same k.addr b ∧ t ≤ k.last
  never : NeverAgain tr
  paced : Paced tr

/-- Entries may be added, but never lose a ban or go back in time. -/
def Le (l m : List Known) : Prop :=
  ∀ k ∈ l, ∃ k' ∈ m, k'.addr = k.addr ∧ (k.unwanted = true → k'.unwanted = true) ∧ k.last ≤ k'.last

theorem Le.sub {l m : List Known} (h : ∀ k ∈ l, k ∈ m) : Le l m :=
  fun k hk => ⟨k, h k hk, rfl, id, Nat.le_refl _⟩

theorem Le.modify {l : List Known} {i : Nat} {f : Known → Known} (ha : ∀ k, (f k).addr = k.addr)
    (hu : ∀ k, k.unwanted = true → (f k).unwanted = true) (ht : ∀ k ∈ l, k.last ≤ (f k).last) : Le l (l.modify i f) := by
  intro k hk
  obtain ⟨j, hj⟩ := List.mem_iff_getElem?.mp hk
  refine ⟨_, List.mem_of_getElem? (modify_get (j := i) (f := f) hj), ?_⟩
  split
  · exact ⟨ha k, hu k, ht k hk⟩
  · exact ⟨rfl, id, Nat.le_refl _⟩

theorem Le.bare {l m : List Known} (h : m.map Known.bare = l.map Known.bare) : Le l m := by
  intro k hk
  obtain ⟨j, hj⟩ := List.mem_iff_getElem?.mp hk
  obtain ⟨k', h1, h2⟩ := bare_get h hj
  refine ⟨k', List.mem_of_getElem? h1, ?_, ?_, ?_⟩
  · have := congrArg Known.addr h2; simpa [Known.bare] using this
  · have := congrArg Known.unwanted h2; simp only [Known.bare] at this; rw [this]; exact id
  · have := congrArg Known.last h2; simp only [Known.bare] at this; omega

theorem settled_get {l m : List Known} (h : l.map Known.settled = m.map Known.settled) {i : Nat} {k : Known}
    (hk : m[i]? = some k) : ∃ k', l[i]? = some k' ∧ k'.settled = k.settled := by
  have := congrArg (fun x => x[i]?) h
  simp only [List.getElem?_map, hk, Option.map_some] at this
  cases hl : l[i]? with
  | none => rw [hl] at this; simp at this
  | some k' => rw [hl] at this; exact ⟨k', rfl, by simpa using this⟩

theorem Le.settled {l m : List Known} (h : m.map Known.settled = l.map Known.settled) : Le l m := by
  intro k hk
  obtain ⟨j, hj⟩ := List.mem_iff_getElem?.mp hk
  obtain ⟨k', h1, h2⟩ := settled_get h hj
  refine ⟨k', List.mem_of_getElem? h1, ?_, ?_, ?_⟩
  · have := congrArg Known.addr h2; simpa [Known.settled] using this
  · have := congrArg Known.unwanted h2; simp only [Known.settled] at this; rw [this]; exact id
  · have := congrArg Known.last h2; simp only [Known.settled] at this; omega

theorem Le.ban {l m : List Known} (h : Le l m) {b : Addr} (hb : ∃ k ∈ l, Same k.addr b ∧ k.unwanted = true) :
    ∃ k ∈ m, Same k.addr b ∧ k.unwanted = true := by
  obtain ⟨k, hk, h1, h2⟩ := hb
  obtain ⟨k', hk', g1, g2, _⟩ := h k hk
  exact ⟨k', hk', by rw [g1]; exact h1, g2 h2⟩

theorem Le.time {l m : List Known} (h : Le l m) {b : Addr} {t : Nat} (hb : ∃ k ∈ l, Same k.addr b ∧ t ≤ k.last) :
    ∃ k ∈ m, Same k.addr b ∧ t ≤ k.last := by
  obtain ⟨k, hk, h1, h2⟩ := hb
  obtain ⟨k', hk', g1, _, g3⟩ := h k hk
  exact ⟨k', hk', by rw [g1]; exact h1, Nat.le_trans h2 g3⟩

/-- A move that shows nothing. -/
theorem Ord.mute {T : Nat} {tr : List Out} {s s' : State} (h : Ord T tr s) (hl : Le s.known s'.known)
    (hu : (s'.known.map Known.addr).Pairwise (fun a b => ¬ Same a b)) (hc : ∀ k ∈ s'.known, k.last ≤ T) : Ord T tr s' :=
  ⟨hu, hc, fun b hb => hl.ban (h.bans b hb), fun b t hb => ⟨(h.times b t hb).1, hl.time (h.times b t hb).2⟩, h.never, h.paced⟩

theorem concat_split {α} {tr : List α} {x y : α} {before after : List α} (h : tr ++ [x] = before ++ y :: after) :
    (after = [] ∧ before = tr ∧ y = x) ∨ ∃ after', after = after' ++ [x] ∧ tr = before ++ y :: after' := by
  rcases List.eq_nil_or_concat after with rfl | ⟨as, z, rfl⟩
  · have := List.append_inj' h rfl
    exact .inl ⟨rfl, this.1.symm, by simpa using this.2.symm⟩
  · right
    have h' : tr ++ [x] = (before ++ y :: as) ++ [z] := by simpa using h
    have := List.append_inj' h' rfl
    have hz : x = z := by simpa using this.2
    exact ⟨as, by simp [hz], this.1⟩

theorem never_snoc {tr : List Out} {x : Out} (h : NeverAgain tr)
    (hx : ∀ a now auto, x = .dial a now auto → ∀ b, .ban b ∈ tr → ¬ Same b a) : NeverAgain (tr ++ [x]) := by
  intro before a now auto after he b hb
  rcases concat_split he with ⟨_, rfl, h2⟩ | ⟨after', _, h2⟩
  · exact hx a now auto h2.symm b hb
  · exact h before a now auto after' h2 b hb

theorem paced_snoc {tr : List Out} {x : Out} (h : Paced tr)
    (hx : ∀ a now, x = .dial a now true → ∀ b t, Heard tr b t → Same b a → t + 30 < now) : Paced (tr ++ [x]) := by
  intro before a now after he b t hb
  rcases concat_split he with ⟨_, rfl, h2⟩ | ⟨after', _, h2⟩
  · exact hx a now h2.symm b t hb
  · exact h before a now after' h2 b t hb

theorem heard_snoc {tr : List Out} {x : Out} {b : Addr} {t : Nat} (h : Heard (tr ++ [x]) b t) :
    Heard tr b t ∨ (∃ auto, x = .dial b t auto) ∨ x = .gone b t := by
  rcases h with ⟨auto, h⟩ | h
  · rcases List.mem_append.mp h with h | h
    · exact .inl (.inl ⟨auto, h⟩)
    · exact .inr (.inl ⟨auto, by simpa using (List.mem_singleton.mp h).symm⟩)
  · rcases List.mem_append.mp h with h | h
    · exact .inl (.inr h)
    · exact .inr (.inr (by simpa using (List.mem_singleton.mp h).symm))

theorem ban_snoc {tr : List Out} {x : Out} {b : Addr} (h : Out.ban b ∈ tr ++ [x]) : .ban b ∈ tr ∨ x = .ban b := by
  rcases List.mem_append.mp h with h | h
  · exact .inl h
  · exact .inr (by simpa using (List.mem_singleton.mp h).symm)

/-- There is one entry for an address. -/
theorem unique {l : List Known} (h : (l.map Known.addr).Pairwise (fun a b => ¬ Same a b)) {k p : Known} (hk : k ∈ l) (hp : p ∈ l)
    (hs : Same k.addr p.addr) : k = p := by
  rw [List.pairwise_map] at h
  induction l with
  | nil => simp at hk
  | cons x l ih =>
    obtain ⟨h1, h2⟩ := List.pairwise_cons.mp h
    rcases List.mem_cons.mp hk with hk' | hk' <;> rcases List.mem_cons.mp hp with hp' | hp'
    · rw [hk', hp']
    · subst hk'; exact absurd hs (h1 p hp')
    · subst hp'; exact absurd (Same.symm hs) (h1 k hk')
    · exact ih h2 hk' hp'

theorem modify_mem {α} {l : List α} {i : Nat} {f : α → α} {x : α} (h : x ∈ l.modify i f) :
    x ∈ l ∨ ∃ y ∈ l, x = f y := by
  obtain ⟨j, hj⟩ := List.mem_iff_getElem?.mp h
  obtain ⟨a, h1, h2⟩ := modify_get_inv hj
  split at h2
  · exact .inr ⟨a, List.mem_of_getElem? h1, h2⟩
  · exact .inl (h2 ▸ List.mem_of_getElem? h1)

theorem Ord.dial {T : Nat} {tr : List Out} {s : State} (h : Ord T tr s) (hT : 0 < T) {i : Nat} {a : Addr} {opens auto : Bool}
    {p : Known} (hp : s.known[i]? = some p) (hs : Same p.addr a) (hu : p.unwanted = false)
    (hr : auto = true → p.last = 0 ∨ p.last + 30 < T) : Ord T (tr ++ [.dial a T auto]) (dialAt s i a T opens) := by
  have hpm := List.mem_of_getElem? hp
  have hl : Le s.known (dialAt s i a T opens).known := Le.modify (fun _ => rfl) (fun _ h => h) (fun k hk => h.cap k hk)
  have hnew : ∃ k ∈ (dialAt s i a T opens).known, Same k.addr a ∧ T ≤ k.last := by
    refine ⟨_, List.mem_of_getElem? (modify_get (j := i) hp), ?_⟩
    simp only [if_true]
    exact ⟨hs, Nat.le_refl _⟩
  refine ⟨?_, ?_, ?_, ?_, ?_, ?_⟩
  · have : (dialAt s i a T opens).known.map Known.addr = s.known.map Known.addr := by
      simp only [dialAt]; apply modify_map; intro; rfl
    rw [this]; exact h.uniq
  · intro k hk
    rcases modify_mem hk with hk | ⟨y, _, rfl⟩
    · exact h.cap k hk
    · exact Nat.le_refl _
  · intro b hb
    rcases ban_snoc hb with hb | hb
    · exact hl.ban (h.bans b hb)
    · cases hb
  · intro b t hb
    rcases heard_snoc hb with hb | ⟨_, hb⟩ | hb
    · exact ⟨(h.times b t hb).1, hl.time (h.times b t hb).2⟩
    · cases hb; exact ⟨hT, hnew⟩
    · cases hb
  · refine never_snoc h.never ?_
    intro a' now' auto' he b hb hsame
    cases he
    obtain ⟨k, hk, h1, h2⟩ := h.bans b hb
    have := unique h.uniq hk hpm (Same.trans (Same.trans h1 hsame) (Same.symm hs))
    rw [this, hu] at h2
    cases h2
  · refine paced_snoc h.paced ?_
    intro a' now' he b t hb hsame
    cases he
    obtain ⟨h0, k, hk, h1, h2⟩ := h.times b t hb
    have := unique h.uniq hk hpm (Same.trans (Same.trans h1 hsame) (Same.symm hs))
    rw [this] at h2
    rcases hr rfl with hr | hr <;> omega

theorem move_ord {T : Nat} {tr : List Out} {L : List Addr} (hL : Apart L) {e : Ev} (he : ∀ a ∈ mentioned e, a ∈ L)
    (hpw : (mentioned e).Pairwise (fun a b => ¬ Same a b)) (ht : ∀ now, time e = some now → now = T ∧ 0 < T)
    {s s' : State} {o : List Out} (hin : ∀ a, e = .incoming a → ∀ k ∈ s.known, ¬ Same k.addr a)
    (hr : Right L s) (hi : Ord T tr s) (h : Move e s o s') : Ord T (tr ++ o) s' := by
  cases h with
  | same hk ha =>
    rw [List.append_nil]
    refine hi.mute (Le.bare hk) (by rw [bare_addr hk]; exact hi.uniq) ?_
    intro k hkm
    obtain ⟨j, hj⟩ := List.mem_iff_getElem?.mp hkm
    obtain ⟨k', h1, h2⟩ := bare_get hk.symm hj
    have := congrArg Known.last h2
    simp only [Known.bare] at this
    rw [← this]; exact hi.cap k' (List.mem_of_getElem? h1)
  | auto hev hp hrd =>
    subst hev
    obtain ⟨hnow, hT⟩ := ht _ rfl
    subst hnow
    simp only [ready, Bool.and_eq_true, Bool.or_eq_true, beq_iff_eq, Bool.not_eq_true', decide_eq_true_eq] at hrd
    exact hi.dial hT hp (Same.refl _) hrd.1.2 (fun _ => hrd.2)
  | manual ha htm _ hp heq hu _ =>
    obtain ⟨hnow, hT⟩ := ht _ htm
    subst hnow
    exact hi.dial hT hp (same_of_eq hL (hr.mem _ (List.mem_of_getElem? hp)) (he _ ha) heq) hu (by simp)
  | @add _ new pos hpos hk ha hs hb hnew _ =>
    rw [List.append_nil]
    have hperm : s'.known.Perm (s.known ++ new) := by
      rw [hk]
      have h1 : (s.known.take pos ++ new ++ s.known.drop pos).Perm (s.known.take pos ++ s.known.drop pos ++ new) := by
        rw [List.append_assoc, List.append_assoc]
        exact List.Perm.append_left _ List.perm_append_comm
      rwa [List.take_append_drop] at h1
    refine hi.mute (Le.sub fun k hkm => hperm.mem_iff.mpr (by simp [hkm])) ?_ ?_
    · rw [(hperm.map Known.addr).pairwise_iff (fun hab hba => hab (Same.symm hba)), List.map_append, List.pairwise_append]
      refine ⟨hi.uniq, hpw.sublist hs, ?_⟩
      intro a ham b hbm hsame
      obtain ⟨k, hkm, rfl⟩ := List.mem_map.mp ham
      obtain ⟨n, hnm, rfl⟩ := List.mem_map.mp hbm
      have := hnew n hnm k hkm
      rw [eq_of_same hsame] at this
      cases this
    · intro k hkm
      rcases List.mem_append.mp (hperm.mem_iff.mp hkm) with hkm | hkm
      · exact hi.cap k hkm
      · have := congrArg Known.last (hb k hkm)
        simp only [Known.bare] at this
        rw [this]; exact Nat.zero_le _
  | @incoming a ha =>
    rw [List.append_nil]
    refine hi.mute (Le.sub fun k hkm => by simp [Peers.incoming, hkm]) ?_ ?_
    · simp only [Peers.incoming, List.map_append, List.pairwise_append]
      refine ⟨hi.uniq, by simp, ?_⟩
      intro x hx y hy
      obtain ⟨k, hkm, rfl⟩ := List.mem_map.mp hx
      simp at hy
      subst hy
      exact hin _ ha k hkm
    · intro k hkm
      rcases List.mem_append.mp hkm with hkm | hkm
      · exact hi.cap k hkm
      · simp at hkm; subst hkm; exact Nat.zero_le _
  | @ban c hc =>
    obtain ⟨k, h1, h2⟩ := hr.conn c hc
    have hl : Le s.known (s.known.modify c.idx fun k => { k with unwanted := true }) :=
      Le.modify (fun _ => rfl) (fun _ _ => rfl) (fun _ _ => Nat.le_refl _)
    have hm : (s.known.modify c.idx fun k => { k with unwanted := true }).map Known.addr = s.known.map Known.addr := by
      apply modify_map; intro; rfl
    refine ⟨by simp only [hm]; exact hi.uniq, ?_, ?_, ?_, ?_, ?_⟩
    · intro k hkm
      rcases modify_mem hkm with hkm | ⟨y, hy, rfl⟩
      · exact hi.cap k hkm
      · exact hi.cap y hy
    · intro b hb
      rcases ban_snoc hb with hb | hb
      · exact hl.ban (hi.bans b hb)
      · cases hb
        refine ⟨_, List.mem_of_getElem? (modify_get (j := c.idx) h1), ?_⟩
        simp only [if_true]
        exact ⟨h2, trivial⟩
    · intro b t hb
      rcases heard_snoc hb with hb | ⟨_, hb⟩ | hb
      · exact ⟨(hi.times b t hb).1, hl.time (hi.times b t hb).2⟩
      · cases hb
      · cases hb
    · exact never_snoc hi.never (fun _ _ _ he => by cases he)
    · exact paced_snoc hi.paced (fun _ _ he => by cases he)
  | @hand c hc =>
    rw [List.append_nil]
    refine hi.mute (Le.modify (fun _ => rfl) (fun _ h => h) (fun _ _ => Nat.le_refl _)) ?_ ?_
    · have hm : (s.known.modify c.idx fun k => { k with status := .connected }).map Known.addr = s.known.map Known.addr := by
        apply modify_map; intro; rfl
      simp only [hm]; exact hi.uniq
    · intro k hkm
      rcases modify_mem hkm with hkm | ⟨y, hy, rfl⟩
      · exact hi.cap k hkm
      · exact hi.cap y hy
  | @close c id now htm hc =>
    obtain ⟨hnow, hT⟩ := ht _ htm
    subst hnow
    obtain ⟨k, h1, h2⟩ := hr.conn c (List.mem_of_find?_eq_some hc)
    have hl : Le s.known (s.known.modify c.idx fun k => { k with status := .disconnected, last := now }) :=
      Le.modify (fun _ => rfl) (fun _ h => h) (fun k hk => hi.cap k hk)
    have hm : (s.known.modify c.idx fun k => { k with status := .disconnected, last := now }).map Known.addr =
        s.known.map Known.addr := by
      apply modify_map; intro; rfl
    refine ⟨by simp only [hm]; exact hi.uniq, ?_, ?_, ?_, ?_, ?_⟩
    · intro k hkm
      rcases modify_mem hkm with hkm | ⟨y, hy, rfl⟩
      · exact hi.cap k hkm
      · exact Nat.le_refl _
    · intro b hb
      rcases ban_snoc hb with hb | hb
      · exact hl.ban (hi.bans b hb)
      · cases hb
    · intro b t hb
      rcases heard_snoc hb with hb | ⟨_, hb⟩ | hb
      · exact ⟨(hi.times b t hb).1, hl.time (hi.times b t hb).2⟩
      · cases hb
      · cases hb
        refine ⟨hT, _, List.mem_of_getElem? (modify_get (j := c.idx) h1), ?_⟩
        simp only [if_true]
        exact ⟨h2, Nat.le_refl _⟩
    · exact never_snoc hi.never (fun _ _ _ he => by cases he)
    · exact paced_snoc hi.paced (fun _ _ he => by cases he)
  | @stop _ k hk hs ha =>
    rw [List.append_nil]
    obtain ⟨h1, _⟩ := hangUp_spec hk
    rw [← hs] at h1
    refine hi.mute (Le.settled h1) (by rw [settled_addr h1]; exact hi.uniq) ?_
    intro k hkm
    obtain ⟨j, hj⟩ := List.mem_iff_getElem?.mp hkm
    obtain ⟨k', h2, h3⟩ := settled_get h1.symm hj
    have := congrArg Known.last h3
    simp only [Known.settled] at this
    rw [← this]; exact hi.cap k' (List.mem_of_getElem? h2)

theorem Right.mono {L M : List Addr} {s : State} (h : Right L s) (hm : ∀ a ∈ L, a ∈ M) : Right M s :=
  ⟨fun k hk => hm _ (h.mem k hk), h.conn⟩

theorem Ord.later {T T' : Nat} {tr : List Out} {s : State} (h : Ord T tr s) (ht : T ≤ T') : Ord T' tr s :=
  ⟨h.uniq, fun k hk => Nat.le_trans (h.cap k hk) ht, h.bans, h.times, h.never, h.paced⟩

/-- What an event of an orderly history mentions. -/
theorem orderly_cons {seen : List Addr} {e : Ev} {h : List Ev} (ho : Orderly seen (e :: h)) :
    (mentioned e).Pairwise (fun a b => ¬ Same a b) ∧ (∀ a, e = .incoming a → ∀ b ∈ seen, ¬ Same b a) ∧
      Orderly (seen ++ mentioned e) h := by
  cases e <;> simp_all [Orderly, mentioned]

theorem step_ord {T : Nat} {tr : List Out} {seen : List Addr} {e : Ev} (hL : Apart (seen ++ mentioned e))
    (hpw : (mentioned e).Pairwise (fun a b => ¬ Same a b)) (hin : ∀ a, e = .incoming a → ∀ b ∈ seen, ¬ Same b a)
    (ht : ∀ now, time e = some now → now = T ∧ 0 < T) {s : State} {r : State × List Out} (hw : Wf s)
    (hr : Right seen s) (hi : Ord T tr s) (h : step s e = .ok r) :
    Right (seen ++ mentioned e) r.1 ∧ Ord T (tr ++ r.2) r.1 := by
  have hr' : Right (seen ++ mentioned e) s := hr.mono (fun a ha => by simp [ha])
  by_cases hc : ∃ a, e = .incoming a
  · obtain ⟨a, rfl⟩ := hc
    cases h
    have hmv : Move (.incoming a) s [] (incoming s a) := .incoming rfl
    have hsub : ∀ b ∈ mentioned (.incoming a), b ∈ seen ++ mentioned (.incoming a) := fun b hb => List.mem_append_right _ hb
    refine ⟨move_right hL hsub hr' hmv, ?_⟩
    exact move_ord hL hsub hpw ht (fun a' ha' k hk => hin a' ha' _ (hr.mem k hk)) hr' hi hmv
  · have := (step_moves hw h).keep (I := fun s tr => Right (seen ++ mentioned e) s ∧ Ord T tr s) (tr := tr)
      (fun s s' o tr hi hmv => ⟨move_right hL (by simp +contextual) hi.1 hmv,
        move_ord hL (by simp +contextual) hpw ht (fun a ha => absurd ⟨a, ha⟩ hc) hi.1 hi.2 hmv⟩) ⟨hr', hi⟩
    exact this

theorem runFrom_ord {h : List Ev} {T : Nat} {tr : List Out} {seen L : List Addr} (hL : Apart L) {s : State}
    {r : State × List Out} (hs : ∀ a ∈ seen, a ∈ L) (hm : ∀ e ∈ h, ∀ a ∈ mentioned e, a ∈ L) (ho : Orderly seen h) (hc : Clock T h) (hw : Wf s)
    (hr : Right seen s) (hi : Ord T tr s) (hrun : runFrom s h = .ok r) : ∃ T', Ord T' (tr ++ r.2) r.1 := by
  induction h generalizing T tr seen s r with
  | nil => simp only [runFrom] at hrun; cases hrun; exact ⟨T, by simpa using hi⟩
  | cons e h ih =>
    simp only [runFrom] at hrun
    obtain ⟨a, h1, h2⟩ := bindR hrun
    obtain ⟨b, h3, h4⟩ := bindR h2
    cases h4
    obtain ⟨g1, g2, g3⟩ := orderly_cons ho
    have hsub : ∀ a ∈ seen ++ mentioned e, a ∈ L := by
      intro a ha
      rcases List.mem_append.mp ha with ha | ha
      · exact hs a ha
      · exact hm e (by simp) a ha
    have hclock : ∃ T1, T ≤ T1 ∧ (∀ now, time e = some now → now = T1 ∧ 0 < T1) ∧ Clock T1 h := by
      simp only [Clock] at hc
      cases hte : time e with
      | none => rw [hte] at hc; exact ⟨T, Nat.le_refl _, by simp, hc⟩
      | some now => rw [hte] at hc; exact ⟨now, hc.2.1, by simp; exact hc.1, hc.2.2⟩
    obtain ⟨T1, hT1, ht, hc'⟩ := hclock
    obtain ⟨k1, k2⟩ := step_ord (Apart.mono hL hsub) g1 g2 ht hw hr (hi.later hT1) h1
    obtain ⟨T', h5⟩ := ih (r := b) hsub (fun e he => hm e (by simp [he])) g3 hc' (step_wf' hw h1) k1 k2 h3
    exact ⟨T', by simpa [List.append_assoc] using h5⟩

theorem ord_init : Ord 0 [] {} :=
  ⟨by simp, by simp, by simp, by simp [Heard], by intro b; simp, by intro b; simp⟩

theorem right_init (L : List Addr) : Right L {} := ⟨by simp, by simp⟩

/-! ### The limit -/

theorem nextLoop_count {now : Nat} {opens : Bool} {n c : Nat} {s : State} {r : State × List Out}
    (h : nextLoop now opens n c s = .ok r) : r.1.act.length = s.act.length + r.2.length ∧ r.2.length ≤ c := by
  induction n generalizing c s r with
  | zero => simp only [nextLoop] at h; cases h; simp
  | succ n ih =>
    cases c with
    | zero => simp only [nextLoop] at h; cases h; simp
    | succ c =>
      simp only [nextLoop] at h
      split at h
      · cases h
      · split at h
        · obtain ⟨r', h1, h2⟩ := bindR h
          cases h2
          obtain ⟨g1, g2⟩ := ih h1
          simp only [advance, dialAt, List.length_append, List.length_cons, List.length_nil] at g1 ⊢
          omega
        · exact ih (s := advance s) h

theorem connect_count {s : State} {a : Addr} {now : Nat} {opens : Bool} {r : State × List Out}
    (h : connect s a now opens = .ok r) : r.1.act.length ≤ s.act.length + 1 := by
  unfold connect at h
  split at h
  · cases h; simp
  · cases hf : find s.known a with
    | none =>
      rw [hf] at h
      simp only [List.getElem?_concat_length, Bool.false_eq_true, if_false] at h
      cases h
      simp [dialAt]
    | some i =>
      rw [hf] at h
      dsimp only at h
      split at h
      · cases h
      · split at h <;> cases h <;> simp [dialAt]

theorem move_count {e : Ev} {s s' : State} {o : List Out} (hmv : Move e s o s') (hl : limitOf e = none) (hf : ¬ free e) :
    s'.act.length ≤ s.act.length := by
  cases hmv with
  | same _ ha => rw [ha]; exact Nat.le_refl _
  | auto he _ _ => subst he; simp [limitOf] at hl
  | manual ha ht _ _ _ _ _ => cases e <;> simp_all [limitOf, free, mentioned, time]
  | add _ _ ha _ _ _ _ => rw [ha]; simp
  | incoming he => subst he; exact absurd trivial hf
  | ban _ => exact Nat.le_refl _
  | hand _ => exact Nat.le_refl _
  | close _ _ => exact List.eraseP_sublist.length_le
  | stop _ _ ha => simp [ha]

theorem moves_count {e : Ev} {s s' : State} {o : List Out} (hmv : Moves e s o s') (hl : limitOf e = none) (hf : ¬ free e) :
    s'.act.length ≤ s.act.length := by
  induction hmv with
  | nil => exact Nat.le_refl _
  | cons h _ ih => exact Nat.le_trans ih (move_count h hl hf)

/-- An event with a limit obeys it, and other events than those nobody counts open nothing. -/
theorem step_count {s : State} {e : Ev} {r : State × List Out} (hw : Wf s) (hf : ¬ free e) (h : step s e = .ok r) :
    r.1.act.length ≤ s.act.length ∨ ∃ m, limitOf e = some m ∧ r.1.act.length ≤ m := by
  cases e with
  | next now max opens =>
    simp only [step, connectNext] at h
    split at h
    · cases h; exact .inl (Nat.le_refl _)
    · rename_i hc
      obtain ⟨g1, g2⟩ := nextLoop_count h
      simp only [Bool.or_eq_true, Bool.not_eq_true', decide_eq_true_eq, not_or] at hc
      exact .inr ⟨max, rfl, by omega⟩
  | holepunch a now max opens =>
    simp only [step, holepunch] at h
    split at h
    · have := connect_count h
      exact .inr ⟨max, rfl, by omega⟩
    · cases h; exact .inl (Nat.le_refl _)
  | connect a now opens => exact absurd trivial hf
  | incoming a => exact absurd trivial hf
  | _ => exact .inl (moves_count (step_moves hw h) rfl hf)

/-! ### No place is left free -/

theorem ready_modify {now : Nat} {l : List Known} {i j : Nat} {f : Known → Known} (hf : ∀ k, ready now (f k) = false)
    (h : ∀ k, l[j]? = some k → ready now k = false) : ∀ k, (l.modify i f)[j]? = some k → ready now k = false := by
  intro k hk
  obtain ⟨a, h1, h2⟩ := modify_get_inv hk
  split at h2
  · rw [h2]; exact hf a
  · rw [h2]; exact h a h1

/-- The place after `k` turns. -/
def ahead (len cur k : Nat) : Nat := if cur + k < len then cur + k else cur + k - len

theorem nextLoop_fill {now : Nat} {opens : Bool} {n c : Nat} {s : State} {r : State × List Out} (hcur : s.cur < s.known.length)
    (hn : n ≤ s.known.length) (h : nextLoop now opens n c s = .ok r) :
    r.1.known.length = s.known.length ∧
    (∀ j : Nat, (∀ k, s.known[j]? = some k → ready now k = false) → ∀ k, r.1.known[j]? = some k → ready now k = false) ∧
    (r.2.length = c ∨ ∀ t < n, ∀ k, r.1.known[ahead s.known.length s.cur t]? = some k → ready now k = false) := by
  induction n generalizing c s r with
  | zero => simp only [nextLoop] at h; cases h; exact ⟨rfl, fun _ h => h, .inr (by simp)⟩
  | succ n ih =>
    cases c with
    | zero => simp only [nextLoop] at h; cases h; exact ⟨rfl, fun _ h => h, .inl rfl⟩
    | succ c =>
      simp only [nextLoop, List.getElem?_eq_getElem hcur] at h
      have shiftA : ∀ t, ahead s.known.length s.cur (t + 1) =
          ahead s.known.length (if s.cur + 1 = s.known.length then 0 else s.cur + 1) t ∨ s.known.length ≤ t + 1 := by
        intro t
        simp only [ahead]
        split <;> split <;> split <;> omega
      split at h
      · obtain ⟨r', h1, h2⟩ := bindR h
        cases h2
        have hlen : (advance (dialAt s s.cur s.known[s.cur].addr now opens)).known.length = s.known.length := by
          simp [advance, dialAt]
        have hc' : (advance (dialAt s s.cur s.known[s.cur].addr now opens)).cur < s.known.length := by
          simp only [advance, dialAt, List.length_modify]; split <;> omega
        obtain ⟨g1, g2, g3⟩ := ih (by rw [hlen]; exact hc') (by rw [hlen]; omega) h1
        have hmod : ∀ j : Nat, (∀ k, s.known[j]? = some k → ready now k = false) → ∀ k,
            (advance (dialAt s s.cur s.known[s.cur].addr now opens)).known[j]? = some k → ready now k = false :=
          fun j hj => ready_modify (fun k => by simp [ready]) hj
        refine ⟨by rw [g1, hlen], fun j hj => g2 j (hmod j hj), ?_⟩
        rcases g3 with g3 | g3
        · exact .inl (by simp [g3])
        · right
          intro t ht
          cases t with
          | zero =>
            have : ahead s.known.length s.cur 0 = s.cur := by simp [ahead, hcur]
            rw [this]
            apply g2
            intro k hk
            simp only [advance, dialAt] at hk
            obtain ⟨a, _, h3⟩ := modify_get_inv hk
            rw [if_pos rfl] at h3
            rw [h3]; simp [ready]
          | succ t =>
            rcases shiftA t with hA | hA
            · rw [hA]
              have := g3 t (by omega)
              rw [hlen] at this
              simpa [advance, dialAt] using this
            · omega
      · rename_i hnr
        have hc' : (advance s).cur < (advance s).known.length := by
          simp only [advance]; split <;> omega
        obtain ⟨g1, g2, g3⟩ := ih (s := advance s) hc' (by simp only [advance]; omega) h
        refine ⟨g1, g2, ?_⟩
        rcases g3 with g3 | g3
        · exact .inl g3
        · right
          intro t ht
          cases t with
          | zero =>
            have : ahead s.known.length s.cur 0 = s.cur := by simp [ahead, hcur]
            rw [this]
            apply g2
            intro k hk
            simp only [advance, List.getElem?_eq_getElem hcur] at hk
            cases hk
            simpa using hnr
          | succ t =>
            rcases shiftA t with hA | hA
            · rw [hA]; exact g3 t (by omega)
            · omega

theorem connectNext_fill {s : State} {now max : Nat} {opens : Bool} {r : State × List Out} (hw : Wf s)
    (hc : s.connecting = true) (hrun : s.running = true) (h : connectNext s now max opens = .ok r) :
    max ≤ r.1.act.length ∨ ∀ k ∈ r.1.known, ready now k = false := by
  unfold connectNext at h
  split at h
  · rename_i hx
    cases h
    simp only [hc, hrun, Bool.not_true, Bool.or_false, Bool.false_or, decide_eq_true_eq] at hx
    exact .inl hx
  · rename_i hx
    simp only [hc, hrun, Bool.not_true, Bool.or_false, Bool.false_or, decide_eq_true_eq] at hx
    obtain ⟨g1, g2⟩ := nextLoop_count h
    rcases hw.cur with hcur | ⟨_, hk⟩
    · obtain ⟨f1, _, f3⟩ := nextLoop_fill hcur (Nat.le_refl _) h
      rcases f3 with f3 | f3
      · exact .inl (by omega)
      · right
        intro k hk
        obtain ⟨j, hj⟩ := List.mem_iff_getElem?.mp hk
        have hjl : j < s.known.length := by rw [← f1]; exact (List.getElem?_eq_some_iff.mp hj).1
        have : ∃ t < s.known.length, ahead s.known.length s.cur t = j := by
          by_cases hle : s.cur ≤ j
          · exact ⟨j - s.cur, by omega, by simp only [ahead]; split <;> omega⟩
          · exact ⟨j + s.known.length - s.cur, by omega, by simp only [ahead]; split <;> omega⟩
        obtain ⟨t, ht, he⟩ := this
        exact f3 t ht k (by rw [he]; exact hj)
    · rw [hk] at h
      simp only [List.length_nil, nextLoop] at h
      cases h
      right; rw [hk]; simp

end Verif.Peers
