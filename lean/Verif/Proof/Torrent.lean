import Verif.Model.Torrent

/-! Lemmas about the life of a torrent: what holds of it at all times. -/

namespace Verif.Life

theorem bindOkL {α β} {r : Res α} {f : α → Res β} {b : β} (h : (r >>= f) = .ok b) :
    ∃ a, r = .ok a ∧ f a = .ok b := by
  cases r with
  | ok a => exact ⟨a, rfl, h⟩
  | ub => exact absurd h (by intro h; cases h)
  | diverge => exact absurd h (by intro h; cases h)

/-- The metadata download is going on. -/
def T.fetching (t : T) : Prop := ∃ u, t.utm = some u ∧ u.active = true

theorem mem_eraseIdx_of_ne {α} : ∀ {l : List α} {i : Nat} {x y : α}, x ∈ l → l[i]? = some y → x ≠ y →
    x ∈ l.eraseIdx i
  | a :: l, 0, x, y, hx, hy, hn => by
    simp only [List.getElem?_cons_zero, Option.some.injEq] at hy
    rcases List.mem_cons.1 hx with h | h
    · exact absurd (h.trans hy) hn
    · simpa using h
  | a :: l, i + 1, x, y, hx, hy, hn => by
    simp only [List.getElem?_cons_succ] at hy
    rcases List.mem_cons.1 hx with h | h
    · simp [h]
    · simp [mem_eraseIdx_of_ne h hy hn]
  | [], _, _, _, hx, _, _ => by simp at hx

/-- What holds of a torrent between steps. -/
structure Good (t : T) : Prop where
  a : t.transfer = true → t.started = true
  b : t.checking = true → t.transfer = false
  c : t.fetching → t.transfer = false
  d : ∀ u, t.utm = some u → u.finished = false → t.transfer = false
  e : t.started = true → t.changed = true ∨ t.fetching
  f : t.started = true → t.transfer = false →
    (∃ c ∈ t.checks, c.2 = false) ∨ t.fetching ∨ Task.start ∈ t.posts
  g : t.checking = true → ∃ i, t.cur = some i ∧ (i, false) ∈ t.checks
  h : Task.utmStop ∈ t.posts → ∃ u, t.utm = some u ∧ u.finished = true

/-! ## Stopping -/

theorem filesStop_checking (t : T) : (filesStop t).checking = false := by
  unfold filesStop; split <;> simp_all

theorem filesStop_same (t : T) : (filesStop t).started = t.started ∧ (filesStop t).changed = t.changed ∧
    (filesStop t).utm = t.utm ∧ (filesStop t).posts = t.posts ∧ (filesStop t).transfer = t.transfer ∧
    (filesStop t).named = t.named ∧ (filesStop t).err = t.err ∧ (filesStop t).full = t.full ∧
    (filesStop t).hasInfo = t.hasInfo := by
  unfold filesStop; split <;> simp_all

/-- What `utmStop` leaves. -/
structure Ended (t : T) (t' : T) : Prop where
  started : t'.started = t.started
  utm : t'.utm = t.utm.map fun u => { u with active := false }
  checks : t'.checks = t.checks
  checking : t'.checking = t.checking
  cur : t'.cur = t.cur
  transfer : t'.transfer = t.transfer
  posts : t'.posts = t.posts ∨ t.started = true ∧ t.fetching ∧ t'.posts = t.posts ++ [.start]
  changed : t.changed = true → t'.changed = true

theorem utmStop_ended (t : T) (d : Disk) : Ended t (utmStop t d).1 := by
  unfold utmStop
  rcases hu : t.utm with _ | u
  · exact ⟨rfl, by simp [hu], rfl, rfl, rfl, rfl, .inl rfl, id⟩
  · by_cases ha : u.active = true
    · by_cases hf : u.finished = true
      · by_cases hs : t.started = true
        · simp only [ha, hf, hs, if_true]
          exact ⟨by simp [hs], by simp [hu, hf], rfl, rfl, rfl, rfl, .inr ⟨hs, ⟨u, hu, ha⟩, rfl⟩, fun _ => rfl⟩
        · simp only [ha, hf, hs, if_true]
          exact ⟨by simpa using hs, by simp [hu, hf], rfl, rfl, rfl, rfl, .inl rfl, fun _ => rfl⟩
      · simp only [ha, hf, if_true]
        exact ⟨rfl, by simp [hu, hf], rfl, rfl, rfl, rfl, .inl rfl, id⟩
    · simp only [ha]
      refine ⟨rfl, ?_, rfl, rfl, rfl, rfl, .inl rfl, id⟩
      simp [hu]; cases u; simp_all

theorem utmStop_disk (t : T) (d : Disk) : (utmStop t d).2.state = d.state ∧ (utmStop t d).2.listed = d.listed := by
  unfold utmStop; split <;> (try split) <;> (try split) <;> simp

theorem utmStop_idle {t : T} {d : Disk} (h : ¬ t.fetching) : utmStop t d = (t, d) := by
  unfold utmStop
  rcases hu : t.utm with _ | u
  · rfl
  · by_cases ha : u.active = true
    · exact absurd ⟨u, hu, ha⟩ h
    · simp [ha]

/-- What `stop` leaves. -/
structure Stopped (t t' : T) : Prop where
  started : t'.started = false
  checking : t'.checking = false
  utm : t'.utm = t.utm.map fun u => { u with active := false }
  transfer : t'.transfer = false
  posts : ∀ p ∈ t'.posts, p ∈ t.posts ∨ p = .start
  idle : t.started = false → t'.posts = t.posts

theorem save_same (t : T) (d : Disk) : (save t d).1.started = t.started ∧ (save t d).1.checking = t.checking ∧
    (save t d).1.utm = t.utm ∧ (save t d).1.transfer = t.transfer ∧ (save t d).1.posts = t.posts ∧
    (save t d).1.checks = t.checks ∧ (save t d).1.cur = t.cur ∧ (save t d).1.err = t.err := by
  unfold save; split <;> simp

theorem save_disk (t : T) (d : Disk) : (save t d).2 =
    if t.changed then { d with state := some ⟨t.started, t.named⟩ } else d := by
  unfold save; split <;> simp

/-- `stop` in two cases. -/
theorem stop_cases {r : Reason} {t : T} {d : Disk} {t' : T} {d' : Disk} (h : stop r t d = .ok (t', d')) :
    (t.started = false ∧ (t', d') = save (utmStop (filesStop t) d).1 (utmStop (filesStop t) d).2) ∨
    (t.started = true ∧ ∃ t2, waitPool r { (utmStop (filesStop t) d).1 with transfer := false } = .ok t2 ∧
      (t', d') = stopTail r t2 (utmStop (filesStop t) d).2) := by
  have e : (utmStop (filesStop t) d).1.started = t.started := by
    rw [(utmStop_ended _ _).started, (filesStop_same t).1]
  unfold stop at h
  simp only at h
  generalize utmStop (filesStop t) d = q at h e ⊢
  obtain ⟨t1, d1⟩ := q
  simp only at h e ⊢
  cases hs : t1.started with
  | false =>
    simp only [hs, Bool.not_false, if_true, Res.ok.injEq] at h
    exact .inl ⟨by rw [← e, hs], h.symm⟩
  | true =>
    rw [hs] at h
    simp only [Bool.not_true, Bool.false_eq_true, if_false] at h
    obtain ⟨t2, h2, h⟩ := bindOkL h
    simp only [Res.ok.injEq] at h
    exact .inr ⟨by rw [← e, hs], t2, h2, h.symm⟩

theorem waitPool_ok {r : Reason} {t t2 : T} (h : waitPool r t = .ok t2) :
    (r = .internal ∧ t2 = t) ∨
    (r ≠ .internal ∧ Task.start ∉ t.posts ∧ (∀ c ∈ t.checks, c.2 = true) ∧
      t2 = { t with posts := [], checks := [], checking := false, cur := none }) := by
  unfold waitPool at h
  split at h
  next hr => cases h; exact .inl ⟨hr, rfl⟩
  next hr =>
    unfold join at h
    split at h
    · cases h
    next hc =>
      cases h
      simp only [Bool.or_eq_true, List.contains_iff_mem, List.any_eq_true, not_or, not_exists, not_and,
        Bool.not_eq_true', Bool.not_eq_false] at hc
      exact .inr ⟨hr, hc.1, hc.2, rfl⟩

theorem stopTail_same (r : Reason) (t : T) (d : Disk) : (stopTail r t d).1.started = false ∧
    (stopTail r t d).1.checking = t.checking ∧ (stopTail r t d).1.utm = t.utm ∧
    (stopTail r t d).1.transfer = t.transfer ∧ (stopTail r t d).1.posts = t.posts ∧
    (stopTail r t d).1.checks = t.checks ∧ (stopTail r t d).1.cur = t.cur := by
  unfold stopTail save; cases r <;> simp <;> split <;> simp

theorem stop_stopped {r : Reason} {t : T} {d : Disk} {t' : T} {d' : Disk} (h : stop r t d = .ok (t', d'))
    (ha : t.transfer = true → t.started = true) : Stopped t t' := by
  have hfs := filesStop_same t
  have hu := utmStop_ended (filesStop t) d
  rcases stop_cases h with ⟨hst, e⟩ | ⟨hst, t2, h2, e⟩
  · have hsv := save_same (utmStop (filesStop t) d).1 (utmStop (filesStop t) d).2
    rw [← e] at hsv
    generalize (utmStop (filesStop t) d).1 = t1 at hu hsv
    have hpo : t1.posts = t.posts := by
      rcases hu.posts with e | ⟨hs', _, _⟩
      · rw [e, hfs.2.2.2.1]
      · rw [hfs.1, hst] at hs'; cases hs'
    refine ⟨?_, ?_, ?_, ?_, ?_, ?_⟩
    · rw [hsv.1, hu.started, hfs.1, hst]
    · rw [hsv.2.1, hu.checking, filesStop_checking]
    · rw [hsv.2.2.1, hu.utm, hfs.2.2.1]
    · rw [hsv.2.2.2.1, hu.transfer, hfs.2.2.2.2.1]
      cases ht : t.transfer with
      | false => rfl
      | true => have := ha ht; rw [hst] at this; cases this
    · intro p hp; rw [hsv.2.2.2.2.1, hpo] at hp; exact .inl hp
    · intro _; rw [hsv.2.2.2.2.1, hpo]
  · have hsv := stopTail_same r t2 (utmStop (filesStop t) d).2
    rw [← e] at hsv
    generalize (utmStop (filesStop t) d).1 = t1 at hu h2
    have k : t2.checking = false ∧ t2.utm = t1.utm ∧ t2.transfer = false ∧ (∀ p ∈ t2.posts, p ∈ t1.posts) := by
      rcases waitPool_ok h2 with ⟨_, rfl⟩ | ⟨_, _, _, rfl⟩
      · exact ⟨by simp [hu.checking, filesStop_checking], rfl, rfl, fun p hp => hp⟩
      · exact ⟨rfl, rfl, rfl, fun p hp => by simp at hp⟩
    refine ⟨hsv.1, ?_, ?_, ?_, ?_, ?_⟩
    · rw [hsv.2.1, k.1]
    · rw [hsv.2.2.1, k.2.1, hu.utm, hfs.2.2.1]
    · rw [hsv.2.2.2.1, k.2.2.1]
    · intro p hp
      rw [hsv.2.2.2.2.1] at hp
      have := k.2.2.2 p hp
      rcases hu.posts with e | ⟨_, _, e⟩ <;> rw [e, hfs.2.2.2.1] at this
      · exact .inl this
      · simpa using this
    · intro hn; rw [hst] at hn; cases hn

theorem Stopped.notFetching {t t' : T} (h : Stopped t t') : ¬ t'.fetching := by
  rintro ⟨u, hu, ha⟩
  rw [h.utm] at hu
  rcases hv : t.utm with _ | v
  · simp [hv] at hu
  · simp only [hv, Option.map_some, Option.some.injEq] at hu; rw [← hu] at ha; cases ha

theorem Stopped.good {t t' : T} (h : Stopped t t')
    (hh : Task.utmStop ∈ t.posts → ∃ u, t.utm = some u ∧ u.finished = true) : Good t' := by
  refine ⟨fun k => ?_, fun k => h.transfer, fun k => h.transfer, fun _ _ _ => h.transfer, fun k => ?_,
    fun k => ?_, fun k => ?_, fun k => ?_⟩
  · rw [h.transfer] at k; cases k
  · rw [h.started] at k; cases k
  · rw [h.started] at k; cases k
  · rw [h.checking] at k; cases k
  · rcases h.posts _ k with k | k
    · obtain ⟨u, hu, hf⟩ := hh k
      exact ⟨{ u with active := false }, by rw [h.utm, hu]; rfl, hf⟩
    · cases k

theorem stop_good {r : Reason} {t : T} {d : Disk} {t' : T} {d' : Disk} (h : stop r t d = .ok (t', d'))
    (ha : t.transfer = true → t.started = true)
    (hh : Task.utmStop ∈ t.posts → ∃ u, t.utm = some u ∧ u.finished = true) : Good t' :=
  (stop_stopped h ha).good hh

/-! ## Starting -/

theorem loadInfo_same (t : T) (d : Disk) : (loadInfo t d).2.started = t.started ∧
    (loadInfo t d).2.changed = t.changed ∧ (loadInfo t d).2.utm = t.utm ∧
    (loadInfo t d).2.checking = t.checking ∧ (loadInfo t d).2.cur = t.cur ∧
    (loadInfo t d).2.checks = t.checks ∧ (loadInfo t d).2.transfer = t.transfer ∧
    (loadInfo t d).2.posts = t.posts := by
  unfold loadInfo; split <;> (try split) <;> (try split) <;> simp

theorem Good.of_same {t t' : T} (g : Good t) (hs : t'.started = t.started) (hc : t'.changed = t.changed)
    (hu : t'.utm = t.utm) (hk : t'.checking = t.checking) (hr : t'.cur = t.cur) (hl : t'.checks = t.checks)
    (ht : t'.transfer = t.transfer) (hp : t'.posts = t.posts) : Good t' := by
  obtain ⟨a, b, c, d, e, f, g, h⟩ := g
  have hf : t'.fetching ↔ t.fetching := by unfold T.fetching; rw [hu]
  exact ⟨by rw [ht, hs]; exact a, by rw [hk, ht]; exact b, by rw [ht, hf]; exact c, by rw [hu, ht]; exact d,
    by rw [hs, hc, hf]; exact e, by rw [hs, ht, hl, hf, hp]; exact f, by rw [hk, hr, hl]; exact g,
    by rw [hp, hu]; exact h⟩

/-- `Good` without the promise that a started torrent works or will work. -/
structure Base (t : T) : Prop where
  a : t.transfer = true → t.started = true
  b : t.checking = true → t.transfer = false
  c : t.fetching → t.transfer = false
  d : ∀ u, t.utm = some u → u.finished = false → t.transfer = false
  e : t.started = true → t.changed = true ∨ t.fetching
  g : t.checking = true → ∃ i, t.cur = some i ∧ (i, false) ∈ t.checks
  h : Task.utmStop ∈ t.posts → ∃ u, t.utm = some u ∧ u.finished = true

theorem Good.base {t : T} (g : Good t) : Base t := ⟨g.a, g.b, g.c, g.d, g.e, g.g, g.h⟩

theorem Base.of_same {t t' : T} (g : Base t) (hs : t'.started = t.started) (hc : t'.changed = t.changed)
    (hu : t'.utm = t.utm) (hk : t'.checking = t.checking) (hr : t'.cur = t.cur) (hl : t'.checks = t.checks)
    (ht : t'.transfer = t.transfer) (hp : t'.posts = t.posts) : Base t' := by
  obtain ⟨a, b, c, d, e, g, h⟩ := g
  have hf : t'.fetching ↔ t.fetching := by unfold T.fetching; rw [hu]
  exact ⟨by rw [ht, hs]; exact a, by rw [hk, ht]; exact b, by rw [ht, hf]; exact c, by rw [hu, ht]; exact d,
    by rw [hs, hc, hf]; exact e, by rw [hk, hr, hl]; exact g, by rw [hp, hu]; exact h⟩

theorem loadInfo_good {t : T} (d : Disk) (g : Good t) : Good (loadInfo t d).2 := by
  obtain ⟨h1, h2, h3, h4, h5, h6, h7, h8⟩ := loadInfo_same t d
  exact g.of_same h1 h2 h3 h4 h5 h6 h7 h8

theorem loadInfo_base {t : T} (d : Disk) (g : Base t) : Base (loadInfo t d).2 := by
  obtain ⟨h1, h2, h3, h4, h5, h6, h7, h8⟩ := loadInfo_same t d
  exact g.of_same h1 h2 h3 h4 h5 h6 h7 h8

theorem beginCheck_good {t : T} (g : Good t) : Good (beginCheck t) := by
  unfold beginCheck
  split
  · exact g
  · refine ⟨fun k => (by cases k), fun _ => rfl, fun _ => rfl, fun _ _ _ => rfl, g.e, fun _ _ => .inl ?_,
      fun _ => ⟨t.next, rfl, by simp⟩, g.h⟩
    exact ⟨(t.next, false), by simp, rfl⟩

theorem beginCheck_base {t : T} (g : Base t) : Base (beginCheck t) := by
  unfold beginCheck
  split
  · exact g
  · exact ⟨fun k => (by cases k), fun _ => rfl, fun _ => rfl, fun _ _ _ => rfl, g.e,
      fun _ => ⟨t.next, rfl, by simp⟩, g.h⟩

theorem filesStart_base {t : T} (env : Env) (g : Base t) : Base (filesStart env t) := by
  unfold filesStart
  split
  · exact g.of_same rfl rfl rfl rfl rfl rfl rfl rfl
  · cases env
    · exact g.of_same rfl rfl rfl rfl rfl rfl rfl rfl
    · exact (beginCheck_base g).of_same rfl rfl rfl rfl rfl rfl rfl rfl
    · exact g.of_same rfl rfl rfl rfl rfl rfl rfl rfl

theorem startFiles_good {env : Env} {t : T} {d : Disk} {b : Bool} {t' : T} {d' : Disk}
    (h : startFiles env t d = .ok (b, t', d')) (g : Base t) (hm : t.fetching → t.checking = true)
    (hn : ∀ u, t.utm = some u → u.finished = true) : Good t' := by
  unfold startFiles at h
  have hl := loadInfo_same t d
  have gl := loadInfo_base d g
  generalize loadInfo t d = q at h hl gl
  obtain ⟨ok, t1⟩ := q
  simp only at h hl gl
  have k : Base (if ok = true then filesStart env t1 else t1) ∧
      (if ok = true then filesStart env t1 else t1).utm = t.utm ∧
      (t.checking = true → (if ok = true then filesStart env t1 else t1).checking = true) := by
    split
    · refine ⟨filesStart_base env gl, ?_, ?_⟩
      · unfold filesStart beginCheck; split <;> (try split) <;> (try split) <;> simp [hl]
      · intro hc; unfold filesStart; simp [hl, hc]
    · exact ⟨gl, hl.2.2.1, fun hc => by rw [hl.2.2.2.1]; exact hc⟩
  generalize (if ok = true then filesStart env t1 else t1) = t2 at h k
  obtain ⟨g2, hu2, hk2⟩ := k
  split at h
  · obtain ⟨⟨t3, d3⟩, h3, h⟩ := bindOkL h
    cases h
    exact stop_good h3 g2.a g2.h
  · cases h
    refine ⟨fun _ => rfl, ?_, ?_, ?_, fun _ => .inl rfl, ?_, g2.g, g2.h⟩
    · intro hk
      have hk : t2.checking = true := hk
      simp [g2.b hk, hk]
    · rintro ⟨u, hu, ha⟩
      have hk := hk2 (hm ⟨u, by rw [← hu2]; exact hu, ha⟩)
      simp [g2.b hk, hk]
    · intro u hu hf
      have := hn u (by rw [← hu2]; exact hu)
      rw [hf] at this; cases this
    · intro _ ht
      simp only [Bool.or_eq_false_iff, Bool.not_eq_false'] at ht
      obtain ⟨i, hi, hm⟩ := g2.g ht.2
      exact .inl ⟨_, hm, rfl⟩

theorem state_metadata {t : T} : t.state = .metadata ↔ t.checking = false ∧ t.fetching := by
  unfold T.state T.fetching
  rcases hc : t.checking with _ | _
  · rcases hu : t.utm with _ | u
    · simp; split <;> simp
    · rcases ha : u.active with _ | _ <;> simp [ha]
      split <;> simp
  · simp

theorem start_good {env : Env} {t : T} {d : Disk} {b : Bool} {t' : T} {d' : Disk}
    (h : start env t d = .ok (b, t', d')) (g : Base t) : Good t' := by
  unfold start at h
  split at h
  next hm =>
    cases h
    obtain ⟨hc, u, hu, ha⟩ := state_metadata.1 hm
    exact ⟨fun _ => rfl, g.b, g.c, g.d, fun _ => .inr ⟨u, hu, ha⟩, fun _ _ => .inr (.inl ⟨u, hu, ha⟩), g.g, g.h⟩
  next hm =>
    have hm : t.fetching → t.checking = true := by
      intro hf
      rcases hc : t.checking with _ | _
      · exact absurd (state_metadata.2 ⟨hc, hf⟩) hm
      · rfl
    rcases hu : t.utm with _ | u
    · rw [hu] at h
      exact startFiles_good h g hm (by rw [hu]; simp)
    · rw [hu] at h
      simp only at h
      split at h
      next hf => exact startFiles_good h g hm (by rw [hu]; simpa using hf)
      next hf =>
        cases h
        have hf : u.finished = false := by simpa using hf
        have htr := g.d u hu hf
        refine ⟨g.a, g.b, fun _ => htr, fun _ _ _ => htr, fun _ => .inr ⟨_, rfl, rfl⟩,
          fun _ _ => .inr (.inl ⟨_, rfl, rfl⟩), g.g, ?_⟩
        intro hp
        obtain ⟨v, hv, hvf⟩ := g.h hp
        rw [hu] at hv; cases hv
        exact absurd hvf (by simp [hf])

/-! ## Handlers -/

theorem checkDone_good {i : Nat} {env : Env} {t : T} {d : Disk} {t' : T} {d' : Disk}
    (h : checkDone i env t d = .ok (t', d')) (g : Good t) : Good t' := by
  unfold checkDone at h
  split at h
  · cases h; exact g
  next c hc =>
    simp only at h
    split at h
    next hr =>
      cases h
      refine ⟨g.a, fun k => (by cases k), g.c, g.d, g.e, ?_, fun k => (by cases k), g.h⟩
      intro hs ht
      rcases g.f hs ht with ⟨c', hc', hf⟩ | k
      · exact .inl ⟨c', mem_eraseIdx_of_ne hc' hc (by rintro rfl; rw [hr] at hf; cases hf), hf⟩
      · exact .inr k
    next hr =>
      split at h
      next hs =>
        obtain ⟨⟨b, t3, d3⟩, h3, h⟩ := bindOkL h
        cases h
        exact start_good h3 ⟨g.a, fun k => (by cases k), g.c, g.d, fun _ => .inl rfl, fun k => (by cases k), g.h⟩
      next hs => exact stop_good h g.a g.h

end Verif.Life
