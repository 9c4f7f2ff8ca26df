import Verif.Proof.Torrent
import Verif.Spec.Torrent

/-! The invariants of the torrent's life carried through steps and runs. -/

namespace Verif.Life

open Verif.Spec.Life

theorem utmStop_good {t : T} {d : Disk} (g : Good t)
    (hn : ∀ u, t.utm = some u → u.active = true → u.finished = true) : Good (utmStop t d).1 := by
  by_cases hf : t.fetching
  · obtain ⟨u, hu, ha⟩ := hf
    have hfin := hn u hu ha
    have htr := g.c ⟨u, hu, ha⟩
    simp only [utmStop, hu, ha, hfin, if_true]
    refine ⟨g.a, g.b, fun _ => htr, fun _ _ _ => htr, fun _ => .inl rfl, ?_, g.g, ?_⟩
    · intro hs _
      have hs : t.started = true := hs
      simp [hs]
    · intro _
      exact ⟨_, rfl, rfl⟩
  · rw [utmStop_idle hf]; exact g

theorem runPost_good {i : Nat} {env : Env} {t : T} {d : Disk} {t' : T} {d' : Disk}
    (h : runPost i env t d = .ok (t', d')) (g : Good t) : Good t' := by
  unfold runPost at h
  split at h
  · cases h; exact g
  next p hp =>
    simp only at h
    have hsub : ∀ q ∈ t.posts.eraseIdx i, q ∈ t.posts := fun q hq => List.mem_of_mem_eraseIdx hq
    cases p with
    | start =>
      simp only at h
      obtain ⟨⟨b, t3, d3⟩, h3, h⟩ := bindOkL h
      cases h
      exact start_good h3 ⟨g.a, g.b, g.c, g.d, g.e, g.g, fun hq => g.h (hsub _ hq)⟩
    | stopErr =>
      simp only at h
      exact stop_good h g.a fun hq => g.h (hsub _ hq)
    | utmStop =>
      simp only [Res.ok.injEq] at h
      have hm : Task.utmStop ∈ t.posts := List.mem_of_getElem? hp
      have : t' = (utmStop { t with posts := t.posts.eraseIdx i } d).1 := by rw [h]
      rw [this]
      refine utmStop_good ⟨g.a, g.b, g.c, g.d, g.e, ?_, g.g, fun hq => g.h (hsub _ hq)⟩ ?_
      · intro hs ht
        rcases g.f hs ht with k | k | k
        · exact .inl k
        · exact .inr (.inl k)
        · exact .inr (.inr (mem_eraseIdx_of_ne k hp (by intro h; cases h)))
      · intro u hu _
        obtain ⟨v, hv, hvf⟩ := g.h hm
        have hu : t.utm = some u := hu
        rw [hu] at hv; cases hv; exact hvf

theorem fresh_base (n c f h : Bool) (er : Bool) :
    Base { named := n, changed := c, full := f, hasInfo := h, err := er } :=
  ⟨fun k => (by cases k), fun k => (by cases k), fun _ => rfl, fun _ _ _ => rfl, fun k => (by cases k),
    fun k => (by cases k), fun k => (by cases k)⟩

theorem fresh_good (n c f h : Bool) (er : Bool) :
    Good { named := n, changed := c, full := f, hasInfo := h, err := er } :=
  ⟨fun k => (by cases k), fun k => (by cases k), fun _ => rfl, fun _ _ _ => rfl, fun k => (by cases k),
    fun k => (by cases k), fun k => (by cases k), fun k => (by cases k)⟩

theorem loadInfo_fresh (n : Bool) (d : Disk) : ∃ n' f h er,
    (loadInfo { named := n } d).2 = { named := n', full := f, hasInfo := h, err := er } := by
  unfold loadInfo
  simp only [Bool.false_eq_true, if_false, Option.isSome_none]
  split
  · exact ⟨_, _, _, _, rfl⟩
  · exact ⟨_, _, _, _, rfl⟩

/-- A torrent as it comes from the disk, before it is started. -/
def fresh (n c f h er : Bool) : T := { named := n, changed := c, full := f, hasInfo := h, err := er }

theorem launch_cases {env : Env} {d : Disk} {ot : Option T} {d' : Disk} (h : launch env d = .ok (ot, d')) :
    (ot = none ∧ d' = d) ∨ ∃ sv n c f hi er, d.state = some sv ∧
      ((sv.started = false ∧ ot = some (fresh n c f hi er) ∧ d' = d) ∨
       (sv.started = true ∧ ∃ b t, start env (fresh n c f hi er) d = .ok (b, t, d') ∧ ot = some t)) := by
  unfold launch at h
  split at h
  · cases h; exact .inl ⟨rfl, rfl⟩
  · split at h
    · cases h; exact .inl ⟨rfl, rfl⟩
    next sv hsv =>
      simp only at h
      have hq : ∃ n c f h er, (if sv.named = true then (true, ({ named := sv.named } : T)) else
          ((loadInfo { named := sv.named } d).1, { (loadInfo { named := sv.named } d).2 with changed := true })).2 =
            fresh n c f h er := by
        split
        · exact ⟨_, _, _, _, _, rfl⟩
        · obtain ⟨n', f, h, er, e⟩ := loadInfo_fresh sv.named d
          rw [e]
          exact ⟨n', true, f, h, er, rfl⟩
      generalize (if sv.named = true then (true, ({ named := sv.named } : T)) else
          ((loadInfo { named := sv.named } d).1, { (loadInfo { named := sv.named } d).2 with changed := true })) = q at h hq
      obtain ⟨ok, t1⟩ := q
      obtain ⟨n, c, f, hh, er, e⟩ := hq
      simp only at h e
      split at h
      · cases h; exact .inl ⟨rfl, rfl⟩
      · rw [e] at h
        split at h
        next hs =>
          obtain ⟨⟨b, t3, d3⟩, h3, h⟩ := bindOkL h
          cases h
          exact .inr ⟨sv, n, c, f, hh, er, hsv, .inr ⟨hs, b, t3, h3, rfl⟩⟩
        next hs =>
          cases h
          exact .inr ⟨sv, n, c, f, hh, er, hsv, .inl ⟨by simpa using hs, rfl, rfl⟩⟩

theorem launch_good {env : Env} {d : Disk} {t : T} {d' : Disk} (h : launch env d = .ok (some t, d')) :
    Good t := by
  rcases launch_cases h with ⟨h, _⟩ | ⟨sv, n, c, f, hi, er, _, ⟨_, h, _⟩ | ⟨_, b, t', h, e⟩⟩
  · cases h
  · cases h; exact fresh_good _ _ _ _ _
  · cases e; exact start_good h (fresh_base _ _ _ _ _)

/-- The torrent, if loaded, is good. -/
def SysGood (s : Sys) : Prop := ∀ t, s.tor = some t → Good t

theorem SysGood.of {u : Bool} {t : T} {d : Disk} (g : Good t) : SysGood ⟨u, some t, d⟩ := by
  intro t' h; cases h; exact g

theorem step_good {s : Sys} {e : Ev} {s' : Sys} {o : Option Bool} (h : step s e = .ok (s', o))
    (g : SysGood s) : SysGood s' := by
  obtain ⟨up, tor, disk⟩ := s
  unfold step at h
  rcases tor with _ | t
  · cases e <;> simp only at h
    case addFile n =>
      split at h <;> cases h
      · exact SysGood.of (fresh_good _ _ _ _ _)
      · exact g
    case addMagnet n =>
      split at h <;> cases h
      · exact SysGood.of ⟨fun k => (by cases k), fun k => (by cases k), fun _ => rfl, fun _ _ _ => rfl,
          fun k => (by cases k), fun k => (by cases k), fun k => (by cases k), fun k => (by cases k)⟩
      · exact g
    case launch env =>
      split at h
      · cases h; exact g
      · obtain ⟨⟨t3, d3⟩, h3, h⟩ := bindOkL h
        cases h
        intro t' ht'
        cases ht'
        exact launch_good h3
    case quit => split at h <;> cases h <;> (intro t ht; cases ht)
    all_goals (cases h; intro t ht; cases ht)
  · have gt := g t rfl
    cases e <;> simp only at h
    case start env =>
      obtain ⟨⟨b, t3, d3⟩, h3, h⟩ := bindOkL h
      cases h
      exact SysGood.of (start_good h3 gt.base)
    case stop =>
      obtain ⟨⟨t3, d3⟩, h3, h⟩ := bindOkL h
      cases h
      exact SysGood.of (stop_good h3 gt.a gt.h)
    case check => cases h; exact SysGood.of (beginCheck_good gt)
    case checkDone i env =>
      obtain ⟨⟨t3, d3⟩, h3, h⟩ := bindOkL h
      cases h
      exact SysGood.of (checkDone_good h3 gt)
    case metaDone n =>
      rcases hu : t.utm with _ | u
      · rw [hu] at h; cases h; exact g
      · simp only [hu] at h
        split at h
        next hc =>
          cases h
          simp only [Bool.and_eq_true, Bool.not_eq_true'] at hc
          have htr := gt.c ⟨u, hu, hc.1⟩
          refine SysGood.of ⟨gt.a, gt.b, fun _ => htr, fun _ _ _ => htr, ?_, ?_, gt.g, fun _ => ⟨_, rfl, rfl⟩⟩
          · intro _; exact .inr ⟨_, rfl, hc.1⟩
          · intro _ _; exact .inr (.inl ⟨_, rfl, hc.1⟩)
        next hc => cases h; exact g
    case post i env =>
      obtain ⟨⟨t3, d3⟩, h3, h⟩ := bindOkL h
      cases h
      exact SysGood.of (runPost_good h3 gt)
    case fail =>
      split at h <;> cases h
      · refine SysGood.of ⟨gt.a, gt.b, gt.c, gt.d, gt.e, ?_, gt.g, ?_⟩
        · intro hs ht
          rcases gt.f hs ht with k | k | k
          · exact .inl k
          · exact .inr (.inl k)
          · exact .inr (.inr (by simp [k]))
        · intro hp; exact gt.h (by simpa using hp)
      · exact g
    case select ok =>
      split at h
      · obtain ⟨⟨t3, d3⟩, h3, h⟩ := bindOkL h
        cases h
        exact SysGood.of (stop_good h3 gt.a gt.h)
      · cases h
        exact SysGood.of ⟨gt.a, gt.b, gt.c, gt.d, fun _ => .inl rfl, gt.f, gt.g, gt.h⟩
    case touch => cases h; exact SysGood.of (loadInfo_good _ gt)
    case quit =>
      obtain ⟨⟨t3, d3⟩, h3, h⟩ := bindOkL h
      obtain ⟨_, _, h⟩ := bindOkL h
      cases h
      intro t ht; cases ht
    case remove =>
      obtain ⟨⟨t3, d3⟩, h3, h⟩ := bindOkL h
      obtain ⟨_, _, h⟩ := bindOkL h
      cases h
      intro t ht; cases ht
    case crash => cases h; intro t ht; cases ht
    case loseFile => cases h; exact SysGood.of gt
    all_goals (cases h; exact g)

theorem run_append (s : Sys) (a b : List Ev) : run s (a ++ b) = (run s a >>= fun s => run s b) := by
  induction a generalizing s with
  | nil => rfl
  | cons e a ih =>
    simp only [run, List.cons_append]
    rcases step s e with ⟨s', o⟩ | _ | _
    · exact ih s'
    · rfl
    · rfl

theorem run_inv {P : Sys → Prop} (hP : ∀ s e s' o, step s e = .ok (s', o) → P s → P s') :
    ∀ {evs : List Ev} {s s' : Sys}, run s evs = .ok s' → P s → P s'
  | [], s, s', h, p => by cases h; exact p
  | e :: evs, s, s', h, p => by
    obtain ⟨⟨s1, o⟩, h1, h⟩ := bindOkL h
    exact run_inv hP h (hP _ _ _ _ h1 p)

theorem run_good {evs : List Ev} {s : Sys} (h : run {} evs = .ok s) : SysGood s :=
  run_inv (fun _ _ _ _ => step_good) h (by intro t ht; cases ht)

theorem run_inv_of {P : Sys → Prop} {Q : Ev → Prop}
    (hP : ∀ s e s' o, Q e → step s e = .ok (s', o) → P s → P s') :
    ∀ {evs : List Ev} {s s' : Sys}, (∀ e ∈ evs, Q e) → run s evs = .ok s' → P s → P s'
  | [], s, s', _, h, p => by cases h; exact p
  | e :: evs, s, s', q, h, p => by
    obtain ⟨⟨s1, o⟩, h1, h⟩ := bindOkL h
    exact run_inv_of hP (fun x hx => q x (by simp [hx])) h (hP _ _ _ _ (q e (by simp)) h1 p)

/-! ## Staying stopped -/

/-- The disk does not say that the torrent runs. -/
def Disk.still (d : Disk) : Prop := ∀ sv, d.state = some sv → sv.started = false

/-- Not started, no start waiting, and nothing on the disk says otherwise. -/
structure Still (t : T) (d : Disk) : Prop where
  s : t.started = false
  p : Task.start ∉ t.posts
  d : d.still

theorem save_still {t : T} {d : Disk} (hs : t.started = false) (hd : d.still ∨ t.changed = true) :
    (save t d).2.still := by
  unfold save
  split
  · intro sv h; cases h; exact hs
  next hc => exact hd.resolve_right hc

theorem stop_still {r : Reason} {t : T} {d : Disk} {t' : T} {d' : Disk} (h : stop r t d = .ok (t', d'))
    (hs : t.started = false) (hp : Task.start ∉ t.posts) (hd : d.still ∨ t.changed = true) : Still t' d' := by
  have hfs := filesStop_same t
  have hu := utmStop_ended (filesStop t) d
  have hud := utmStop_disk (filesStop t) d
  rcases stop_cases h with ⟨_, e⟩ | ⟨h', _⟩
  · have hsv := save_same (utmStop (filesStop t) d).1 (utmStop (filesStop t) d).2
    rw [← e] at hsv
    have hs1 : (utmStop (filesStop t) d).1.started = false := by rw [hu.started, hfs.1, hs]
    refine ⟨by rw [hsv.1, hs1], ?_, ?_⟩
    · rw [hsv.2.2.2.2.1]
      rcases hu.posts with e | ⟨k, _⟩
      · rw [e, hfs.2.2.2.1]; exact hp
      · rw [hfs.1, hs] at k; cases k
    · have := save_still (t := (utmStop (filesStop t) d).1) (d := (utmStop (filesStop t) d).2) hs1 (by
        rcases hd with hd | hd
        · left; intro sv hv; rw [hud.1] at hv; exact hd sv hv
        · right; exact hu.changed (by rw [hfs.2.1]; exact hd))
      rw [← e] at this; exact this
  · rw [hs] at h'; cases h'

/-- A manual stop of a torrent that runs. -/
theorem stop_manual_still {t : T} {d : Disk} {t' : T} {d' : Disk} (h : stop .manual t d = .ok (t', d'))
    (hs : t.started = true) (hc : t.changed = true) : Still t' d' := by
  have hfs := filesStop_same t
  have hu := utmStop_ended (filesStop t) d
  rcases stop_cases h with ⟨h', _⟩ | ⟨_, t2, h2, e⟩
  · rw [hs] at h'; cases h'
  · rcases waitPool_ok h2 with ⟨k, _⟩ | ⟨_, _, _, rfl⟩
    · cases k
    · have hsv := stopTail_same .manual { (utmStop (filesStop t) d).1 with transfer := false, posts := [], checks := [], checking := false, cur := none } (utmStop (filesStop t) d).2
      have hcc : (utmStop (filesStop t) d).1.changed = true := hu.changed (by rw [hfs.2.1]; exact hc)
      refine ⟨?_, ?_, ?_⟩
      · have := hsv.1; rw [← e] at this; exact this
      · have := hsv.2.2.2.2.1; rw [← e] at this; rw [this]; simp
      · have : d' = (stopTail .manual { (utmStop (filesStop t) d).1 with transfer := false, posts := [], checks := [], checking := false, cur := none } (utmStop (filesStop t) d).2).2 := by rw [← e]
        rw [this]
        unfold stopTail save
        simp only [if_true, hcc]
        intro sv hv; cases hv; rfl

/-- Not loaded, or still; and the disk says nothing else. -/
def SysStill (s : Sys) : Prop := s.disk.still ∧ ∀ t, s.tor = some t → Still t s.disk

theorem SysStill.of {u : Bool} {t : T} {d : Disk} (h : Still t d) : SysStill ⟨u, some t, d⟩ :=
  ⟨h.d, by intro t' ht; cases ht; exact h⟩

theorem step_still {s : Sys} {e : Ev} {s' : Sys} {o : Option Bool} (he : ∀ env, e ≠ .start env)
    (h : step s e = .ok (s', o)) (g : SysStill s) : SysStill s' := by
  obtain ⟨up, tor, disk⟩ := s
  unfold step at h
  have gd : disk.still := g.1
  rcases tor with _ | t
  · cases e <;> simp only at h
    case addFile n =>
      split at h <;> cases h
      · exact SysStill.of ⟨rfl, by simp, gd⟩
      · exact g
    case addMagnet n =>
      split at h <;> cases h
      · exact SysStill.of ⟨rfl, by simp, gd⟩
      · exact g
    case launch env =>
      split at h
      · cases h; exact g
      · obtain ⟨⟨t3, d3⟩, h3, h⟩ := bindOkL h
        cases h
        rcases launch_cases h3 with ⟨rfl, rfl⟩ | ⟨sv, n, c, f, hi, er, hsv, ⟨_, rfl, rfl⟩ | ⟨hst, _⟩⟩
        · exact ⟨gd, by intro t ht; cases ht⟩
        · exact SysStill.of ⟨rfl, by simp [fresh], gd⟩
        · rw [gd sv hsv] at hst; cases hst
    case quit => split at h <;> cases h <;> exact ⟨gd, by intro t ht; cases ht⟩
    case start env => exact absurd rfl (he env)
    all_goals (cases h; exact ⟨gd, by intro t ht; cases ht⟩)
  · have gt := g.2 t rfl
    obtain ⟨gs, gp, _⟩ := gt
    cases e <;> simp only at h
    case start env => exact absurd rfl (he env)
    case stop =>
      obtain ⟨⟨t3, d3⟩, h3, h⟩ := bindOkL h
      cases h
      exact SysStill.of (stop_still h3 gs gp (.inl gd))
    case check =>
      cases h
      refine SysStill.of ⟨?_, ?_, gd⟩ <;> unfold beginCheck <;> split <;> assumption
    case checkDone i env =>
      obtain ⟨⟨t3, d3⟩, h3, h⟩ := bindOkL h
      cases h
      unfold checkDone at h3
      split at h3
      · cases h3; exact SysStill.of ⟨gs, gp, gd⟩
      · simp only at h3
        split at h3
        · cases h3; exact SysStill.of ⟨gs, gp, gd⟩
        · rw [gs] at h3
          simp only [Bool.false_eq_true, if_false] at h3
          exact SysStill.of (stop_still h3 rfl gp (.inl gd))
    case metaDone n =>
      split at h
      · split at h <;> cases h
        · exact SysStill.of ⟨gs, by simpa using gp, gd⟩
        · exact g
      · cases h; exact g
    case post i env =>
      obtain ⟨⟨t3, d3⟩, h3, h⟩ := bindOkL h
      cases h
      unfold runPost at h3
      split at h3
      · cases h3; exact g
      next p hp =>
        have gp' : Task.start ∉ t.posts.eraseIdx i := fun hq => gp (List.mem_of_mem_eraseIdx hq)
        cases p with
        | start => exact absurd (List.mem_of_getElem? hp) gp
        | stopErr => exact SysStill.of (stop_still h3 gs gp' (.inl gd))
        | utmStop =>
          simp only [Res.ok.injEq] at h3
          have hu := utmStop_ended { t with posts := t.posts.eraseIdx i } disk
          have hud := utmStop_disk { t with posts := t.posts.eraseIdx i } disk
          rw [h3] at hu hud
          refine SysStill.of ⟨hu.started.trans gs, ?_, ?_⟩
          · rcases hu.posts with e | ⟨k, _⟩
            · rw [e]; exact gp'
            · have k : t.started = true := k
              rw [gs] at k; cases k
          · intro sv hv; rw [hud.1] at hv; exact gd sv hv
    case fail =>
      split at h <;> cases h
      · exact SysStill.of ⟨gs, by simpa using gp, gd⟩
      · exact g
    case select ok =>
      rw [gs] at h
      simp only [Bool.false_and, Bool.false_eq_true, if_false] at h
      cases h
      exact SysStill.of ⟨rfl, gp, gd⟩
    case touch =>
      cases h
      have hl := loadInfo_same t disk
      exact SysStill.of ⟨by rw [hl.1]; exact gs, by rw [hl.2.2.2.2.2.2.2]; exact gp, gd⟩
    case quit =>
      obtain ⟨⟨t3, d3⟩, h3, h⟩ := bindOkL h
      obtain ⟨_, _, h⟩ := bindOkL h
      cases h
      exact ⟨(stop_still h3 gs gp (.inl gd)).d, by intro t ht; cases ht⟩
    case remove =>
      obtain ⟨⟨t3, d3⟩, h3, h⟩ := bindOkL h
      obtain ⟨_, _, h⟩ := bindOkL h
      cases h
      exact ⟨(by intro sv hv; cases hv), by intro t ht; cases ht⟩
    case crash => cases h; exact ⟨gd, by intro t ht; cases ht⟩
    case loseFile => cases h; exact SysStill.of ⟨gs, gp, gd⟩
    all_goals (cases h; exact g)

theorem state_active {t : T} : t.state = .active ↔ t.checking = false ∧ ¬ t.fetching ∧ t.started = true := by
  unfold T.state T.fetching
  rcases hc : t.checking with _ | _
  · rcases hu : t.utm with _ | u
    · cases hs : t.started <;> simp
    · cases ha : u.active <;> cases hs : t.started <;> simp [ha]
  · simp

theorem state_stopped {t : T} : t.state = .stopped ↔ t.checking = false ∧ ¬ t.fetching ∧ t.started = false := by
  unfold T.state T.fetching
  rcases hc : t.checking with _ | _
  · rcases hu : t.utm with _ | u
    · cases hs : t.started <;> simp
    · cases ha : u.active <;> cases hs : t.started <;> simp [ha]
  · simp

theorem state_checking {t : T} : t.state = .checking ↔ t.checking = true := by
  unfold T.state
  rcases hc : t.checking with _ | _
  · rcases hu : t.utm with _ | u
    · cases hs : t.started <;> simp
    · cases ha : u.active <;> cases hs : t.started <;> simp [ha]
  · simp

theorem reports_iff {s : Sys} {st : St} : Reports s st ↔ ∃ t, s.tor = some t ∧ t.state = st := by
  unfold Reports Sys.report
  cases s.tor <;> simp

theorem still_quiet {s : Sys} (h : SysStill s) (g : SysGood s) : ¬ Reports s .active ∧ ¬ Transfers s := by
  constructor
  · intro hr
    obtain ⟨t, ht, hst⟩ := reports_iff.1 hr
    have := (state_active.1 hst).2.2
    rw [(h.2 t ht).s] at this; cases this
  · rintro ⟨t, ht, htr⟩
    have := (g t ht).a htr
    rw [(h.2 t ht).s] at this; cases this

end Verif.Life
