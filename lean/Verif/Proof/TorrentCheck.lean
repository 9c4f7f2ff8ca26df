import Verif.Proof.TorrentRun

/-! Checks of a torrent's files, one at a time; stopping when nothing waits; restarting. -/

namespace Verif.Life

open Verif.Spec.Life

/-- One check at most, and the torrent knows of it. -/
def Single (t : T) : Prop :=
  (t.checks = [] ∧ t.checking = false) ∨
  (∃ i, t.checks = [(i, false)] ∧ t.checking = true ∧ t.cur = some i) ∨
  (∃ i, t.checks = [(i, true)] ∧ t.checking = false)

/-- The parts that matter to checks. -/
theorem Single.of_same {t t' : T} (h : Single t) (hk : t'.checking = t.checking) (hr : t'.cur = t.cur)
    (hl : t'.checks = t.checks) : Single t' := by
  unfold Single; rw [hk, hr, hl]; exact h

theorem single_filesStop {t : T} (h : Single t) : Single (filesStop t) := by
  unfold filesStop
  rcases h with ⟨h1, h2⟩ | ⟨i, h1, h2, h3⟩ | ⟨i, h1, h2⟩
  · rw [if_neg (by simp [h2])]; exact .inl ⟨h1, h2⟩
  · rw [if_pos h2]
    exact .inr (.inr ⟨i, by simp [h1, h3], rfl⟩)
  · rw [if_neg (by simp [h2])]; exact .inr (.inr ⟨i, h1, h2⟩)

theorem single_stop {r : Reason} {t : T} {d : Disk} {t' : T} {d' : Disk} (h : stop r t d = .ok (t', d'))
    (g : Single t) : Single t' := by
  have g1 := single_filesStop g
  have hu := utmStop_ended (filesStop t) d
  rcases stop_cases h with ⟨_, e⟩ | ⟨_, t2, h2, e⟩
  · have hsv := save_same (utmStop (filesStop t) d).1 (utmStop (filesStop t) d).2
    rw [← e] at hsv
    exact g1.of_same (hsv.2.1.trans hu.checking) (hsv.2.2.2.2.2.2.1.trans hu.cur)
      (hsv.2.2.2.2.2.1.trans hu.checks)
  · have hsv := stopTail_same r t2 (utmStop (filesStop t) d).2
    rw [← e] at hsv
    rcases waitPool_ok h2 with ⟨_, rfl⟩ | ⟨_, _, _, rfl⟩
    · exact g1.of_same (hsv.2.1.trans hu.checking) (hsv.2.2.2.2.2.2.trans hu.cur)
        (hsv.2.2.2.2.2.1.trans hu.checks)
    · exact .inl ⟨hsv.2.2.2.2.2.1, hsv.2.1⟩

/-- Either one check at most, or more than one. -/
def SingleOr (t : T) : Prop := Single t ∨ 2 ≤ t.checks.length

theorem single_beginCheck {t : T} (h : Single t) : SingleOr (beginCheck t) := by
  unfold beginCheck
  rcases h with ⟨h1, h2⟩ | ⟨i, h1, h2, h3⟩ | ⟨i, h1, h2⟩
  · rw [if_neg (by simp [h2])]
    exact .inl (.inr (.inl ⟨t.next, by simp [h1], rfl, rfl⟩))
  · rw [if_pos h2]; exact .inl (.inr (.inl ⟨i, h1, h2, h3⟩))
  · rw [if_neg (by simp [h2])]
    exact .inr (by simp [h1])

theorem single_start {env : Env} {t : T} {d : Disk} {b : Bool} {t' : T} {d' : Disk}
    (h : start env t d = .ok (b, t', d')) (g : Single t) : SingleOr t' := by
  have key : startFiles env t d = .ok (b, t', d') → SingleOr t' := by
    intro h
    unfold startFiles at h
    have hl := loadInfo_same t d
    generalize loadInfo t d = q at h hl
    obtain ⟨ok, t1⟩ := q
    simp only at h hl
    have g1 : Single t1 := g.of_same hl.2.2.2.1 hl.2.2.2.2.1 hl.2.2.2.2.2.1
    have k : ((if ok = true then filesStart env t1 else t1).err = true →
          Single (if ok = true then filesStart env t1 else t1)) ∧
        SingleOr (if ok = true then filesStart env t1 else t1) := by
      split
      · unfold filesStart
        split
        · exact ⟨fun _ => g1.of_same rfl rfl rfl, .inl (g1.of_same rfl rfl rfl)⟩
        · cases env
          · exact ⟨fun _ => g1.of_same rfl rfl rfl, .inl (g1.of_same rfl rfl rfl)⟩
          · refine ⟨fun h => (by cases h), ?_⟩
            rcases single_beginCheck g1 with h | h
            · exact .inl (h.of_same rfl rfl rfl)
            · exact .inr h
          · exact ⟨fun _ => g1.of_same rfl rfl rfl, .inl (g1.of_same rfl rfl rfl)⟩
      · exact ⟨fun _ => g1, .inl g1⟩
    generalize (if ok = true then filesStart env t1 else t1) = t2 at h k
    split at h
    next he =>
      obtain ⟨⟨t3, d3⟩, h3, h⟩ := bindOkL h
      cases h
      exact .inl (single_stop h3 (k.1 he))
    next he =>
      cases h
      rcases k.2 with h | h
      · exact .inl (h.of_same rfl rfl rfl)
      · exact .inr h
  unfold start at h
  split at h
  · cases h; exact .inl (g.of_same rfl rfl rfl)
  · split at h
    · split at h
      · exact key h
      · cases h; exact .inl (g.of_same rfl rfl rfl)
    · exact key h

theorem Single.erase {t : T} (g : Single t) (i : Nat) {c : Nat × Bool} (hc : t.checks[i]? = some c) :
    Single { t with checks := t.checks.eraseIdx i, checking := false, cur := none } := by
  have : t.checks.eraseIdx i = [] := by
    have hlen : t.checks.length ≤ 1 := by
      rcases g with ⟨h, _⟩ | ⟨j, h, _⟩ | ⟨j, h, _⟩ <;> simp [h]
    have hi := (List.getElem?_eq_some_iff.1 hc).1
    have h0 : t.checks.eraseIdx i |>.length |> (· = 0) := by
      rw [List.length_eraseIdx_of_lt hi]; omega
    exact List.length_eq_zero_iff.1 h0
  exact .inl ⟨this, rfl⟩

theorem step_single {s : Sys} {e : Ev} {s' : Sys} {o : Option Bool} (h : step s e = .ok (s', o))
    (g : ∀ t, s.tor = some t → Single t) : ∀ t, s'.tor = some t → SingleOr t := by
  obtain ⟨up, tor, disk⟩ := s
  unfold step at h
  rcases tor with _ | t
  · cases e <;> simp only at h
    case addFile n =>
      split at h <;> cases h <;> (intro t ht; cases ht)
      exact .inl (.inl ⟨rfl, rfl⟩)
    case addMagnet n =>
      split at h <;> cases h <;> (intro t ht; cases ht)
      exact .inl (.inl ⟨rfl, rfl⟩)
    case launch env =>
      split at h
      · cases h; intro t ht; cases ht
      · obtain ⟨⟨t3, d3⟩, h3, h⟩ := bindOkL h
        cases h
        rcases launch_cases h3 with ⟨rfl, rfl⟩ | ⟨sv, n, c, f, hi, er, hsv, ⟨_, rfl, rfl⟩ | ⟨_, b, t, ht, rfl⟩⟩
        · intro t ht; cases ht
        · intro t ht; cases ht; exact .inl (.inl ⟨rfl, rfl⟩)
        · intro t' ht'; cases ht'
          exact single_start ht (.inl ⟨rfl, rfl⟩)
    case quit => split at h <;> cases h <;> (intro t ht; cases ht)
    all_goals (cases h; intro t ht; cases ht)
  · have gt := g t rfl
    have lift : ∀ {t' : T}, SingleOr t' → ∀ t'', some t' = some t'' → SingleOr t'' := by
      intro t' h t'' e; cases e; exact h
    cases e <;> simp only at h
    case start env =>
      obtain ⟨⟨b, t3, d3⟩, h3, h⟩ := bindOkL h
      cases h
      exact lift (single_start h3 gt)
    case stop =>
      obtain ⟨⟨t3, d3⟩, h3, h⟩ := bindOkL h
      cases h
      exact lift (.inl (single_stop h3 gt))
    case check => cases h; exact lift (single_beginCheck gt)
    case checkDone i env =>
      obtain ⟨⟨t3, d3⟩, h3, h⟩ := bindOkL h
      cases h
      refine lift ?_
      unfold checkDone at h3
      split at h3
      · cases h3; exact .inl gt
      next c hc =>
        have ge := gt.erase i hc
        simp only at h3
        split at h3
        · cases h3; exact .inl ge
        · have ge' : Single { t with checks := t.checks.eraseIdx i, checking := false, cur := none, changed := true } :=
            ge.of_same rfl rfl rfl
          split at h3
          · obtain ⟨⟨b, t4, d4⟩, h4, h3⟩ := bindOkL h3
            cases h3
            exact single_start h4 ge'
          · exact .inl (single_stop h3 ge')
    case metaDone n =>
      split at h
      · split at h <;> cases h <;> exact lift (.inl (gt.of_same rfl rfl rfl))
      · cases h; exact lift (.inl gt)
    case post i env =>
      obtain ⟨⟨t3, d3⟩, h3, h⟩ := bindOkL h
      cases h
      refine lift ?_
      unfold runPost at h3
      split at h3
      · cases h3; exact .inl gt
      next p hp =>
        have ge : Single { t with posts := t.posts.eraseIdx i } := gt.of_same rfl rfl rfl
        cases p with
        | start =>
          obtain ⟨⟨b, t4, d4⟩, h4, h3⟩ := bindOkL h3
          cases h3
          exact single_start h4 ge
        | stopErr => exact .inl (single_stop h3 (gt.of_same rfl rfl rfl))
        | utmStop =>
          simp only [Res.ok.injEq] at h3
          have hu := utmStop_ended { t with posts := t.posts.eraseIdx i } disk
          rw [h3] at hu
          exact .inl (gt.of_same hu.checking hu.cur hu.checks)
    case fail => split at h <;> cases h <;> exact lift (.inl (gt.of_same rfl rfl rfl))
    case select ok =>
      split at h
      · obtain ⟨⟨t3, d3⟩, h3, h⟩ := bindOkL h
        cases h
        exact lift (.inl (single_stop h3 (gt.of_same rfl rfl rfl)))
      · cases h; exact lift (.inl (gt.of_same rfl rfl rfl))
    case touch =>
      cases h
      have hl := loadInfo_same t disk
      exact lift (.inl (gt.of_same hl.2.2.2.1 hl.2.2.2.2.1 hl.2.2.2.2.2.1))
    case quit =>
      obtain ⟨⟨t3, d3⟩, h3, h⟩ := bindOkL h
      obtain ⟨_, _, h⟩ := bindOkL h
      cases h
      intro t ht; cases ht
    case remove =>
      obtain ⟨⟨t3, d3⟩, h3, h⟩ := bindOkL h
      obtain ⟨_, _, h⟩ := bindOkL h
      cases h
      intro t ht; cases ht
    case crash => cases h; intro t ht; cases ht
    all_goals (cases h; exact lift (.inl gt))

theorem run_single_from : ∀ (evs pre : List Ev) {s s' : Sys}, OneAtATime (pre ++ evs) → run {} pre = .ok s →
    (∀ t, s.tor = some t → Single t) → run s evs = .ok s' → ∀ t, s'.tor = some t → Single t
  | [], _, _, _, _, _, g, h => by cases h; exact g
  | e :: evs, pre, s, s', ho, hp, g, h => by
    obtain ⟨⟨s1, o⟩, h1, h⟩ := bindOkL h
    have hp1 : run {} (pre ++ [e]) = .ok s1 := by
      rw [run_append, hp]
      show (do let (s, _) ← step s e; run s []) = _
      rw [h1]; rfl
    refine run_single_from evs (pre ++ [e]) (by simpa using ho) hp1 ?_ h
    intro t ht
    rcases step_single h1 g t ht with k | k
    · exact k
    · have := ho (pre ++ [e]) evs s1 (by simp) hp1
      unfold checksOf at this
      rw [ht] at this
      simp only at this
      omega

theorem run_single {evs : List Ev} {s : Sys} (ho : OneAtATime evs) (h : run {} evs = .ok s) :
    ∀ t, s.tor = some t → Single t :=
  run_single_from evs [] ho rfl (by intro t ht; cases ht) h

/-! ## Stopping when nothing waits -/

theorem stop_returns {r : Reason} {t : T} {d : Disk} (hp : t.posts = [])
    (hu : ∀ u, t.utm = some u → u.finished = true → u.active = false)
    (hc : ∀ c ∈ t.checks, c.2 = false → t.checking = true ∧ t.cur = some c.1) :
    ∃ t' d', stop r t d = .ok (t', d') ∧ t'.posts = [] ∧ ∀ c ∈ t'.checks, c.2 = true := by
  have hfs := filesStop_same t
  have hp1 : (utmStop (filesStop t) d).1.posts = [] := by
    unfold utmStop
    rw [hfs.2.2.1, hfs.1, hfs.2.2.2.1]
    rcases ht : t.utm with _ | u
    · simp [hfs.2.2.2.1, hp]
    · simp only
      split
      next ha =>
        split
        next hf => rw [hu u ht hf] at ha; cases ha
        next hf => simp [hp]
      next ha => simp [hfs.2.2.2.1, hp]
  have hk1 : ∀ c ∈ (filesStop t).checks, c.2 = true := by
    unfold filesStop
    split
    next hk =>
      intro c hm
      rcases hcu : t.cur with _ | i
      · simp only [hcu] at hm
        cases h2 : c.2 with
        | true => rfl
        | false => have := (hc c hm h2).2; rw [hcu] at this; cases this
      · simp only [hcu, List.mem_map] at hm
        obtain ⟨c', hm', e⟩ := hm
        split at e
        · rw [← e]
        next hne =>
          rw [← e]
          cases h2 : c'.2 with
          | true => rfl
          | false =>
            have := (hc c' hm' h2).2
            rw [hcu] at this
            cases this
            exact absurd rfl hne
    next hk =>
      intro c hm
      cases h2 : c.2 with
      | true => rfl
      | false => exact absurd (hc c hm h2).1 hk
  have hk2 : ∀ c ∈ (utmStop (filesStop t) d).1.checks, c.2 = true := by
    rw [(utmStop_ended _ _).checks]; exact hk1
  unfold stop
  simp only
  split
  · have hsv := save_same (utmStop (filesStop t) d).1 (utmStop (filesStop t) d).2
    exact ⟨(save (utmStop (filesStop t) d).1 (utmStop (filesStop t) d).2).1,
      (save (utmStop (filesStop t) d).1 (utmStop (filesStop t) d).2).2, rfl,
      by rw [hsv.2.2.2.2.1, hp1], by rw [hsv.2.2.2.2.2.1]; exact hk2⟩
  · have hw : ∃ t2, waitPool r { (utmStop (filesStop t) d).1 with transfer := false } = .ok t2 ∧ t2.posts = [] ∧
        ∀ c ∈ t2.checks, c.2 = true := by
      unfold waitPool
      split
      · exact ⟨_, rfl, hp1, hk2⟩
      · unfold join
        rw [if_neg]
        · exact ⟨_, rfl, rfl, fun c hc => by simp at hc⟩
        · simp only [hp1, Bool.or_eq_true, List.any_eq_true, not_or, not_exists, not_and]
          refine ⟨by simp, fun c hc => ?_⟩
          simp [hk2 c hc]
    obtain ⟨t2, h2, p2, c2⟩ := hw
    rw [h2]
    have hsv := stopTail_same r t2 (utmStop (filesStop t) d).2
    exact ⟨(stopTail r t2 (utmStop (filesStop t) d).2).1, (stopTail r t2 (utmStop (filesStop t) d).2).2, rfl,
      by rw [hsv.2.2.2.2.1, p2], by rw [hsv.2.2.2.2.2.1]; exact c2⟩

/-! ## Restarting -/

theorem stop_deinit_saves {t : T} {d : Disk} {t' : T} {d' : Disk} (h : stop .deinit t d = .ok (t', d'))
    (hs : t.started = true) (hc : t.changed = true) (hf : ¬ t.fetching) :
    d' = { d with state := some ⟨true, t.named⟩ } := by
  have hfs := filesStop_same t
  have hidle : utmStop (filesStop t) d = (filesStop t, d) :=
    utmStop_idle (by unfold T.fetching at hf ⊢; rw [hfs.2.2.1]; exact hf)
  rcases stop_cases h with ⟨h', _⟩ | ⟨_, t2, h2, e⟩
  · rw [hs] at h'; cases h'
  · rw [hidle] at h2 e
    rcases waitPool_ok h2 with ⟨k, _⟩ | ⟨_, _, _, rfl⟩
    · cases k
    · have : d' = (stopTail .deinit { filesStop t with transfer := false, posts := [], checks := [], checking := false, cur := none } d).2 := by
        rw [← e]
      rw [this]
      unfold stopTail save
      simp [hfs.2.1, hc, hfs.1, hs, hfs.2.2.2.2.2.1]

theorem start_fresh {env : Env} {n c f h : Bool} {d : Disk} (he : env ≠ .fail)
    (hf : d.file.isSome = true) :
    ∃ t, start env (fresh n c f h false) d = .ok (true, t, d) ∧ t.started = true ∧
      (t.state = .active ∧ t.transfer = true ∨ t.state = .checking) := by
  obtain ⟨m, hm⟩ := Option.isSome_iff_exists.1 hf
  cases env with
  | fail => exact absurd rfl he
  | fine => cases f <;> simp [start, fresh, T.state, startFiles, loadInfo, hm, filesStart]
  | check => cases f <;> simp [start, fresh, T.state, startFiles, loadInfo, hm, filesStart, beginCheck]

theorem launch_restarts {env : Env} {d : Disk} {n : Bool} (he : env ≠ .fail) (hl : d.listed = true)
    (hs : d.state = some ⟨true, n⟩) (hf : d.file.isSome = true) :
    ∃ t, launch env d = .ok (some t, d) ∧ t.started = true ∧
      (t.state = .active ∧ t.transfer = true ∨ t.state = .checking) := by
  obtain ⟨m, hm⟩ := Option.isSome_iff_exists.1 hf
  unfold launch
  rw [hl, hs]
  cases n with
  | true =>
    obtain ⟨t, ht, h⟩ := start_fresh (n := true) (c := false) (f := false) (h := false) he hf
    refine ⟨t, ?_, h⟩
    unfold fresh at ht
    simp [ht]
  | false =>
    obtain ⟨t, ht, h⟩ := start_fresh (n := m) (c := true) (f := true) (h := true) he hf
    refine ⟨t, ?_, h⟩
    unfold fresh at ht
    simp [loadInfo, hm, ht]

/-! ## Results of a start -/

theorem start_result {env : Env} {t : T} {d : Disk} {b : Bool} {t' : T} {d' : Disk}
    (h : start env t d = .ok (b, t', d')) (g : Base t) :
    (b = true → t'.state ≠ .stopped) ∧ (b = false → t'.state = .stopped) := by
  have key : startFiles env t d = .ok (b, t', d') →
      (b = true → t'.state ≠ .stopped) ∧ (b = false → t'.state = .stopped) := by
    intro h
    unfold startFiles at h
    have hl := loadInfo_base d g
    generalize loadInfo t d = q at h hl
    obtain ⟨ok, t1⟩ := q
    simp only at h hl
    have k : Base (if ok = true then filesStart env t1 else t1) := by
      split
      · exact filesStart_base env hl
      · exact hl
    generalize (if ok = true then filesStart env t1 else t1) = t2 at h k
    split at h
    · obtain ⟨⟨t3, d3⟩, h3, h⟩ := bindOkL h
      cases h
      have hs := stop_stopped h3 k.a
      exact ⟨fun h => (by cases h), fun _ => state_stopped.2 ⟨hs.checking, hs.notFetching, hs.started⟩⟩
    · cases h
      refine ⟨fun _ h => ?_, fun h => by cases h⟩
      have := (state_stopped.1 h).2.2
      cases this
  unfold start at h
  split at h
  next hm =>
    cases h
    refine ⟨fun _ h => ?_, fun h => by cases h⟩
    have := (state_stopped.1 h).2.2
    cases this
  · split at h
    · split at h
      · exact key h
      · cases h
        refine ⟨fun _ h => ?_, fun h => by cases h⟩
        exact (state_stopped.1 h).2.1 ⟨_, rfl, rfl⟩
    · exact key h

/-! ## Calm histories -/

/-- What holds as long as nothing goes wrong and no magnet is involved. -/
structure Plain (t : T) (d : Disk) : Prop where
  u : t.utm = none
  p : Task.start ∉ t.posts
  m : d.still ∨ t.started = true ∨ t.changed = true
  f : d.file.isSome = true

def SysPlain (s : Sys) : Prop :=
  (∀ sv, s.disk.state = some sv → s.disk.file.isSome = true) ∧ ∀ t, s.tor = some t → Plain t s.disk

theorem SysPlain.of {u : Bool} {t : T} {d : Disk} (h : Plain t d) : SysPlain ⟨u, some t, d⟩ :=
  ⟨fun _ _ => h.f, by intro t' ht; cases ht; exact h⟩

theorem utmStop_none {t : T} {d : Disk} (h : t.utm = none) : utmStop t d = (t, d) := by
  unfold utmStop; rw [h]

theorem stop_plain {r : Reason} {t : T} {d : Disk} {t' : T} {d' : Disk} (h : stop r t d = .ok (t', d'))
    (hr : r ≠ .deinit) (g : Plain t d) (gb : t.started = true → t.changed = true) :
    Plain t' d' := by
  have hfs := filesStop_same t
  have hidle : utmStop (filesStop t) d = (filesStop t, d) := utmStop_none (by rw [hfs.2.2.1]; exact g.u)
  rcases stop_cases h with ⟨hs, e⟩ | ⟨hs, t2, h2, e⟩
  · rw [hidle] at e
    simp only at e
    have hsv := save_same (filesStop t) d
    rw [← e] at hsv
    have hd := save_disk (filesStop t) d
    rw [← e] at hd
    simp only at hd
    refine ⟨hsv.2.2.1.trans (hfs.2.2.1.trans g.u), by rw [hsv.2.2.2.2.1, hfs.2.2.2.1]; exact g.p, ?_, ?_⟩
    · left
      rw [hd]
      split
      · intro sv hv; cases hv; simp [hfs.1, hs]
      next hc =>
        rcases g.m with k | k | k
        · exact k
        · rw [hs] at k; cases k
        · rw [hfs.2.1] at hc; exact absurd k hc
    · rw [hd]; split <;> exact g.f
  · have hstd := stop_stopped h (fun _ => hs)
    cases r with
    | deinit => exact absurd rfl hr
    | internal =>
      cases h2
      rw [hidle] at e
      have hch : (filesStop t).changed = true := by rw [hfs.2.1]; exact gb hs
      have hsd : (filesStop t).started = true := by rw [hfs.1]; exact hs
      have e2 : d' = { d with state := some ⟨true, (filesStop t).named⟩ } ∧ t'.changed = true ∧ t'.posts = (filesStop t).posts := by
        simp only [stopTail, save, hch, hsd, if_true, reduceCtorEq, if_false] at e
        cases e
        exact ⟨rfl, rfl, rfl⟩
      exact ⟨by rw [hstd.utm, g.u]; rfl, by rw [e2.2.2, hfs.2.2.2.1]; exact g.p, .inr (.inr e2.2.1), by rw [e2.1]; exact g.f⟩
    | manual =>
    have hst := stop_manual_still h hs (gb hs)
    have hfile : d'.file = d.file := by
      rw [hidle] at e
      have : d' = (stopTail .manual t2 d).2 := by rw [← e]
      rw [this]
      simp only [stopTail, save, if_true]
      split <;> rfl
    exact ⟨by rw [hstd.utm, g.u]; rfl, hst.p, .inl hst.d, by rw [hfile]; exact g.f⟩

theorem start_plain {env : Env} {t : T} {d : Disk} {b : Bool} {t' : T} {d' : Disk}
    (h : start env t d = .ok (b, t', d')) (he : env ≠ .fail)
    (hu : t.utm = none) (hp : Task.start ∉ t.posts) (hf : d.file.isSome = true)
    (her : t.err = false) : Plain t' d' ∧ d' = d := by
  obtain ⟨m, hm⟩ := Option.isSome_iff_exists.1 hf
  unfold start at h
  split at h
  next hst =>
    obtain ⟨_, u, hu', _⟩ := state_metadata.1 hst
    rw [hu] at hu'; cases hu'
  · rw [hu] at h
    simp only at h
    unfold startFiles at h
    have hl := loadInfo_same t d
    have hok : (loadInfo t d).1 = true ∧ (loadInfo t d).2.err = false := by
      unfold loadInfo; split <;> simp [her, hu, hm]
    generalize loadInfo t d = q at h hl hok
    obtain ⟨ok, t1⟩ := q
    simp only at h hl hok
    rw [hok.1] at h
    simp only [if_true] at h
    have k : (filesStart env t1).err = false ∧ (filesStart env t1).utm = none ∧
        (filesStart env t1).posts = t.posts := by
      unfold filesStart beginCheck
      split
      · exact ⟨rfl, hl.2.2.1.trans hu, hl.2.2.2.2.2.2.2⟩
      · cases env
        · exact ⟨rfl, hl.2.2.1.trans hu, hl.2.2.2.2.2.2.2⟩
        · refine ⟨rfl, ?_, ?_⟩ <;> simp [hl, hu]
        · exact absurd rfl he
    generalize filesStart env t1 = t2 at h k
    rw [k.1] at h
    simp only [Bool.false_eq_true, if_false] at h
    cases h
    exact ⟨⟨k.2.1, by rw [k.2.2]; exact hp, .inr (.inl rfl), hf⟩, rfl⟩

theorem start_plain_any {env : Env} {t : T} {d : Disk} {b : Bool} {t' : T} {d' : Disk}
    (h : start env t d = .ok (b, t', d')) (g : Plain t d) (gb : t.started = true → t.changed = true) : Plain t' d' := by
  have hu := g.u
  unfold start at h
  split at h
  next hst =>
    obtain ⟨_, u, hu', _⟩ := state_metadata.1 hst
    rw [hu] at hu'; cases hu'
  · rw [hu] at h
    simp only at h
    unfold startFiles at h
    have hl := loadInfo_same t d
    generalize loadInfo t d = q at h hl
    obtain ⟨ok, t1⟩ := q
    simp only at h hl
    have k : ∀ t2, t2 = (if ok = true then filesStart env t1 else t1) → Plain t2 d ∧ (t2.started = true → t2.changed = true) := by
      intro t2 e
      have h1 : Plain t1 d := ⟨hl.2.2.1.trans hu, by rw [hl.2.2.2.2.2.2.2]; exact g.p, by rw [hl.1, hl.2.1]; exact g.m, g.f⟩
      have h2 : t1.started = true → t1.changed = true := by rw [hl.1, hl.2.1]; exact gb
      rw [e]
      split
      · unfold filesStart beginCheck
        split
        · exact ⟨⟨h1.u, h1.p, h1.m, h1.f⟩, h2⟩
        · cases env <;> exact ⟨⟨h1.u, h1.p, h1.m, h1.f⟩, h2⟩
      · exact ⟨h1, h2⟩
    obtain ⟨k1, k2⟩ := k _ rfl
    generalize (if ok = true then filesStart env t1 else t1) = t2 at h k1 k2
    split at h
    · obtain ⟨⟨t3, d3⟩, h3, h⟩ := bindOkL h
      cases h
      exact stop_plain h3 (by simp) k1 k2
    · cases h
      exact ⟨k1.u, k1.p, .inr (.inl rfl), k1.f⟩

theorem step_plain {s : Sys} {e : Ev} {s' : Sys} {o : Option Bool} (he : Calm e)
    (h : step s e = .ok (s', o)) (g : SysPlain s ∧ SysGood s) : SysPlain s' ∧ SysGood s' := by
  refine ⟨?_, step_good h g.2⟩
  obtain ⟨g, gg⟩ := g
  obtain ⟨up, tor, disk⟩ := s
  unfold step at h
  rcases tor with _ | t
  · have none_of : ∀ u, SysPlain ⟨u, none, disk⟩ := fun u => ⟨g.1, by intro t ht; cases ht⟩
    cases e <;> simp only at h
    case addFile n =>
      split at h <;> cases h
      · exact SysPlain.of ⟨rfl, by simp, .inr (.inr rfl), rfl⟩
      · exact g
    case addMagnet n => exact he.elim
    case loseFile => exact he.elim
    case launch env =>
      split at h
      · cases h; exact g
      · obtain ⟨⟨t3, d3⟩, h3, h⟩ := bindOkL h
        cases h
        unfold launch at h3
        split at h3
        · cases h3; exact none_of _
        · split at h3
          · cases h3; exact none_of _
          next sv hsv =>
            have hf : disk.file.isSome = true := g.1 sv hsv
            obtain ⟨m, hm⟩ := Option.isSome_iff_exists.1 hf
            have hq : ∃ n c f hh, (if sv.named = true then (true, ({ named := sv.named } : T)) else
                ((loadInfo { named := sv.named } disk).1, { (loadInfo { named := sv.named } disk).2 with changed := true })) =
                (true, fresh n c f hh false) := by
              split
              · exact ⟨_, _, _, _, rfl⟩
              · exact ⟨m, true, true, true, by simp [loadInfo, hm, fresh]⟩
            obtain ⟨n, c, f, hh, eq⟩ := hq
            simp only at h3
            rw [eq] at h3
            simp only [Bool.not_true, Bool.false_eq_true, if_false] at h3
            split at h3
            · obtain ⟨⟨b, t4, d4⟩, h4, h3⟩ := bindOkL h3
              cases h3
              exact SysPlain.of (start_plain h4 he rfl (by simp [fresh]) hf rfl).1
            next hs =>
              cases h3
              refine SysPlain.of ⟨rfl, by simp [fresh], .inl ?_, hf⟩
              intro sv' hv
              rw [hsv] at hv; cases hv
              simpa using hs
    case quit => split at h <;> cases h <;> exact ⟨g.1, by intro t ht; cases ht⟩
    all_goals (cases h; exact none_of _)
  · have gt := g.2 t rfl
    have gd := gg t rfl
    have gb : t.started = true → t.changed = true := by
      intro hs
      rcases gd.e hs with k | ⟨u, hu, _⟩
      · exact k
      · rw [gt.u] at hu; cases hu
    have gf : disk.file.isSome = true := gt.f
    cases e <;> simp only at h
    case start env =>
      obtain ⟨⟨b, t3, d3⟩, h3, h⟩ := bindOkL h
      cases h
      exact SysPlain.of (start_plain_any h3 gt gb)
    case stop =>
      obtain ⟨⟨t3, d3⟩, h3, h⟩ := bindOkL h
      cases h
      exact SysPlain.of (stop_plain h3 (by simp) gt gb)
    case check =>
      cases h
      refine SysPlain.of ?_
      unfold beginCheck
      split
      · exact gt
      · exact ⟨gt.u, gt.p, gt.m, gt.f⟩
    case checkDone i env =>
      obtain ⟨⟨t3, d3⟩, h3, h⟩ := bindOkL h
      cases h
      refine SysPlain.of ?_
      unfold checkDone at h3
      split at h3
      · cases h3; exact gt
      · simp only at h3
        split at h3
        · cases h3; exact ⟨gt.u, gt.p, gt.m, gt.f⟩
        · split at h3
          · obtain ⟨⟨b, t4, d4⟩, h4, h3⟩ := bindOkL h3
            cases h3
            exact start_plain_any h4 ⟨gt.u, gt.p, .inr (.inr rfl), gt.f⟩ (fun _ => rfl)
          · exact stop_plain h3 (by simp) ⟨gt.u, gt.p, .inr (.inr rfl), gt.f⟩ (fun _ => rfl)
    case metaDone n =>
      have gu : t.utm = none := gt.u
      rw [gu] at h
      cases h; exact g
    case post i env =>
      obtain ⟨⟨t3, d3⟩, h3, h⟩ := bindOkL h
      cases h
      refine SysPlain.of ?_
      unfold runPost at h3
      split at h3
      · cases h3; exact gt
      next p hp =>
        have hm := List.mem_of_getElem? hp
        cases p with
        | start => exact absurd hm gt.p
        | stopErr =>
          exact stop_plain h3 (by simp) ⟨gt.u, fun hm => gt.p (List.mem_of_mem_eraseIdx hm), gt.m, gt.f⟩ gb
        | utmStop =>
          obtain ⟨u, hu, _⟩ := gd.h hm
          have gu : t.utm = none := gt.u
          rw [gu] at hu; cases hu
    case fail =>
      split at h <;> cases h
      · refine SysPlain.of ⟨gt.u, fun hm => ?_, gt.m, gt.f⟩
        rcases List.mem_append.1 hm with k | k
        · exact gt.p k
        · simp at k
      · exact g
    case select ok =>
      split at h
      · obtain ⟨⟨t3, d3⟩, h3, h⟩ := bindOkL h
        cases h
        exact SysPlain.of (stop_plain h3 (by simp) ⟨gt.u, gt.p, gt.m, gt.f⟩ gb)
      · cases h
        exact SysPlain.of ⟨gt.u, gt.p, .inr (.inr rfl), gt.f⟩
    case touch =>
      cases h
      have hl := loadInfo_same t disk
      obtain ⟨m, hm⟩ := Option.isSome_iff_exists.1 gf
      have gu : t.utm = none := gt.u
      exact SysPlain.of ⟨hl.2.2.1.trans gu, by rw [hl.2.2.2.2.2.2.2]; exact gt.p, by rw [hl.1, hl.2.1]; exact gt.m, gf⟩
    case quit =>
      obtain ⟨⟨t3, d3⟩, h3, h⟩ := bindOkL h
      obtain ⟨_, _, h⟩ := bindOkL h
      cases h
      refine ⟨fun _ _ => ?_, by intro t ht; cases ht⟩
      have hfs := filesStop_same t
      have hidle : utmStop (filesStop t) { disk with listed := true } = (filesStop t, { disk with listed := true }) :=
        utmStop_none (by rw [hfs.2.2.1]; exact gt.u)
      rcases stop_cases h3 with ⟨_, e⟩ | ⟨_, t2, _, e⟩
      · rw [hidle] at e
        have : d3 = (save (filesStop t) { disk with listed := true }).2 := by rw [← e]
        rw [this, save_disk]; split <;> exact gf
      · rw [hidle] at e
        have : d3 = (stopTail .deinit t2 { disk with listed := true }).2 := by rw [← e]
        rw [this]
        simp only [stopTail, save_disk]; repeat' split
        all_goals exact gf
    case remove =>
      obtain ⟨⟨t3, d3⟩, h3, h⟩ := bindOkL h
      obtain ⟨_, _, h⟩ := bindOkL h
      cases h
      exact ⟨(by intro sv hv; cases hv), by intro t ht; cases ht⟩
    case crash => cases h; exact ⟨g.1, by intro t ht; cases ht⟩
    case loseFile => exact he.elim
    all_goals (cases h; exact g)

theorem run_plain {evs : List Ev} {s : Sys} (hc : ∀ e ∈ evs, Calm e) (h : run {} evs = .ok s) :
    SysPlain s ∧ SysGood s :=
  run_inv_of (Q := Calm) (P := fun s => SysPlain s ∧ SysGood s) (fun _ _ _ _ q => step_plain q) hc h
    ⟨⟨(by intro sv hv; cases hv), by intro t ht; cases ht⟩, by intro t ht; cases ht⟩

end Verif.Life
