import Verif.Proof.TorrentCheck

/-!
C48: the life of a torrent.

"Starting and stopping in any order keeps the reported state consistent: after a manual stop the torrent is
stopped and will stay stopped after restart; a torrent running at shutdown restarts."

What is proved for every history: a manual stop that returns leaves the torrent reported as stopped; a start
that returns Success leaves it reported as something else, a failed one as stopped; data is exchanged only
while it is reported active, and if it is reported active then data is exchanged or will be once the work in
the pool is done.  The rest fails in corners, shown by the `violated` theorems, and holds outside them.
-/

namespace Verif

open Life Spec.Life

/-- A manual stop that returns leaves the torrent reported as stopped, in every history. -/
theorem C48_stopped {evs : List Ev} {s s' : Sys} {o : Option Bool} (h : run {} evs = .ok s)
    (ht : s.tor.isSome = true) (hs : step s .stop = .ok (s', o)) : Reports s' .stopped := by
  obtain ⟨t, htt⟩ := Option.isSome_iff_exists.1 ht
  obtain ⟨up, tor, disk⟩ := s
  cases htt
  have g := run_good h t rfl
  obtain ⟨⟨t3, d3⟩, h3, hs⟩ := bindOkL hs
  cases hs
  have k := stop_stopped h3 g.a
  exact reports_iff.2 ⟨t3, rfl, state_stopped.2 ⟨k.checking, k.notFetching, k.started⟩⟩

/-- A start that returns Success leaves the torrent reported as active, checking or fetching metadata; one
that fails leaves it reported as stopped. -/
theorem C48_started {evs : List Ev} {s s' : Sys} {env : Env} {b : Bool} (h : run {} evs = .ok s)
    (hs : step s (.start env) = .ok (s', some b)) :
    if b = true then Reports s' .active ∨ Reports s' .checking ∨ Reports s' .metadata
    else Reports s' .stopped := by
  obtain ⟨up, tor, disk⟩ := s
  rcases tor with _ | t
  · cases hs
  · have g := run_good h t rfl
    obtain ⟨⟨b', t3, d3⟩, h3, hs⟩ := bindOkL hs
    cases hs
    have k := start_result h3 g.base
    split
    next hb =>
      have := k.1 hb
      rcases hst : t3.state with _ | _ | _ | _
      · exact absurd hst this
      · exact .inl (reports_iff.2 ⟨t3, rfl, hst⟩)
      · exact .inr (.inl (reports_iff.2 ⟨t3, rfl, hst⟩))
      · exact .inr (.inr (reports_iff.2 ⟨t3, rfl, hst⟩))
    next hb => exact reports_iff.2 ⟨t3, rfl, k.2 (by simpa using hb)⟩

/-- When data cannot be written, the handler put into the pool stops the torrent, whatever happened to come
before it there: it returns, the torrent is reported stopped and no data is exchanged. -/
theorem C48_error {evs : List Ev} {s : Sys} {t : T} (h : run {} evs = .ok s) (ht : s.tor = some t) (hx : Transfers s) (env : Env) :
    ∃ s1 s2, step s .fail = .ok (s1, none) ∧ step s1 (.post t.posts.length env) = .ok (s2, none) ∧
      Reports s2 .stopped ∧ ¬ Transfers s2 := by
  have g := run_good h
  obtain ⟨up, tor, disk⟩ := s
  cases ht
  obtain ⟨t0, e0, hx⟩ := hx
  cases e0
  have e1 : step ⟨up, some t, disk⟩ .fail = .ok (⟨up, some { t with posts := t.posts ++ [.stopErr] }, disk⟩, none) := by
    simp only [step, hx, if_true]
  have hex : ∃ q, stop .internal { t with posts := t.posts, err := true } disk = .ok q := by
    unfold stop waitPool
    simp only [if_true]
    split <;> exact ⟨_, rfl⟩
  obtain ⟨⟨t2, d2⟩, hq⟩ := hex
  have k := stop_stopped hq (g t rfl).a
  refine ⟨_, ⟨up, some t2, d2⟩, e1, ?_, reports_iff.2 ⟨t2, rfl, state_stopped.2 ⟨k.checking, k.notFetching, k.started⟩⟩, ?_⟩
  · simp only [step, runPost, List.getElem?_append_right (Nat.le_refl _), Nat.sub_self, List.getElem?_cons_zero,
      List.eraseIdx_append_of_length_le (Nat.le_refl _), List.eraseIdx_cons_zero, List.append_nil, hq]
    rfl
  · rintro ⟨t3, e, h3⟩
    cases e
    rw [k.transfer] at h3
    cases h3

/-- Data is exchanged with peers only while the torrent is reported active. -/
theorem C48_active {evs : List Ev} {s : Sys} (h : run {} evs = .ok s) (ht : Transfers s) :
    Reports s .active := by
  obtain ⟨t, htt, htr⟩ := ht
  have g := run_good h t htt
  refine reports_iff.2 ⟨t, htt, state_active.2 ⟨?_, ?_, g.a htr⟩⟩
  · cases hc : t.checking with
    | false => rfl
    | true => have := g.b hc; rw [htr] at this; cases this
  · intro hf
    have := g.c hf; rw [htr] at this; cases this

/-- A torrent reported active exchanges data, unless a check or a start is still at work in the pool. -/
theorem C48_works {evs : List Ev} {s : Sys} (h : run {} evs = .ok s) (hr : Reports s .active) :
    Transfers s ∨ Checks s ∨ StartWaits s := by
  obtain ⟨t, htt, hst⟩ := reports_iff.1 hr
  have g := run_good h t htt
  obtain ⟨_, hf, hs⟩ := state_active.1 hst
  cases htr : t.transfer with
  | true => exact .inl ⟨t, htt, htr⟩
  | false =>
    rcases g.f hs htr with k | k | k
    · exact .inr (.inl ⟨t, htt, k⟩)
    · exact absurd k hf
    · exact .inr (.inr ⟨t, htt, k⟩)

/-- Missing: a check begun while an older one, called off, is still at work (`C48_checking_violated`).
Otherwise the torrent is reported as checking exactly while a check is at work that was not called off. -/
theorem C48_checking_partial {evs : List Ev} {s : Sys} (ho : OneAtATime evs) (h : run {} evs = .ok s) :
    Reports s .checking ↔ Checks s := by
  have g := run_single ho h
  constructor
  · intro hr
    obtain ⟨t, htt, hst⟩ := reports_iff.1 hr
    have hc := state_checking.1 hst
    refine ⟨t, htt, ?_⟩
    rcases g t htt with ⟨_, k⟩ | ⟨i, k, _⟩ | ⟨i, _, k⟩
    · rw [hc] at k; cases k
    · exact ⟨(i, false), by rw [k]; simp, rfl⟩
    · rw [hc] at k; cases k
  · rintro ⟨t, htt, c, hc, hf⟩
    refine reports_iff.2 ⟨t, htt, state_checking.2 ?_⟩
    rcases g t htt with ⟨k, _⟩ | ⟨i, _, k, _⟩ | ⟨i, k, _⟩
    · rw [k] at hc; cases hc
    · exact k
    · rw [k] at hc
      simp only [List.mem_singleton] at hc
      rw [hc] at hf; cases hf

/-- A torrent that was reported active and is stopped by hand never runs again, over any number of ends,
crashes and launches of the client, unless it is started.  Missing: torrents not reported active when they
are stopped (`C48_stays_violated`, `C48_revived_violated`). -/
theorem C48_stays_partial {evs evs' : List Ev} {s s1 s2 : Sys} {o : Option Bool} (h : run {} evs = .ok s)
    (ha : Reports s .active) (hs : step s .stop = .ok (s1, o)) (hn : NoStart evs')
    (h' : run s1 evs' = .ok s2) : ¬ Reports s2 .active ∧ ¬ Transfers s2 := by
  obtain ⟨t, htt, hst⟩ := reports_iff.1 ha
  have gg := run_good h
  have g := gg t htt
  obtain ⟨_, hf, hst⟩ := state_active.1 hst
  have hc : t.changed = true := (g.e hst).resolve_right hf
  have g1 : SysGood s1 := step_good hs gg
  have g2 : SysGood s2 := run_inv (fun _ _ _ _ => step_good) h' g1
  have q1 : SysStill s1 := by
    obtain ⟨up, tor, disk⟩ := s
    cases htt
    obtain ⟨⟨t3, d3⟩, h3, hs⟩ := bindOkL hs
    cases hs
    exact SysStill.of (stop_manual_still h3 hst hc)
  exact still_quiet (run_inv_of (Q := fun e => ∀ env, e ≠ .start env) (fun _ _ _ _ q => step_still q) hn h' q1) g2

/-- A torrent stopped by hand, whatever it was doing and even if an error had stopped it before, never runs again
unless it is started, if it is not a magnet, its `.torrent` file was kept, and no start at launch has failed.
Missing: the same as above. -/
theorem C48_stays_kept_partial {evs evs' : List Ev} {s s1 s2 : Sys} {o : Option Bool} (h : run {} evs = .ok s)
    (hc : ∀ e ∈ evs, Calm e) (ht : s.tor.isSome = true) (hs : step s .stop = .ok (s1, o)) (hn : NoStart evs')
    (h' : run s1 evs' = .ok s2) : ¬ Reports s2 .active ∧ ¬ Transfers s2 := by
  obtain ⟨t, htt⟩ := Option.isSome_iff_exists.1 ht
  obtain ⟨gp, gg⟩ := run_plain hc h
  have p := gp.2 t htt
  have g := gg t htt
  have g1 : SysGood s1 := step_good hs gg
  have g2 : SysGood s2 := run_inv (fun _ _ _ _ => step_good) h' g1
  have q1 : SysStill s1 := by
    obtain ⟨up, tor, disk⟩ := s
    cases htt
    obtain ⟨⟨t3, d3⟩, h3, hs⟩ := bindOkL hs
    cases hs
    cases hst : t.started with
    | true =>
      refine SysStill.of (stop_manual_still h3 hst ?_)
      rcases g.e hst with k | ⟨u, hu, _⟩
      · exact k
      · rw [p.u] at hu; cases hu
    | false =>
      refine SysStill.of (stop_still h3 hst p.p ?_)
      rcases p.m with k | k | k
      · exact .inl k
      · rw [hst] at k; cases k
      · exact .inr k
  exact still_quiet (run_inv_of (Q := fun e => ∀ env, e ≠ .start env) (fun _ _ _ _ q => step_still q) hn h' q1) g2

/-- A torrent that runs when the client ends runs again, or checks its files, when the client is launched,
provided its `.torrent` file is there and preallocation works.  Missing: magnets whose metadata has not
arrived (`C48_lost_violated`). -/
theorem C48_restarts_partial {evs : List Ev} {s s1 : Sys} {o : Option Bool} {env : Env}
    (h : run {} evs = .ok s) (hr : Running s) (hf : s.disk.file.isSome = true)
    (hq : step s .quit = .ok (s1, o)) (he : env ≠ .fail) :
    ∃ s2, step s1 (.launch env) = .ok (s2, none) ∧
      (Reports s2 .active ∧ Transfers s2 ∨ Reports s2 .checking) := by
  obtain ⟨t, htt, hst, hu⟩ := hr
  have g := run_good h t htt
  have hnf : ¬ t.fetching := by
    rintro ⟨u, hu', ha⟩
    rw [hu u hu'] at ha; cases ha
  have hc : t.changed = true := (g.e hst).resolve_right hnf
  obtain ⟨up, tor, disk⟩ := s
  cases htt
  obtain ⟨⟨t3, d3⟩, h3, hq⟩ := bindOkL hq
  obtain ⟨_, _, hq⟩ := bindOkL hq
  cases hq
  have hd := stop_deinit_saves h3 hst hc hnf
  obtain ⟨t4, h4, _, h5⟩ := launch_restarts (d := d3) (n := t.named) he (by rw [hd]) (by rw [hd])
    (by rw [hd]; exact hf)
  refine ⟨⟨true, some t4, d3⟩, ?_, ?_⟩
  · unfold step
    simp only [Bool.false_eq_true, if_false]
    rw [h4]; rfl
  · rcases h5 with ⟨k, k'⟩ | k
    · exact .inl ⟨reports_iff.2 ⟨t4, rfl, k⟩, t4, rfl, k'⟩
    · exact .inr (reports_iff.2 ⟨t4, rfl, k⟩)

/-- Stopping, ending the client and removing the torrent return, and touch nothing that is gone, when no work
waits in the pool.  Missing: work that waits (`C48_hangs_violated`, `C48_gone_violated`). -/
theorem C48_returns_partial {s : Sys} (hs : Settled s) {e : Ev} (he : e = .stop ∨ e = .quit ∨ e = .remove) :
    ∃ s' o, step s e = .ok (s', o) := by
  obtain ⟨up, tor, disk⟩ := s
  rcases tor with _ | t
  · rcases he with rfl | rfl | rfl
    · exact ⟨_, _, rfl⟩
    · cases up <;> exact ⟨_, _, rfl⟩
    · exact ⟨_, _, rfl⟩
  · obtain ⟨hp, hu, hc⟩ := hs t rfl
    have gone : ∀ {t' : T}, t'.posts = [] → (∀ c ∈ t'.checks, c.2 = true) → destroy t' = .ok () := by
      intro t' h1 h2
      unfold destroy
      rw [if_pos]
      simp only [h1, List.isEmpty_nil, Bool.true_and, List.all_eq_true]
      exact h2
    rcases he with rfl | rfl | rfl
    · obtain ⟨t', d', h, _, _⟩ := stop_returns (r := .manual) (d := disk) hp hu hc
      exact ⟨⟨up, some t', d'⟩, none, by unfold step; simp only [h]; rfl⟩
    · obtain ⟨t', d', h, h1, h2⟩ := stop_returns (r := .deinit) (d := { disk with listed := true }) hp hu hc
      exact ⟨⟨false, none, d'⟩, none, by unfold step; simp only [h]; simp only [Res.bind_ok, gone h1 h2]⟩
    · obtain ⟨t', d', h, h1, h2⟩ := stop_returns (r := .manual) (d := disk) hp hu hc
      exact ⟨⟨up, none, {}⟩, none, by unfold step; simp only [h]; simp only [Res.bind_ok, gone h1 h2]⟩

/-! ## Where it fails -/

/-- A manual stop that finds the metadata of a started magnet just complete never returns: the callback posts
a start, and stopping waits, holding the torrent's mutex, for a start that waits for the mutex. -/
theorem C48_hangs_violated :
    run {} [.addMagnet true, .start .fine, .metaDone true, .stop] = .diverge := by decide +kernel

/-- The client ends just after metadata of a magnet became complete: the handler in the pool uses the
metadata download after it is gone. -/
theorem C48_gone_violated :
    run {} [.addMagnet true, .metaDone true, .quit] = .ub := by decide +kernel

/-- A torrent runs, the client ends and is launched while the disk is missing, so that the start fails; the
user stops the torrent.  It is not remembered: at the next launch it runs. -/
theorem C48_stays_violated :
    ∃ s s' s'', run {} [.addFile true, .start .fine, .quit, .launch .fail] = .ok s ∧
      step s .stop = .ok (s', none) ∧ Reports s' .stopped ∧
      run s' [.quit, .launch .fine] = .ok s'' ∧ Reports s'' .active :=
  ⟨_, _, _, rfl, rfl, rfl, rfl, rfl⟩

/-- A start waiting in the pool revives a torrent stopped by hand in between. -/
theorem C48_revived_violated :
    ∃ s s' s'', run {} [.addMagnet true, .start .fine, .metaDone true, .post 0 .fine, .select false] = .ok s ∧
      step s .stop = .ok (s', none) ∧ Reports s' .stopped ∧
      run s' [.post 0 .fine] = .ok s'' ∧ Reports s'' .active :=
  ⟨_, _, _, rfl, rfl, rfl, rfl, rfl⟩

/-- A started magnet whose metadata has not arrived when the client ends is not there after the launch. -/
theorem C48_lost_violated :
    ∃ s s', run {} [.addMagnet true, .start .fine] = .ok s ∧ Reports s .metadata ∧
      run s [.quit, .launch .fine] = .ok s' ∧ s'.tor = none :=
  ⟨_, _, rfl, rfl, rfl, rfl⟩

/-- A magnet stopped and started again before its metadata arrives: the start returns Success, but when the
metadata is there the torrent is stopped. -/
theorem C48_forgotten_violated :
    ∃ s s' s'', run {} [.addMagnet true, .stop] = .ok s ∧ step s (.start .fine) = .ok (s', some true) ∧
      run s' [.metaDone true, .post 0 .fine] = .ok s'' ∧ Reports s'' .stopped :=
  ⟨_, _, _, rfl, rfl, rfl, rfl⟩

/-- A check, called off by a stop, ends while the next check is at work: that one is no longer reported. -/
theorem C48_checking_violated :
    ∃ s, run {} [.addFile true, .check, .stop, .check, .checkDone 0 .fine] = .ok s ∧
      Checks s ∧ ¬ Reports s .checking := by
  refine ⟨_, rfl, ⟨_, rfl, (1, false), by decide, rfl⟩, ?_⟩
  intro h; cases h

/-- The `.torrent` file is gone: the first start fails, the second returns Success and the torrent is reported
active and exchanges data although it knows nothing of its pieces. -/
theorem C48_empty_violated :
    ∃ s s' t, run {} [.addFile true, .start .fine, .stop, .quit, .loseFile, .launch .fine, .start .fine] = .ok s ∧
      Reports s .stopped ∧ step s (.start .fine) = .ok (s', some true) ∧ Reports s' .active ∧
      s'.tor = some t ∧ t.hasInfo = false :=
  ⟨_, _, _, rfl, rfl, rfl, rfl, rfl, rfl⟩

/-! ## The hypotheses can be met -/

example : ∃ s s', run {} [.addFile true, .start .check, .checkDone 0 .fine] = .ok s ∧ s.tor.isSome = true ∧
    Reports s .active ∧ Transfers s ∧ step s .stop = .ok (s', none) :=
  ⟨_, _, rfl, rfl, rfl, ⟨_, rfl, rfl⟩, rfl⟩

example : ∃ s s1 s2, run {} [.addFile true, .start .fine] = .ok s ∧ Reports s .active ∧
    (∀ e ∈ [Ev.addFile true, .start .fine], Calm e) ∧
    step s .stop = .ok (s1, none) ∧ NoStart [.check, .crash, .launch .check, .quit, .launch .fine] ∧
    run s1 [.check, .crash, .launch .check, .quit, .launch .fine] = .ok s2 ∧ Reports s2 .stopped :=
  ⟨_, _, _, rfl, rfl, by simp [Calm], rfl, by simp [NoStart], rfl, rfl⟩

/-- An error stops the torrent, then the user does. -/
example : ∃ s s1 s2, run {} [.addFile true, .start .fine, .fail, .post 0 .fine] = .ok s ∧ Reports s .stopped ∧
    (∀ e ∈ [Ev.addFile true, .start .fine, .fail, .post 0 .fine], Calm e) ∧ s.tor.isSome = true ∧
    step s .stop = .ok (s1, none) ∧ NoStart [.quit, .launch .fine] ∧
    run s1 [.quit, .launch .fine] = .ok s2 ∧ Reports s2 .stopped :=
  ⟨_, _, _, rfl, rfl, by simp [Calm], rfl, rfl, by simp [NoStart], rfl, rfl⟩

example : ∃ s s1, run {} [.addMagnet false, .start .fine, .metaDone true, .post 0 .fine, .post 0 .fine] = .ok s ∧
    Running s ∧ s.disk.file.isSome = true ∧ step s .quit = .ok (s1, none) := by
  refine ⟨_, _, rfl, ⟨_, rfl, rfl, ?_⟩, rfl, rfl⟩
  intro u h; cases h; rfl

example : ∃ s, run {} [.addFile true, .start .check] = .ok s ∧ Settled s ∧ Reports s .checking ∧ Checks s := by
  refine ⟨_, rfl, ?_, rfl, ⟨_, rfl, (0, false), by decide, rfl⟩⟩
  intro t h
  cases h
  refine ⟨rfl, fun u h => (by cases h), fun c hc _ => ?_⟩
  have : c = (0, false) := by simpa [filesStart, beginCheck] using hc
  rw [this]
  exact ⟨rfl, rfl⟩

example : OneAtATime [.addFile true, .check, .checkDone 0 .fine] := by
  intro a b s h hr
  rcases a with _ | ⟨e1, _ | ⟨e2, _ | ⟨e3, _ | ⟨e4, a⟩⟩⟩⟩ <;> simp at h
  · cases hr; decide
  · obtain ⟨rfl, _⟩ := h; cases hr; decide
  · obtain ⟨rfl, rfl, _⟩ := h; cases hr; decide
  · obtain ⟨rfl, rfl, rfl, _⟩ := h; cases hr; decide

example : ∃ s s', run {} [.addFile true] = .ok s ∧ step s (.start .fail) = .ok (s', some false) :=
  ⟨_, _, rfl, rfl⟩

end Verif
