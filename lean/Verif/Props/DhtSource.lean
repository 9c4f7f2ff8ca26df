import Verif.Proof.DhtSource
/-! # C99: the DHT source searches when it is due, and peers found reach the torrent -/

namespace Verif
open DhtSource Spec.DhtSource

/-- After whatever happened: a source that says it is searching has a query at work, and what is found then reaches the torrent; what is found while it
says something else is dropped.  (What is missing: the query need not be the one that was started last, see `C99_old_violated`.) -/
theorem C99_searching_partial (interval : Nat) (es : List Ev) (h n new : Nat) :
    ((((({} : Sys).run interval es).src h).state = .announcing) →
      (∃ id, (h, id) ∈ (({} : Sys).run interval es).running) ∧
      ((found (({} : Sys).run interval es) h n new).1.src h).peers = ((({} : Sys).run interval es).src h).peers + new) ∧
    ((((({} : Sys).run interval es).src h).state ≠ .announcing) →
      (found (({} : Sys).run interval es) h n new).1 = ({} : Sys).run interval es) := by
  obtain ⟨h1, h2, h3⟩ := run_inv interval es inv_start h
  refine ⟨fun ha => ?_, fun ha => ?_⟩
  · have hc := h2.1 ha
    refine ⟨?_, ?_⟩
    · have : 0 < cnt (({} : Sys).run interval es).running h := by omega
      unfold cnt at this
      rw [List.countP_pos_iff] at this
      obtain ⟨⟨a, id⟩, hm, ha⟩ := this
      have : a = h := by simpa using ha
      subst this
      exact ⟨id, hm⟩
    · unfold found
      rw [if_pos (by rw [any_cnt]; omega)]
      simp only [set_self]
  · unfold found
    rw [if_neg]
    rw [any_cnt]
    have : ¬ cnt (({} : Sys).run interval es).entries h = 1 := fun x => ha (h2.2 x)
    omega

example : ((({} : Sys).run 60 [.start 1, .update 1 5 true true false]).src 1).state = .announcing := by decide +kernel
example : ((({} : Sys).run 60 [.start 1, .update 1 5 true true false, .stop 1]).src 1).state = .clear := by decide +kernel

/-- When the search is over the source waits for the interval: updates before do nothing, and the first one after begins the next search, for a
torrent that is not complete. -/
theorem C99_interval_partial (interval : Nat) (es : List Ev) (h id now later : Nat) (nodes done : Bool)
    (ha : ((({} : Sys).run interval es).src h).state = .announcing) (hm : (h, id) ∈ (({} : Sys).run interval es).running) :
    let s := (({} : Sys).run interval es).step interval (.finish h id now)
    (s.src h).state = .connected ∧ (s.src h).lastAnnounce = now ∧
    (later < now + interval → ∀ en, s.step interval (.update h later en nodes done) = s) ∧
    (now + interval ≤ later → ((s.step interval (.update h later true true false)).src h).state = .announcing ∧
      (h, s.fresh) ∈ (s.step interval (.update h later true true false)).running) := by
  intro s
  have hi := run_inv interval es inv_start
  obtain ⟨h1, h2, -⟩ := hi h
  have hc := h2.1 ha
  have hs : s.src h = { (({} : Sys).run interval es).src h with lastAnnounce := now, nextAnnounce := now + interval, state := .connected } := by
    show ((({} : Sys).run interval es).step interval (.finish h id now)).src h = _
    rw [step_finish, if_pos hm]
    unfold findingFinished
    rw [if_pos (by rw [any_cnt]; simp only; omega)]
    simp only [set_self]
  have hst : (s.src h).state = .connected := by rw [hs]
  have hna : (s.src h).nextAnnounce = now + interval := by rw [hs]
  have his : Inv s := step_inv hi _
  refine ⟨hst, by rw [hs], fun hl en => ?_, fun hl => ?_⟩
  · rw [step_update]; unfold update
    rw [if_neg]
    rw [hna]; omega
  · obtain ⟨i1, i2, -⟩ := his h
    have h0 : ¬ cnt s.entries h = 1 := by
      intro x
      have := i2.2 x
      rw [hst] at this; cases this
    rw [step_update]; unfold update
    rw [if_pos ⟨by rw [hna]; exact hl, hst⟩, if_neg (by simp)]
    unfold find
    rw [if_pos ⟨rfl, by rw [hst]; simp⟩]
    unfold findPeers
    rw [if_neg (by rw [any_cnt]; simp only; omega)]
    simp only [if_true, set_self]
    exact ⟨trivial, List.mem_append_right _ (List.mem_singleton.2 rfl)⟩

example : (1, 0) ∈ (({} : Sys).run 60 [.start 1, .update 1 5 true true false]).running := by decide +kernel

/-- What happens to one torrent's source does not touch another's. -/
theorem C99_others_partial (interval : Nat) (s : Sys) (e : Ev) (k : Nat) (hk : k ≠ about e) :
    (s.step interval e).src k = s.src k ∧ (∀ n new, (found (s.step interval e) k n new).2 = (found s k n new).2) ∧
    (∀ id, (k, id) ∈ (s.step interval e).running ↔ (k, id) ∈ s.running) := by
  obtain ⟨a, b, c⟩ := step_same (interval := interval) (s := s) hk
  refine ⟨a, fun n new => ?_, fun id => ?_⟩
  · have : ((s.step interval e).entries.any fun x => x.1 = k) = (s.entries.any fun x => x.1 = k) := by
      have e1 : ∀ l : List (Nat × Nat), (l.any fun x => decide (x.1 = k)) = !(l.filter fun x => decide (x.1 = k)).isEmpty := by
        intro l
        induction l with
        | nil => rfl
        | cons y l ih =>
          by_cases hy : y.1 = k
          · simp [hy]
          · simp only [List.any_cons, hy, decide_false, Bool.false_or, ih]
            rw [List.filter_cons_of_neg (by simpa using hy)]
      rw [e1, e1, b]
    unfold found
    rw [this, a]
    split <;> rfl
  · have e1 : ∀ l : List (Nat × Nat), (k, id) ∈ l ↔ (k, id) ∈ l.filter fun x => decide (x.1 = k) := by
      intro l; simp
    rw [e1, c, ← e1]

example : (2 : Nat) ≠ about (.update 1 5 true true false) := by decide

/-- **Violated**: a query that was given up still reports its end under the hash.  The torrent is stopped and started while the first query runs; its
end ends the second search: the source says connected, the second query goes on, and what it finds is dropped. -/
theorem C99_old_violated :
    let s := ({} : Sys).run 60 [.start 1, .update 1 5 true true false, .stop 1, .start 1, .update 1 6 true true false, .finish 1 0 7]
    (s.src 1).state = .connected ∧ s.running = [(1, 1)] ∧ ∀ n new, (found s 1 n new).1 = s := by
  intro s
  refine ⟨by decide +kernel, by decide +kernel, fun n new => ?_⟩
  unfold found
  rw [if_neg]
  decide +kernel

/-- **Violated**: what the source returns for addresses is the number of peers it has ever found, and the query adds these up.  Three answers of ten new
peers each count as sixty, and after that one known address is enough to end a search that found nothing. -/
theorem C99_count_violated :
    let s := ({} : Sys).run 60 [.start 1, .update 1 5 true true false]
    foundCount s 1 [(10, 10), (10, 10), (10, 10)] = 60 ∧
    (let s' := s.run 60 [.found 1 0 10 10, .found 1 0 10 10, .found 1 0 40 40, .finish 1 0 9, .update 1 70 true true false]
     (s'.src 1).state = .announcing ∧ 50 ≤ foundCount s' 1 [(1, 0)]) := by
  decide +kernel

/-- It never counts too few: whatever is new is counted. -/
theorem C99_counted_partial (interval : Nat) (es : List Ev) (h : Nat) (l : List (Nat × Nat)) (hl : ∀ a ∈ l, a.2 ≤ a.1) :
    (l.map (·.2)).sum ≤ foundCount (({} : Sys).run interval es) h l := by
  generalize ({} : Sys).run interval es = s
  induction l generalizing s with
  | nil => exact Nat.le_refl _
  | cons a l ih =>
    have h1 := ih (fun b hb => hl b (List.mem_cons_of_mem _ hb)) (found s h a.1 a.2).1
    have h2 : a.2 ≤ (found s h a.1 a.2).2 := by
      unfold found
      split
      · simp only; omega
      · exact hl a List.mem_cons_self
    simp only [List.map_cons, List.sum_cons, foundCount]
    omega

example : foundCount (({} : Sys).run 60 [.start 1, .update 1 5 true true false]) 1 [(10, 3)] = 3 := by decide +kernel

/-- A stopped torrent does not search: whatever happens but a start, no query begins for it and nothing that queries still find is taken. -/
theorem C99_stopped_partial (interval : Nat) (es : List Ev) (h : Nat) (e : Ev)
    (hc : ((({} : Sys).run interval es).src h).state = .clear) (hne : e ≠ .start h) :
    let s := ({} : Sys).run interval es
    ((s.step interval e).src h).state = .clear ∧ ((s.step interval e).src h).peers = (s.src h).peers ∧
    (∀ id, (h, id) ∈ (s.step interval e).running → (h, id) ∈ s.running) := by
  intro s
  by_cases hk : h = about e
  · obtain ⟨h1, h2, h3⟩ := run_inv interval es inv_start h
    have h0 : cnt s.entries h = 0 := by
      have : cnt s.entries h ≠ 1 := fun x => by
        have := h2.2 x
        rw [hc] at this; cases this
      have h1' : cnt s.entries h ≤ 1 := h1
      omega
    have hno : ¬ (s.entries.any (fun e => decide (e.1 = h))) = true := by
      intro x
      have := (any_cnt _ _).1 x
      omega
    have hc' : (s.src h).state = .clear := hc
    cases e with
    | start k => subst hk; exact absurd rfl hne
    | stop k =>
      subst hk
      refine ⟨?_, ?_, fun _ x => x⟩
      · show (set _ _ _ _).state = _
        rw [set_self]
      · show (set _ _ _ _).peers = _
        rw [set_self]
    | update k now en nodes done =>
      have hk' : h = k := hk
      subst hk'
      have : s.step interval (.update h now en nodes done) = s := by
        show update _ _ _ _ _ _ _ = _
        unfold update
        rw [if_neg]
        rintro ⟨-, x⟩
        rw [hc'] at x; cases x
      exact ⟨(congrArg (fun t : Sys => (t.src _).state) this).trans hc', congrArg (fun t : Sys => (t.src _).peers) this, fun id x => by
        have e := congrArg Sys.running this
        rw [← e]; exact x⟩
    | refresh k now en nodes =>
      have hk' : h = k := hk
      subst hk'
      have : s.step interval (.refresh h now en nodes) = s := by
        show refresh _ _ _ _ _ _ = _
        unfold refresh
        rw [if_pos hc']
      exact ⟨(congrArg (fun t : Sys => (t.src _).state) this).trans hc', congrArg (fun t : Sys => (t.src _).peers) this, fun id x => by
        have e := congrArg Sys.running this
        rw [← e]; exact x⟩
    | finish k id now =>
      have hk' : h = k := hk
      subst hk'
      have : s.step interval (.finish h id now) = if (h, id) ∈ s.running then { s with running := s.running.erase (h, id) } else s := by
        show (if _ then _ else _) = _
        split
        · unfold findingFinished
          rw [if_neg hno]
        · rfl
      rw [this]
      split
      · exact ⟨hc', rfl, fun _ x => List.mem_of_mem_erase x⟩
      · exact ⟨hc', rfl, fun _ x => x⟩
    | found k id n new =>
      have hk' : h = k := hk
      subst hk'
      have : s.step interval (.found h id n new) = s := by
        show (if _ then _ else _) = _
        split
        · unfold found
          rw [if_neg hno]
        · rfl
      rw [this]
      exact ⟨hc', rfl, fun _ x => x⟩
  · obtain ⟨a, b, c⟩ := C99_others_partial interval s e h hk
    rw [a]
    exact ⟨hc, rfl, fun id x => (c id).1 x⟩

example : ((({} : Sys).run 60 [.start 1, .update 1 5 true true false, .stop 1]).src 1).state = .clear := by decide +kernel

/-- Asked for by hand, a started torrent that is not searching searches at once. -/
theorem C99_refresh_partial (interval : Nat) (es : List Ev) (h now : Nat)
    (hc : ((({} : Sys).run interval es).src h).state = .connected) :
    let s := ({} : Sys).run interval es
    ((s.step interval (.refresh h now true true)).src h).state = .announcing ∧ (h, s.fresh) ∈ (s.step interval (.refresh h now true true)).running := by
  intro s
  obtain ⟨h1, h2, h3⟩ := run_inv interval es inv_start h
  have h0 : cnt s.entries h = 0 := by
    have : cnt s.entries h ≠ 1 := fun x => by
      have := h2.2 x
      rw [hc] at this; cases this
    have h1' : cnt s.entries h ≤ 1 := h1
    omega
  have hno : ¬ (s.entries.any (fun e => decide (e.1 = h))) = true := by
    intro x
    have := (any_cnt _ _).1 x
    omega
  have hc' : (s.src h).state = .connected := hc
  have : s.step interval (.refresh h now true true) =
      { s with src := set s.src h { s.src h with state := .announcing, nextAnnounce := 0 }
               entries := s.entries ++ [(h, s.fresh)], fresh := s.fresh + 1, running := s.running ++ [(h, s.fresh)] } := by
    show refresh _ _ _ _ _ _ = _
    unfold refresh
    rw [if_neg (by rw [hc']; decide)]
    unfold find
    rw [if_pos ⟨rfl, by rw [hc']; decide⟩]
    unfold findPeers
    rw [if_neg hno]
    rfl
  rw [this]
  refine ⟨?_, by simp⟩
  show (set _ _ _ _).state = _
  rw [set_self]

example : ((({} : Sys).run 60 [.start 1]).src 1).state = .connected := by decide +kernel

end Verif
