import Verif.Proof.UdpDispatchLive
/-! C51: outstanding UDP requests. -/

namespace Verif
open UdpDispatch Spec

/-- C51: whatever the threads do and in whatever order, no null pointer is used: every step that can be taken
ends well. -/
theorem C51_defined {es : List Ev} {r : Res State} (h : run {} es = some r) : ∃ s, r = .ok s :=
  run_def es start_inv h

/-- C51: no request has two outcomes, whatever the order of datagrams, closing clients, expiring timers and
cancellations. -/
theorem C51_once {es : List Ev} {s : State} (h : run {} es = some (.ok s)) {k l i : Nat} {a b : Outcome}
    (hk : s.outcomes[k]? = some (i, a)) (hl : s.outcomes[l]? = some (i, b)) : k = l := by
  have hn := (List.nodup_append.mp (run_inv es start_inv h).nodup).2.1
  have hk' : s.ended[k]? = some i := by simp [State.ended, hk]
  have hl' : s.ended[l]? = some i := by simp [State.ended, hl]
  obtain ⟨h1, e1⟩ := List.getElem?_eq_some_iff.mp hk'
  obtain ⟨h2, e2⟩ := List.getElem?_eq_some_iff.mp hl'
  exact (List.Nodup.getElem_inj_iff hn).mp (e1.trans e2.symm)

/-- C51: no datagram completes two requests. -/
theorem C51_datagram {es : List Ev} {s : State} (h : run {} es = some (.ok s)) {i j n : Nat}
    (hi : (i, .accepted n) ∈ s.outcomes) (hj : (j, .accepted n) ∈ s.outcomes) : i = j := by
  have hn := (run_inv es start_inv h).taken.1
  obtain ⟨k, hk⟩ := List.getElem?_of_mem hi
  obtain ⟨l, hl⟩ := List.getElem?_of_mem hj
  suffices ∀ (o : List (Nat × Outcome)), (taken o).Nodup → (i, .accepted n) ∈ o → (j, .accepted n) ∈ o → i = j from this _ hn hi hj
  intro o
  induction o with
  | nil => intro _ h; cases h
  | cons x o ih =>
    intro hn hi hj
    have hm : ∀ a, (a, Outcome.accepted n) ∈ o → n ∈ taken o := fun a ha => List.mem_filterMap.mpr ⟨_, ha, rfl⟩
    have hx : x.2 = .accepted n → n ∉ taken o := by
      intro hx
      simp only [taken, List.filterMap_cons, hx] at hn
      exact (List.nodup_cons.mp hn).1
    have hn' : (taken o).Nodup := by
      simp only [taken, List.filterMap_cons] at hn
      split at hn
      · exact hn
      · exact (List.nodup_cons.mp hn).2
    rcases List.mem_cons.mp hi with hi | hi
    · rcases List.mem_cons.mp hj with hj | hj
      · rw [← hj] at hi; cases hi; rfl
      · exact absurd (hm j hj) (hx (by rw [← hi]))
    · rcases List.mem_cons.mp hj with hj | hj
      · exact absurd (hm i hi) (hx (by rw [← hj]))
      · exact ih hn' hi hj

/-- C51: no request is retried twice. -/
theorem C51_retry {es : List Ev} {s : State} (h : run {} es = some (.ok s)) : s.retried.Nodup :=
  (run_inv es start_inv h).retried.1

/-- C51: no request is forgotten: each one made is in the list, or with the datagram being handed out, or has its
outcome, and only one of these. -/
theorem C51_kept {es : List Ev} {s : State} (h : run {} es = some (.ok s)) {i : Nat} (hi : i < s.next) :
    let found := match s.job with | some j => j.found | none => []
    (i ∈ s.pending ∧ i ∉ found ∧ ∀ o, (i, o) ∉ s.outcomes) ∨ (i ∉ s.pending ∧ i ∈ found ∧ ∀ o, (i, o) ∉ s.outcomes) ∨
      (i ∉ s.pending ∧ i ∉ found ∧ ∃ o, (i, o) ∈ s.outcomes) := by
  have hinv := run_inv es start_inv h
  have hn := hinv.nodup
  rw [List.nodup_append] at hn
  obtain ⟨h1, _, h3⟩ := hn
  rw [State.live, List.nodup_append] at h1
  obtain ⟨_, _, h1⟩ := h1
  have he : ∀ o, (i, o) ∈ s.outcomes → i ∈ s.ended := fun o ho => List.mem_map.mpr ⟨_, ho, rfl⟩
  intro found
  rcases hinv.split hi with hl | hl
  · have hno : ∀ o, (i, o) ∉ s.outcomes := fun o ho => h3 i hl i (he o ho) rfl
    rcases List.mem_append.mp hl with hp | hp
    · exact .inl ⟨hp, fun hx => h1 i hp i hx rfl, hno⟩
    · exact .inr (.inl ⟨fun hx => h1 i hx i hp rfl, hp, hno⟩)
  · obtain ⟨⟨_, o⟩, ho, rfl⟩ := List.mem_map.mp hl
    exact .inr (.inr ⟨fun hx => h3 _ (List.mem_append_left _ hx) _ hl rfl, fun hx => h3 _ (List.mem_append_right _ hx) _ hl rfl, o, ho⟩)

/-- C51 (partial: for executions where no two waiting requests share a client and no timer is looked up while a
datagram for its client is handed out; see the violations): if timers expire and their handlers get on, every
request gets an outcome. -/
theorem C51_outcome_partial (x : Execution) (hf : Fair x) (hu : Undisturbed x) {i n : Nat} (hi : i < (x.state n).next) :
    ∃ m o, n ≤ m ∧ (i, o) ∈ (x.state m).outcomes := by
  by_contra hc
  have hn : ∀ m, n ≤ m → i ∉ (x.state m).ended := by
    intro m hm he
    obtain ⟨⟨_, o⟩, ho, rfl⟩ := List.mem_map.mp he
    exact hc ⟨m, o, hm, ho⟩
  have hlt : ∀ m, n ≤ m → i < (x.state m).next := fun m hm => by
    have := (exec_later x hi (m - n)).1
    rwa [Nat.add_sub_cancel' hm] at this
  have hlive : ∀ m, n ≤ m → i ∈ (x.state m).live := fun m hm => ((exec_inv x m).split (hlt m hm)).resolve_right (hn m hm)
  obtain ⟨m, hm, he⟩ := exec_act x hf hu hi hn
  have hs := x.next m
  rw [he] at hs
  rcases act_ends (exec_inv x m) (hlive m hm) hs with ⟨_, h1⟩ | h1
  · obtain ⟨k, hk, he⟩ := exec_act x hf hu (hlt (m + 1) (by omega)) (fun k hk => hn k (by omega))
    have hs := x.next k
    rw [he] at hs
    rcases act_ends (exec_inv x k) (hlive k (by omega)) hs with ⟨h2, _⟩ | h2
    · have := (exec_later x (hlt (m + 1) (by omega)) (k - (m + 1))).2.2.1
      rw [Nat.add_sub_cancel' hk] at this
      omega
    · exact hn (k + 1) (by omega) h2
  · exact hn (m + 1) (by omega) h1

/-- Nothing but new datagrams, closing, cancelling can end a request whose timer is lost. -/
private theorem lost_stays {s s' : State} (ha : ∀ k, (s.info k).armed = false) (hf : s.fired = []) (hl : s.looked = [])
    (hj : s.job = none) {e : Ev} (he : (∃ k, e = .fire k) ∨ (∃ c, e = .lookup c) ∨ (∃ x, e = .act x) ∨ (∃ t, e = .ask t) ∨ e = .done) :
    step s e ≠ some (.ok s') := by
  rcases he with ⟨k, rfl⟩ | ⟨c, rfl⟩ | ⟨x, rfl⟩ | ⟨t, rfl⟩ | rfl
  · simp [step, ha k]
  · simp [step, hf]
  · simp [step, hl]
  · simp [step, hj]
  · simp [step, hj]

/-- A request whose timer expires while a datagram for its client is handed out, and refused by the callback. -/
private def lostHistory : List Ev := [.send 7, .fire 0, .receive (· == 7), .lookup 7, .ask false, .done, .act none]

/-- C51 is false: a timer that expires while a datagram for its client is handed out does not find its request, and
nobody starts it again. Here the request is in the list without outcome, no timer runs, none has expired, and no
handler is under way: no step of timers or of dispatch can be taken any more. Only another datagram or closing
ends the wait. -/
theorem C51_lost_violated : ∃ s, run {} lostHistory = some (.ok s) ∧ s.pending = [0] ∧ s.outcomes = [] ∧ s.retried = [] ∧
    ∀ e s', (∃ k, e = .fire k) ∨ (∃ c, e = .lookup c) ∨ (∃ x, e = .act x) ∨ (∃ t, e = .ask t) ∨ e = .done → step s e ≠ some (.ok s') := by
  refine ⟨_, rfl, rfl, rfl, rfl, fun e s' he => ?_⟩
  refine lost_stays ?_ rfl rfl rfl he
  intro k
  match k with
  | 0 => rfl
  | _ + 1 => rfl

/-- Two requests on one client, the second with the shorter timeout. -/
private def sharedHistory : List Ev := [.send 7, .send 7, .fire 1, .lookup 7, .act (some 0), .receive (· == 7), .ask true, .ask false, .done]

/-- C51 is false for two requests on one client, without any race: the timer of the second counts for the first.
When that is answered, the second waits without a timer. -/
theorem C51_shared_violated : ∃ s, run {} sharedHistory = some (.ok s) ∧ s.pending = [1] ∧ s.outcomes = [(0, .accepted 0)] ∧ s.retried = [0] ∧
    ∀ e s', (∃ k, e = .fire k) ∨ (∃ c, e = .lookup c) ∨ (∃ x, e = .act x) ∨ (∃ t, e = .ask t) ∨ e = .done → step s e ≠ some (.ok s') := by
  refine ⟨_, rfl, rfl, rfl, rfl, fun e s' he => ?_⟩
  refine lost_stays ?_ rfl rfl rfl he
  intro k
  match k with
  | 0 => rfl
  | 1 => rfl
  | _ + 2 => rfl

/-- Three requests to two clients: a datagram refused by one request and taken by another, a timeout after a retry,
and a cancellation. -/
example : ∃ s, run {} [.send 7, .send 7, .send 8, .receive (· == 7), .ask false, .ask true, .done, .fire 0, .lookup 7, .act (some 0), .fire 0, .lookup 7, .act (some 0), .cancel 8] = some (.ok s) ∧
    s.outcomes = [(1, .accepted 0), (0, .closed), (2, .cancelled)] ∧ s.retried = [0] ∧ s.pending = [] :=
  ⟨_, rfl, rfl, rfl, rfl⟩

private def exEvents : List Ev := [.send 7, .fire 0, .lookup 7, .act (some 0), .fire 0, .lookup 7, .act (some 0)]

private def exState (n : Nat) : State := match run {} (exEvents.take n) with | some (.ok s) => s | _ => {}

private theorem exState_late (k : Nat) : exState (7 + k) = exState 7 := by
  unfold exState
  rw [show exEvents.take (7 + k) = exEvents.take 7 by rw [List.take_of_length_le (by simp [exEvents]), List.take_of_length_le (by simp [exEvents])]]

private def exExec : Execution where
  state := exState
  event n := exEvents[n]?
  start := rfl
  next n := by
    match n with
    | 0 => rfl
    | 1 => rfl
    | 2 => rfl
    | 3 => rfl
    | 4 => rfl
    | 5 => rfl
    | 6 => rfl
    | k + 7 =>
      rw [show exEvents[k + 7]? = none by simp [exEvents]]
      show exState (k + 7 + 1) = exState (k + 7)
      rw [show k + 7 + 1 = 7 + (k + 1) by omega, show k + 7 = 7 + k by omega, exState_late, exState_late]

private theorem exArmed (n i : Nat) (h : ((exState n).info (i + 1)).armed = true) : False := by
  match n with
  | 0 => cases h
  | 1 => cases h
  | 2 => cases h
  | 3 => cases h
  | 4 => cases h
  | 5 => cases h
  | 6 => cases h
  | k + 7 =>
    rw [show k + 7 = 7 + k by omega, exState_late] at h
    cases h

/-- The hypotheses of `C51_outcome_partial` hold of an execution in which a request is retried and then times out. -/
example : Fair exExec ∧ Undisturbed exExec ∧ (exExec.state 1).next = 1 ∧ (exExec.state 6).outcomes = [] ∧ (exExec.state 7).outcomes = [(0, .closed)] := by
  refine ⟨⟨?_, ?_, ?_⟩, ⟨?_, ?_⟩, rfl, rfl, rfl⟩
  · intro n i h
    match i, h with
    | i + 1, h => exact (exArmed n i h).elim
    | 0, h =>
      refine ⟨n + 7, by omega, .inr ?_⟩
      show ((exState (n + 7)).info 0).armed = false
      rw [show n + 7 = 7 + n by omega, exState_late]
      rfl
  · intro n c h
    match n, h with
    | 0, h => cases h
    | 1, h => cases h
    | 2, h => exact ⟨2, by omega, by rw [show c = 7 by simpa using (show c ∈ [7] from h)]; rfl⟩
    | 3, h => cases h
    | 4, h => cases h
    | 5, h => exact ⟨5, by omega, by rw [show c = 7 by simpa using (show c ∈ [7] from h)]; rfl⟩
    | 6, h => cases h
    | k + 7, h =>
      have h : c ∈ (exState (k + 7)).fired := h
      rw [show k + 7 = 7 + k by omega, exState_late] at h
      cases h
  · intro n i h
    match n, h with
    | 0, h => cases h
    | 1, h => cases h
    | 2, h => cases h
    | 3, h => exact ⟨3, by omega, by rw [show i = 0 by simpa using (show some i ∈ [some 0] from h)]; rfl⟩
    | 4, h => cases h
    | 5, h => cases h
    | 6, h => exact ⟨6, by omega, by rw [show i = 0 by simpa using (show some i ∈ [some 0] from h)]; rfl⟩
    | k + 7, h =>
      have h : some i ∈ (exState (k + 7)).looked := h
      rw [show k + 7 = 7 + k by omega, exState_late] at h
      cases h
  · intro n
    match n with
    | 0 => exact List.Pairwise.nil
    | 1 => exact List.pairwise_singleton _ _
    | 2 => exact List.pairwise_singleton _ _
    | 3 => exact List.pairwise_singleton _ _
    | 4 => exact List.pairwise_singleton _ _
    | 5 => exact List.pairwise_singleton _ _
    | 6 => exact List.pairwise_singleton _ _
    | k + 7 =>
      show (exState (k + 7)).pending.Pairwise _
      rw [show k + 7 = 7 + k by omega, exState_late]
      exact List.Pairwise.nil
  · intro n c j _ hj
    have hj : (exState n).job = some j := hj
    match n, hj with
    | 0, h => cases h
    | 1, h => cases h
    | 2, h => cases h
    | 3, h => cases h
    | 4, h => cases h
    | 5, h => cases h
    | 6, h => cases h
    | k + 7, h =>
      rw [show k + 7 = 7 + k by omega, exState_late] at h
      cases h

end Verif
