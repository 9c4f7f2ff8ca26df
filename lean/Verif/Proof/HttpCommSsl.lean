import Verif.Proof.HttpCommRun
/-! Requests to trackers over HTTPS and what comes back. -/

namespace Verif.HttpComm
open Verif Verif.Http Verif.Spec.HttpComm

theorem sslFail_busy (s : Ssl) : busy s.state = (sslFail s).2.length + busy (sslFail s).1.state := by
  unfold sslFail
  by_cases h : s.state = .announcing
  · simp only [h, if_true]
    by_cases hl : s.last ≠ 0 <;> simp [hl, busy]
  · simp [h]

theorem postFail_busy (s : Ssl) : busy s.state = (postFail s).2.length + busy (postFail s).1.state := by
  unfold postFail
  split
  · simp
  · dsimp only
    split
    · refine Eq.trans ?_ (sslFail_busy _)
      rfl
    · simp

theorem doWrite_state (s : Ssl) : (doWrite s).state = s.state := by
  unfold doWrite
  cases s.phase <;> rfl

theorem sslReceived_busy (reply : List UInt8 → Res (Nat × Announce)) (s : Ssl) (bs : List UInt8) (now : Nat) (a : Ssl × List Out)
    (h : sslReceived reply s bs now = .ok a) : busy s.state = a.2.length + busy a.1.state := by
  unfold sslReceived at h
  by_cases hs : s.state = .announcing
  · rw [if_pos hs] at h
    cases hr : reply bs with
    | ok r =>
      rw [hr, Res.bind_ok] at h
      by_cases h1 : r.1 = 0
      · rw [if_pos h1] at h
        simp only [Res.pure_eq, Res.ok.injEq] at h
        subst h
        simp
      · rw [if_neg h1] at h
        by_cases h2 : r.1 = 4294967295
        · rw [if_pos h2] at h
          simp only [Res.pure_eq, Res.ok.injEq] at h
          subst h
          exact sslFail_busy s
        · rw [if_neg h2] at h
          simp only [Res.pure_eq, Res.ok.injEq] at h
          subst h
          simp [busy, hs]
    | ub => rw [hr] at h; cases h
    | diverge => rw [hr] at h; cases h
  · rw [if_neg hs] at h
    simp only [Res.ok.injEq] at h
    subst h
    simp

theorem sslStep_busy (reply : List UInt8 → Res (Nat × Announce)) (s : Ssl) (e : SslEv) (a : Ssl × List Out) (he : ∀ r, e ≠ .announce r)
    (h : sslStep reply s e = .ok a) : busy s.state = a.2.length + busy a.1.state := by
  cases e with
  | announce r => exact absurd rfl (he r)
  | resolved ok =>
    simp only [sslStep] at h
    split at h
    · simp only [Res.ok.injEq] at h
      subst h
      split
      · simp
      · refine Eq.trans ?_ (postFail_busy _); rfl
    · simp only [Res.ok.injEq] at h; subst h; simp
  | connected ok =>
    simp only [sslStep] at h
    split at h
    · simp only [Res.ok.injEq] at h
      subst h
      split
      · simp
      · refine Eq.trans ?_ (postFail_busy _); rfl
    · simp only [Res.ok.injEq] at h; subst h; simp
  | shaken ok =>
    simp only [sslStep] at h
    split at h
    · simp only [Res.ok.injEq] at h
      subst h
      split
      · simp [doWrite_state]
      · refine Eq.trans ?_ (postFail_busy _); rfl
    · simp only [Res.ok.injEq] at h; subst h; simp
  | written n =>
    simp only [sslStep] at h
    split at h
    · simp only [Res.ok.injEq] at h; subst h; simp
    · simp only [Res.ok.injEq] at h; subst h; simp
  | received bs now =>
    simp only [sslStep] at h
    split at h
    · unfold handleReceive at h
      dsimp only at h
      split at h
      · simp only [Res.ok.injEq] at h; subst h; simp
      · split at h
        · refine Eq.trans ?_ (sslReceived_busy _ _ _ _ _ h); rfl
        · simp only [Res.ok.injEq] at h; subst h; simp
    · simp only [Res.ok.injEq] at h; subst h; simp
  | error =>
    simp only [sslStep] at h
    split at h
    · simp only [Res.ok.injEq] at h
      subst h
      refine Eq.trans ?_ (postFail_busy _); rfl
    · simp only [Res.ok.injEq] at h; subst h; simp

theorem sslRun_busy (reply : List UInt8 → Res (Nat × Announce)) : ∀ (es : List SslEv) (s : Ssl) (a : Ssl × List Out), SslOneAtATime reply s es →
    sslRun reply s es = .ok a → sslRequests es + busy s.state = a.2.length + busy a.1.state
  | [], s, a, _, h => by
    simp only [sslRun, Res.ok.injEq] at h
    subst h; simp [sslRequests]
  | e :: es, s, a, ho, h => by
    rw [sslRun] at h
    cases h1 : sslStep reply s e with
    | ok b =>
      rw [h1, Res.bind_ok] at h
      cases h2 : sslRun reply b.1 es with
      | ok d =>
        rw [h2, Res.bind_ok] at h
        simp only [Res.pure_eq, Res.ok.injEq] at h
        subst h
        have ih := sslRun_busy reply es b.1 d (ho.2 b h1) h2
        simp only [List.length_append]
        by_cases he : ∃ r, e = .announce r
        · obtain ⟨r, rfl⟩ := he
          have hn := ho.1 r rfl
          simp only [sslStep, Res.ok.injEq] at h1
          subst h1
          have e1 : busy (sslAnnounce s r).state = 1 := by simp [sslAnnounce, doWrite_state, busy]
          have e2 : busy s.state = 0 := by simp [busy, hn]
          have e3 : sslRequests (SslEv.announce r :: es) = sslRequests es + 1 := by simp [sslRequests]
          simp only [e1] at ih
          simp only [List.length_nil]
          omega
        · have he' : ∀ r, e ≠ .announce r := fun r hr => he ⟨r, hr⟩
          have e1 := sslStep_busy reply s e b he' h1
          have e3 : sslRequests (e :: es) = sslRequests es := by
            cases e with
            | announce r => exact absurd rfl (he' r)
            | _ => simp [sslRequests]
          omega
      | ub => rw [h2] at h; cases h
      | diverge => rw [h2] at h; cases h
    | ub => rw [h1] at h; cases h
    | diverge => rw [h1] at h; cases h

/-! ### One request -/

theorem sslRun_append (reply : List UInt8 → Res (Nat × Announce)) : ∀ (xs ys : List SslEv) (s : Ssl), sslRun reply s (xs ++ ys) = (do
      let a ← sslRun reply s xs
      let b ← sslRun reply a.1 ys
      pure (b.1, a.2 ++ b.2))
  | [], ys, s => by
    simp only [List.nil_append, sslRun, Res.bind_ok]
    cases sslRun reply s ys <;> rfl
  | x :: xs, ys, s => by
    simp only [List.cons_append, sslRun]
    cases h : sslStep reply s x with
    | ok a =>
      simp only [Res.bind_ok, sslRun_append reply xs ys]
      cases h2 : sslRun reply a.1 xs with
      | ok b =>
        simp only [Res.bind_ok, Res.pure_eq]
        cases h3 : sslRun reply b.1 ys <;> simp [bind, Res.bind]
      | ub => rfl
      | diverge => rfl
    | ub => rfl
    | diverge => rfl

/-- A request was sent, `got` has come back. -/
structure SslAsked (s : Ssl) (got : List UInt8) : Prop where
  state : s.state = .announcing
  task : s.task = .reading
  phase : s.phase = .connected
  used : s.used = true
  callback : s.callback = true
  buffer : s.readBuffer = got

theorem blocks_full (reply : List UInt8 → Res (Nat × Announce)) : ∀ (bs : List (List UInt8 × Nat)) (got : List UInt8) (s : Ssl), SslAsked s got →
    (∀ b ∈ bs, b.1.length = 512) →
    ∃ s', sslRun reply s (blocks bs) = .ok (s', []) ∧ SslAsked s' (got ++ (bs.map (·.1)).flatten) ∧ s'.sent = s.sent ∧ s'.known = s.known
  | [], got, s, h, _ => ⟨s, rfl, by simpa using h, rfl, rfl⟩
  | b :: bs, got, s, h, hb => by
    have hl := hb b (by simp)
    have hne : b.1 ≠ [] := by intro e; rw [e] at hl; cases hl
    have hstep : sslStep reply s (.received b.1 b.2) = .ok ({ s with readBuffer := s.readBuffer ++ b.1, task := .reading }, []) := by
      simp only [sslStep, h.task, true_and, hl, handleReceive, Nat.le_refl, and_true, if_true]
      rw [if_pos hne]
    have ha : SslAsked { s with readBuffer := s.readBuffer ++ b.1, task := .reading } (got ++ b.1) :=
      ⟨h.state, rfl, h.phase, h.used, h.callback, by rw [← h.buffer]⟩
    obtain ⟨s', h1, h2, h3, h4⟩ := blocks_full reply bs (got ++ b.1) _ ha (fun x hx => hb x (List.mem_cons_of_mem _ hx))
    refine ⟨s', ?_, ?_, h3, h4⟩
    · show sslRun reply s (.received b.1 b.2 :: blocks bs) = _
      rw [sslRun, hstep, Res.bind_ok, h1]
      rfl
    · simpa [List.append_assoc] using h2

theorem block_last (reply : List UInt8 → Res (Nat × Announce)) (got b : List UInt8) (t : Nat) (s : Ssl) (h : SslAsked s got)
    (hne : b ≠ []) (hl : b.length < 512) :
    sslRun reply s [.received b t] = (do
      let r ← sslReceived reply { s with readBuffer := [], task := .none } (got ++ b) t
      pure r) := by
  have h1 : ¬ b.length = 512 := by omega
  have h2 : s.readBuffer ++ b ≠ [] := by simp [hne]
  simp only [sslRun, sslStep, h.task, true_and, handleReceive]
  rw [if_pos ⟨hne, by omega⟩, if_neg h1, if_pos ⟨h2, h.callback⟩, h.buffer]
  cases sslReceived reply { s with readBuffer := [], task := .none } (got ++ b) t with
  | ok r => simp [Res.bind_ok, Res.pure_eq]
  | ub => rfl
  | diverge => rfl

theorem block_complete (reply : List UInt8 → Res (Nat × Announce)) (got b : List UInt8) (t : Nat) (s : Ssl) (h : SslAsked s got)
    (hne : b ≠ []) (hl : b.length < 512) (a : Announce) (hc : Complete reply (got ++ b) a) :
    ∃ s', sslRun reply s [.received b t] = .ok (s', [.result a]) ∧ s'.state = .announced ∧ s'.interval = a.interval ∧ s'.last = t ∧
      s'.seeds = a.seed ∧ s'.leeches = a.leech ∧ s'.peers = a.peers.length % 4294967296 ∧ Linked s' ∧ s'.sent = s.sent := by
  obtain ⟨k, hk, h1, h2⟩ := hc
  rw [block_last reply got b t s h hne hl]
  unfold sslReceived
  rw [if_pos h.state, hk, Res.bind_ok]
  simp only [if_neg h1, if_neg h2, Res.pure_eq]
  exact ⟨_, rfl, rfl, rfl, rfl, rfl, rfl, rfl, ⟨h.phase, rfl, h.used, rfl⟩, rfl⟩

theorem block_bad (reply : List UInt8 → Res (Nat × Announce)) (got b : List UInt8) (t : Nat) (s : Ssl) (h : SslAsked s got)
    (hne : b ≠ []) (hl : b.length < 512) (hc : Bad reply (got ++ b)) :
    ∃ s', sslRun reply s [.received b t] = .ok (s', [.failed]) ∧ s'.state ≠ .announcing ∧ Linked s' := by
  obtain ⟨x, hk⟩ := hc
  rw [block_last reply got b t s h hne hl]
  unfold sslReceived
  rw [if_pos h.state, hk, Res.bind_ok]
  simp only [Res.pure_eq, sslFail, h.state, if_true]
  refine ⟨_, rfl, ?_, ⟨h.phase, rfl, h.used, rfl⟩⟩
  dsimp only
  split <;> simp

theorem block_incomplete (reply : List UInt8 → Res (Nat × Announce)) (got b : List UInt8) (t : Nat) (s : Ssl) (h : SslAsked s got)
    (hne : b ≠ []) (hl : b.length < 512) (x : Announce) (hc : reply (got ++ b) = .ok (0, x)) :
    sslRun reply s [.received b t] = .ok ({ s with readBuffer := [], task := .none }, []) := by
  rw [block_last reply got b t s h hne hl]
  unfold sslReceived
  rw [if_pos h.state, hc, Res.bind_ok]
  rfl

theorem error_asked (reply : List UInt8 → Res (Nat × Announce)) (s : Ssl) (hs : s.state = .announcing) (ht : s.task = .writing ∨ s.task = .reading)
    (hp : s.phase = .connected) (hc : s.callback = true) :
    ∃ s', sslRun reply s [.error] = .ok (s', [.failed]) ∧ s'.state ≠ .announcing ∧ s'.phase = .disconnected ∧ s'.task = .none ∧ s'.used = s.used := by
  simp only [sslRun, sslStep, if_pos ht, postFail, hp, hc, sslFail, hs, reduceCtorEq, if_false, if_true, Res.bind_ok, Res.pure_eq, List.append_nil]
  refine ⟨_, rfl, ?_, rfl, rfl, rfl⟩
  dsimp only
  split <;> simp

theorem opening_asked (reply : List UInt8 → Res (Nat × Announce)) (s : Ssl) (r : List UInt8) (n : Nat) (h : Fresh s) :
    ∃ s', sslRun reply s (opening r n) = .ok (s', []) ∧ SslAsked s' [] ∧ s'.sent = s.sent ++ r.take n := by
  simp only [opening, sslRun, sslStep, sslAnnounce, doWrite, h.phase, h.known, h.used, Bool.false_eq_true, if_false, if_true, Res.bind_ok,
    Bool.not_false, Bool.and_self, Res.pure_eq, List.append_nil]
  exact ⟨_, rfl, ⟨rfl, rfl, rfl, rfl, rfl, h.buffer⟩, rfl⟩

theorem again_asked (reply : List UInt8 → Res (Nat × Announce)) (s : Ssl) (r : List UInt8) (n : Nat) (h : Linked s) :
    ∃ s', sslRun reply s [.announce r, .written n] = .ok (s', []) ∧ SslAsked s' [] ∧ s'.sent = s.sent ++ r.take n := by
  simp only [sslRun, sslStep, sslAnnounce, doWrite, h.phase, if_true, Res.bind_ok, Res.pure_eq, List.append_nil]
  exact ⟨_, rfl, ⟨rfl, rfl, rfl, h.used, rfl, h.buffer⟩, rfl⟩

theorem resolve_failed (reply : List UInt8 → Res (Nat × Announce)) (s : Ssl) (r : List UInt8) (h : Fresh s) :
    ∃ s', sslRun reply s [.announce r, .resolved false] = .ok (s', [.failed]) ∧ s'.state ≠ .announcing ∧ Fresh s' := by
  simp only [sslRun, sslStep, sslAnnounce, doWrite, h.phase, h.known, Bool.false_eq_true, if_false, if_true, Res.bind_ok,
    Res.pure_eq, List.append_nil, List.nil_append, postFail, sslFail, reduceCtorEq]
  refine ⟨_, rfl, ?_, ⟨rfl, rfl, h.used, rfl, h.buffer⟩⟩
  dsimp only
  split <;> simp

theorem connect_failed (reply : List UInt8 → Res (Nat × Announce)) (s : Ssl) (r : List UInt8) (h : Fresh s) :
    ∃ s', sslRun reply s [.announce r, .resolved true, .connected false] = .ok (s', [.failed]) ∧ s'.state ≠ .announcing ∧ Fresh s' := by
  simp only [sslRun, sslStep, sslAnnounce, doWrite, h.phase, h.known, Bool.false_eq_true, if_false, if_true, Res.bind_ok, Bool.false_and,
    Res.pure_eq, List.append_nil, List.nil_append, postFail, sslFail, reduceCtorEq]
  refine ⟨_, rfl, ?_, ⟨rfl, rfl, h.used, rfl, h.buffer⟩⟩
  dsimp only
  split <;> simp

theorem shake_failed (reply : List UInt8 → Res (Nat × Announce)) (s : Ssl) (r : List UInt8) (h : Fresh s) :
    ∃ s', sslRun reply s [.announce r, .resolved true, .connected true, .shaken false] = .ok (s', [.failed]) ∧ s'.state ≠ .announcing ∧
      s'.phase = .disconnected := by
  simp only [sslRun, sslStep, sslAnnounce, doWrite, h.phase, h.known, h.used, Bool.false_eq_true, if_false, if_true, Res.bind_ok, Bool.not_false,
    Bool.and_self, Res.pure_eq, List.append_nil, List.nil_append, postFail, sslFail, reduceCtorEq]
  refine ⟨_, rfl, ?_, rfl⟩
  dsimp only
  split <;> simp

theorem write_failed (reply : List UInt8 → Res (Nat × Announce)) (s : Ssl) (r : List UInt8) (h : Fresh s) :
    ∃ s', sslRun reply s [.announce r, .resolved true, .connected true, .shaken true, .error] = .ok (s', [.failed]) ∧ s'.state ≠ .announcing ∧
      s'.phase = .disconnected := by
  simp only [sslRun, sslStep, sslAnnounce, doWrite, h.phase, h.known, h.used, Bool.false_eq_true, if_false, if_true, Res.bind_ok, Bool.not_false,
    Bool.and_self, Res.pure_eq, List.append_nil, List.nil_append, postFail, sslFail, reduceCtorEq, true_or]
  refine ⟨_, rfl, ?_, rfl⟩
  dsimp only
  split <;> simp

/-! ### What goes wrong -/

/-- Nothing is under way any more. -/
theorem stuck (reply : List UInt8 → Res (Nat × Announce)) (s : Ssl) (h : s.task = .none) : ∀ es : List SslEv, (∀ e ∈ es, ∀ r, e ≠ .announce r) →
    sslRun reply s es = .ok (s, [])
  | [], _ => rfl
  | e :: es, he => by
    have h1 : sslStep reply s e = .ok (s, []) := by
      cases e with
      | announce r => exact absurd rfl (he _ (by simp) r)
      | _ => simp [sslStep, h]
    rw [sslRun, h1, Res.bind_ok, stuck reply s h es (fun e' he' => he e' (List.mem_cons_of_mem _ he'))]
    rfl

/-- The socket was connected once and is no more. -/
structure Dead (s : Ssl) : Prop where
  used : s.used = true
  phase : s.phase ≠ .connected
  task : s.task = .none ∨ s.task = .resolving ∨ s.task = .connecting

theorem postFail_dead (s : Ssl) (h : s.used = true) (ht : s.task = .none) (hp : s.phase ≠ .connected) :
    Dead (postFail s).1 ∧ ∀ o ∈ (postFail s).2, o = .failed := by
  unfold postFail
  split
  · exact ⟨⟨h, hp, .inl ht⟩, by simp⟩
  · dsimp only
    split
    · unfold sslFail
      split
      · exact ⟨⟨h, by simp, .inl ht⟩, by simp⟩
      · exact ⟨⟨h, by simp, .inl ht⟩, by simp⟩
    · exact ⟨⟨h, by simp, .inl ht⟩, by simp⟩

theorem dead_step (reply : List UInt8 → Res (Nat × Announce)) (s : Ssl) (h : Dead s) (e : SslEv) :
    ∃ a, sslStep reply s e = .ok a ∧ Dead a.1 ∧ ∀ o ∈ a.2, o = .failed := by
  have same : ∃ a, (Res.ok (s, []) : Res (Ssl × List Out)) = .ok a ∧ Dead a.1 ∧ ∀ o ∈ a.2, o = .failed := ⟨_, rfl, h, by simp⟩
  cases e with
  | announce r =>
    refine ⟨_, rfl, ?_, by simp⟩
    simp only [sslAnnounce, doWrite]
    cases hp : s.phase with
    | connected => exact absurd hp h.phase
    | connecting => exact ⟨h.used, by simp, h.task⟩
    | disconnected =>
      refine ⟨h.used, by simp, ?_⟩
      dsimp only
      split
      · exact .inr (.inr rfl)
      · exact .inr (.inl rfl)
  | resolved ok =>
    simp only [sslStep]
    split
    · cases ok with
      | true => exact ⟨_, rfl, ⟨h.used, h.phase, .inr (.inr rfl)⟩, by simp⟩
      | false => exact ⟨_, rfl, postFail_dead { s with task := .none } h.used rfl h.phase⟩
    · exact same
  | connected ok =>
    simp only [sslStep]
    split
    · have : (ok && !s.used) = false := by simp [h.used]
      rw [this]
      exact ⟨_, rfl, postFail_dead { s with task := .none } h.used rfl h.phase⟩
    · exact same
  | shaken ok =>
    have : ¬ s.task = .shaking := by rcases h.task with h | h | h <;> simp [h]
    simp only [sslStep, if_neg this]; exact same
  | written n =>
    have : ¬ s.task = .writing := by rcases h.task with h | h | h <;> simp [h]
    simp only [sslStep, if_neg this]; exact same
  | received bs now =>
    have : ¬ (s.task = .reading ∧ bs ≠ [] ∧ bs.length ≤ 512) := by rcases h.task with h | h | h <;> simp [h]
    simp only [sslStep, if_neg this]; exact same
  | error =>
    have : ¬ (s.task = .writing ∨ s.task = .reading) := by rcases h.task with h | h | h <;> simp [h]
    simp only [sslStep, if_neg this]; exact same

theorem dead_run (reply : List UInt8 → Res (Nat × Announce)) : ∀ (es : List SslEv) (s : Ssl), Dead s →
    ∃ a, sslRun reply s es = .ok a ∧ ∀ o ∈ a.2, o = .failed
  | [], s, _ => ⟨_, rfl, by simp⟩
  | e :: es, s, h => by
    obtain ⟨a, h1, h2, h3⟩ := dead_step reply s h e
    obtain ⟨b, h4, h5⟩ := dead_run reply es a.1 h2
    refine ⟨(b.1, a.2 ++ b.2), ?_, ?_⟩
    · rw [sslRun, h1, Res.bind_ok, h4]; rfl
    · intro o ho
      rcases List.mem_append.mp ho with ho | ho
      · exact h3 o ho
      · exact h5 o ho

/-- What was sent stays as it is. -/
theorem sent_same (reply : List UInt8 → Res (Nat × Announce)) : ∀ (es : List SslEv) (s : Ssl) (a : Ssl × List Out), s.task = .none ∨ s.task = .reading →
    (∀ e ∈ es, ∀ r, e ≠ .announce r) → sslRun reply s es = .ok a → a.1.sent = s.sent
  | [], s, a, _, _, h => by simp only [sslRun, Res.ok.injEq] at h; subst h; rfl
  | e :: es, s, a, ht, he, h => by
    rw [sslRun] at h
    cases h1 : sslStep reply s e with
    | ok b =>
      rw [h1, Res.bind_ok] at h
      cases h2 : sslRun reply b.1 es with
      | ok d =>
        rw [h2, Res.bind_ok] at h
        simp only [Res.pure_eq, Res.ok.injEq] at h
        subst h
        have hb : b.1.sent = s.sent ∧ (b.1.task = .none ∨ b.1.task = .reading) := by
          have hf : ∀ x : Ssl, (postFail x).1.sent = x.sent ∧ (postFail x).1.task = x.task := by
            intro x
            unfold postFail sslFail
            split
            · exact ⟨rfl, rfl⟩
            · dsimp only
              split
              · split <;> exact ⟨rfl, rfl⟩
              · exact ⟨rfl, rfl⟩
          cases e with
          | announce r => exact absurd rfl (he _ (by simp) r)
          | resolved ok =>
            have : ¬ s.task = .resolving := by rcases ht with h | h <;> simp [h]
            simp only [sslStep, if_neg this, Res.ok.injEq] at h1; subst h1; exact ⟨rfl, ht⟩
          | connected ok =>
            have : ¬ s.task = .connecting := by rcases ht with h | h <;> simp [h]
            simp only [sslStep, if_neg this, Res.ok.injEq] at h1; subst h1; exact ⟨rfl, ht⟩
          | shaken ok =>
            have : ¬ s.task = .shaking := by rcases ht with h | h <;> simp [h]
            simp only [sslStep, if_neg this, Res.ok.injEq] at h1; subst h1; exact ⟨rfl, ht⟩
          | written n =>
            have : ¬ s.task = .writing := by rcases ht with h | h <;> simp [h]
            simp only [sslStep, if_neg this, Res.ok.injEq] at h1; subst h1; exact ⟨rfl, ht⟩
          | error =>
            simp only [sslStep] at h1
            split at h1
            · simp only [Res.ok.injEq] at h1; subst h1
              have := hf { s with task := .none }
              exact ⟨this.1, .inl this.2⟩
            · simp only [Res.ok.injEq] at h1; subst h1; exact ⟨rfl, ht⟩
          | received bs now =>
            simp only [sslStep] at h1
            split at h1
            · unfold handleReceive at h1
              dsimp only at h1
              split at h1
              · simp only [Res.ok.injEq] at h1; subst h1; exact ⟨rfl, .inr rfl⟩
              · split at h1
                · unfold sslReceived at h1
                  split at h1
                  · cases hr : reply (s.readBuffer ++ bs) with
                    | ok r =>
                      rw [hr, Res.bind_ok] at h1
                      by_cases c1 : r.1 = 0
                      · rw [if_pos c1] at h1
                        simp only [Res.pure_eq, Res.ok.injEq] at h1; subst h1; exact ⟨rfl, .inl rfl⟩
                      · rw [if_neg c1] at h1
                        by_cases c2 : r.1 = 4294967295
                        · rw [if_pos c2] at h1
                          simp only [Res.pure_eq, Res.ok.injEq] at h1; subst h1
                          unfold sslFail
                          split <;> exact ⟨rfl, .inl rfl⟩
                        · rw [if_neg c2] at h1
                          simp only [Res.pure_eq, Res.ok.injEq] at h1; subst h1; exact ⟨rfl, .inl rfl⟩
                    | ub => rw [hr] at h1; cases h1
                    | diverge => rw [hr] at h1; cases h1
                  · simp only [Res.ok.injEq] at h1; subst h1; exact ⟨rfl, .inl rfl⟩
                · simp only [Res.ok.injEq] at h1; subst h1; exact ⟨rfl, .inl rfl⟩
            · simp only [Res.ok.injEq] at h1; subst h1; exact ⟨rfl, ht⟩
        exact (sent_same reply es b.1 d hb.2 (fun e' he' => he e' (List.mem_cons_of_mem _ he')) h2).trans hb.1
      | ub => rw [h2] at h; cases h
      | diverge => rw [h2] at h; cases h
    | ub => rw [h1] at h; cases h
    | diverge => rw [h1] at h; cases h

end Verif.HttpComm
