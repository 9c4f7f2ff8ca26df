import Verif.Proof.HttpComm
/-! Requests to trackers over HTTP and what comes back. -/

namespace Verif.HttpComm
open Verif Verif.Http Verif.Spec.HttpComm

/-- 1 while a request is under way. -/
def busy (s : State) : Nat := if s = .announcing then 1 else 0

theorem fail_busy (s : Comm) : busy s.state = (fail s).2.length + busy (fail s).1.state := by
  unfold fail
  by_cases h : s.state = .announcing
  · simp only [h, if_true]
    by_cases hl : s.last ≠ 0 <;> simp [hl, busy]
  · simp [h, busy]

theorem onClosed_busy (s : Comm) : busy s.state = (onClosed s).2.length + busy (onClosed s).1.state := by
  unfold onClosed
  split
  · exact fail_busy s
  · simp

theorem onConnected_busy (s : Comm) : busy (onConnected s).state = busy s.state := by
  unfold onConnected
  cases h : s.state <;> simp [busy, State.toNat]

theorem received_busy (reply : List UInt8 → Res (Nat × Announce)) (s : Comm) (c : Nat) (bs : List UInt8) (now : Nat) (a : Comm × List Out)
    (h : received reply s c bs now = .ok a) : busy s.state = a.2.length + busy a.1.state := by
  unfold received at h
  split at h
  · rename_i k hk
    split at h
    · dsimp only at h
      unfold onReceived at h
      by_cases hs : s.state = .announcing
      · rw [if_pos hs] at h
        cases hr : reply (k.buffer ++ bs) with
        | ok r =>
          rw [hr, Res.bind_ok] at h
          by_cases h1 : r.1 = 4294967295
          · rw [if_pos h1] at h
            simp only [Res.pure_eq, Res.bind_ok, Res.ok.injEq] at h
            subst h
            exact fail_busy s
          · rw [if_neg h1] at h
            by_cases h2 : r.1 ≠ 0
            · rw [if_pos h2] at h
              simp only [Res.pure_eq, Res.bind_ok, Res.ok.injEq] at h
              subst h
              simp [announced, busy, hs]
            · rw [if_neg h2] at h
              simp only [Res.pure_eq, Res.bind_ok, Res.ok.injEq] at h
              subst h
              simp
        | ub => rw [hr] at h; cases h
        | diverge => rw [hr] at h; cases h
      · rw [if_neg hs] at h
        simp only [Res.pure_eq, Res.bind_ok, Res.ok.injEq] at h
        subst h
        simp
    · simp only [Res.ok.injEq] at h; subst h; simp
  · simp only [Res.ok.injEq] at h; subst h; simp

theorem run_busy (reply : List UInt8 → Res (Nat × Announce)) : ∀ (es : List Ev) (s : Comm) (a : Comm × List Out), OneAtATime reply s es →
    run reply s es = .ok a → requests es + busy s.state = a.2.length + busy a.1.state
  | [], s, a, _, h => by
    simp only [run, Res.ok.injEq] at h
    subst h; simp [requests]
  | e :: es, s, a, ho, h => by
    rw [run] at h
    cases h1 : step reply s e with
    | ok b =>
      rw [h1, Res.bind_ok] at h
      cases h2 : run reply b.1 es with
      | ok d =>
        rw [h2, Res.bind_ok] at h
        simp only [Res.pure_eq, Res.ok.injEq] at h
        subst h
        have ih := run_busy reply es b.1 d (ho.2 b h1) h2
        simp only [List.length_append]
        cases e with
        | announce r =>
          have hn := ho.1 r rfl
          simp only [step, Res.ok.injEq] at h1
          subst h1
          have e1 : busy (announce s r).state = 1 := by simp [announce, busy]
          have e2 : busy s.state = 0 := by simp [busy, hn]
          have e3 : requests (Ev.announce r :: es) = requests es + 1 := by simp [requests]
          simp only [e1] at ih
          simp only [List.length_nil]
          omega
        | connected c =>
          simp only [step, Res.ok.injEq] at h1
          subst h1
          have e1 : busy (connected s c).state = busy s.state := by
            unfold connected
            split
            · split
              · dsimp only
                split
                · rw [onConnected_busy]
                · rfl
              · rfl
            · rfl
          have e3 : requests (Ev.connected c :: es) = requests es := by simp [requests]
          simp only [e1] at ih
          simp only [List.length_nil]
          omega
        | received c bs now =>
          have e1 := received_busy reply s c bs now b h1
          have e3 : requests (Ev.received c bs now :: es) = requests es := by simp [requests]
          omega
        | closed c =>
          simp only [step, Res.ok.injEq] at h1
          have e1 : busy s.state = b.2.length + busy b.1.state := by
            subst h1
            unfold closed
            split
            · split
              · dsimp only
                split
                · refine Eq.trans ?_ (onClosed_busy _)
                  rfl
                · simp
              · simp
            · simp
          have e3 : requests (Ev.closed c :: es) = requests es := by simp [requests]
          omega
        | deinit =>
          simp only [step, Res.ok.injEq] at h1
          subst h1
          have e3 : requests (Ev.deinit :: es) = requests es := by simp [requests]
          have e1 : busy (deinit s).state = busy s.state := rfl
          simp only [e1] at ih
          simp only [List.length_nil]
          omega
      | ub => rw [h2] at h; cases h
      | diverge => rw [h2] at h; cases h
    | ub => rw [h1] at h; cases h
    | diverge => rw [h1] at h; cases h

/-! ### One request -/

theorem run_append (reply : List UInt8 → Res (Nat × Announce)) : ∀ (xs ys : List Ev) (s : Comm), run reply s (xs ++ ys) = (do
      let a ← run reply s xs
      let b ← run reply a.1 ys
      pure (b.1, a.2 ++ b.2))
  | [], ys, s => by
    simp only [List.nil_append, run, Res.bind_ok]
    cases run reply s ys <;> rfl
  | x :: xs, ys, s => by
    simp only [List.cons_append, run]
    cases h : step reply s x with
    | ok a =>
      simp only [Res.bind_ok, run_append reply xs ys]
      cases h2 : run reply a.1 xs with
      | ok b =>
        simp only [Res.bind_ok, Res.pure_eq]
        cases h3 : run reply b.1 ys <;> simp [bind, Res.bind]
      | ub => rfl
      | diverge => rfl
    | ub => rfl
    | diverge => rfl

/-- A connection over which `r` was sent and `got` has come back. -/
def waiting (r got : List UInt8) : Conn := { phase := .connected, queue := [], sent := [r], buffer := got, told := true }

/-- A request was sent over the connection `n`, `got` has come back. -/
structure Asked (s : Comm) (n : Nat) (r got : List UInt8) : Prop where
  state : s.state = .announcing
  cur : s.cur = some n
  conn : s.conns[n]? = some (waiting r got)

theorem last_of (s : Comm) (r : List UInt8) (c : Nat) : (announce s r).last = s.last ∧ (connected (announce s r) c).last = s.last := by
  have h1 : (announce s r).last = s.last := by
    unfold announce
    cases s.cur <;> rfl
  refine ⟨h1, ?_⟩
  unfold connected onConnected
  split
  · split
    · dsimp only
      split <;> exact h1
    · exact h1
  · exact h1

theorem asked_of (s : Comm) (r : List UInt8) (h : s.cur = none) :
    Asked (connected (announce s r) s.conns.length) s.conns.length r [] := by
  have e1 : (announce s r).conns[s.conns.length]? = some { phase := .connecting, queue := [r] } := by
    simp [announce, h, Conn.write]
  have e2 : (announce s r).cur = some s.conns.length := by simp [announce, h]
  have e3 : (announce s r).state = .announcing := by simp [announce, h]
  have hlt : s.conns.length < (announce s r).conns.length := by
    exact (List.getElem?_eq_some_iff.mp e1).1
  unfold connected
  rw [e1]
  simp only [if_true]
  refine ⟨?_, ?_, ?_⟩
  · simp [onConnected, e3, State.toNat]
  · simp [onConnected, e2]
  · simp [onConnected, hlt, waiting]

theorem arrives_incomplete (reply : List UInt8 → Res (Nat × Announce)) (n : Nat) (r : List UInt8) :
    ∀ (bs : List (List UInt8 × Nat)) (got : List UInt8) (s : Comm), Asked s n r got → Incomplete reply got (bs.map (·.1)) →
    ∃ s', run reply s (arrives n bs) = .ok (s', []) ∧ Asked s' n r (got ++ (bs.map (·.1)).flatten) ∧ s'.last = s.last
  | [], got, s, h, _ => ⟨s, rfl, by simpa using h, rfl⟩
  | b :: bs, got, s, h, hi => by
    obtain ⟨⟨x, hx⟩, hi⟩ := hi
    have hlt := (List.getElem?_eq_some_iff.mp h.conn).1
    have hstep : step reply s (.received n b.1 b.2) = .ok ({ s with conns := s.conns.set n (waiting r (got ++ b.1)) }, []) := by
      simp only [step, received, h.conn, onReceived, if_pos h.state, hx, Res.bind_ok, waiting]
      simp [Res.pure_eq, Res.bind_ok]
    have ha : Asked { s with conns := s.conns.set n (waiting r (got ++ b.1)) } n r (got ++ b.1) :=
      ⟨h.state, h.cur, by simp [hlt]⟩
    obtain ⟨s', h1, h2, h3⟩ := arrives_incomplete reply n r bs (got ++ b.1) _ ha hi
    refine ⟨s', ?_, ?_, h3⟩
    · show run reply s (.received n b.1 b.2 :: arrives n bs) = _
      rw [run, hstep, Res.bind_ok, h1]
      rfl
    · simpa [List.append_assoc] using h2

theorem arrives_complete (reply : List UInt8 → Res (Nat × Announce)) (n : Nat) (r got b : List UInt8) (t : Nat) (s : Comm) (h : Asked s n r got)
    (a : Announce) (hc : Complete reply (got ++ b) a) :
    ∃ s', run reply s [.received n b t] = .ok (s', [.result a]) ∧ s'.state = .announced ∧ s'.interval = a.interval ∧ s'.last = t ∧
      s'.seeds = a.seed ∧ s'.leeches = a.leech ∧ s'.peers = a.peers.length % 4294967296 ∧
      ∃ k, s'.conns[n]? = some k ∧ k.sent = [r] ∧ k.queue = [] := by
  obtain ⟨k, hk, h1, h2⟩ := hc
  have hlt := (List.getElem?_eq_some_iff.mp h.conn).1
  simp only [run, step, received, h.conn, onReceived, if_pos h.state, hk, Res.bind_ok, waiting]
  simp only [if_neg h2, if_pos h1, Res.pure_eq, Res.bind_ok, and_self, if_true, List.append_nil]
  refine ⟨_, rfl, rfl, rfl, rfl, rfl, rfl, rfl, { phase := .connected, sent := [r], buffer := (got ++ b).drop k }, ?_, rfl, rfl⟩
  simp [announced, hlt]

theorem arrives_bad (reply : List UInt8 → Res (Nat × Announce)) (n : Nat) (r got b : List UInt8) (t : Nat) (s : Comm) (h : Asked s n r got)
    (hc : Bad reply (got ++ b)) :
    ∃ s', run reply s [.received n b t] = .ok (s', [.failed]) ∧ s'.state = (if s.last ≠ 0 then .alive else .offline) ∧ s'.cur = none := by
  obtain ⟨x, hk⟩ := hc
  simp only [run, step, received, h.conn, onReceived, if_pos h.state, hk, Res.bind_ok, waiting]
  simp only [Res.pure_eq, Res.bind_ok, and_self, if_true, List.append_nil, fail, h.state]
  exact ⟨_, rfl, rfl, rfl⟩

theorem closed_asked (reply : List UInt8 → Res (Nat × Announce)) (n : Nat) (k : Conn) (s : Comm) (h : s.conns[n]? = some k)
    (hk : k.phase = .connecting ∨ k.phase = .connected) (ht : k.told = true) (hs : s.state = .announcing) :
    ∃ s', run reply s [.closed n] = .ok (s', [.failed]) ∧ s'.state = (if s.last ≠ 0 then .alive else .offline) ∧ s'.cur = none := by
  simp only [run, step, closed, h, if_pos hk, ht, if_true, onClosed, hs, fail, Res.bind_ok, Res.pure_eq, List.append_nil]
  refine ⟨_, rfl, ?_, ?_⟩
  · simp only [ne_eq, reduceCtorEq, not_false_eq_true, if_true]
  · simp

/-! ### After the end -/

theorem mute_run (reply : List UInt8 → Res (Nat × Announce)) : ∀ (es : List Ev) (s : Comm), (∀ k ∈ s.conns, k.phase = .disconnected) → s.cur = none →
    (∀ e ∈ es, ∀ r, e ≠ .announce r) → run reply s es = .ok (s, [])
  | [], _, _, _, _ => rfl
  | e :: es, s, h, hc, he => by
    have hget : ∀ (c : Nat) (k : Conn), s.conns[c]? = some k → k.phase = .disconnected := fun c k hk => h k (List.mem_of_getElem? hk)
    have hstep : step reply s e = .ok (s, []) := by
      cases e with
      | announce r => exact absurd rfl (he _ (by simp) r)
      | connected c =>
        simp only [step, connected]
        split
        · rename_i k hk
          rw [if_neg (by rw [hget c k hk]; simp)]
        · rfl
      | received c bs t =>
        simp only [step, received]
        split
        · rename_i k hk
          rw [if_neg (by rw [hget c k hk]; simp)]
        · rfl
      | closed c =>
        simp only [step, closed]
        split
        · rename_i k hk
          rw [if_neg (by rw [hget c k hk]; simp)]
        · rfl
      | deinit =>
        cases s
        simp only at hc
        subst hc
        rfl
    rw [run, hstep, Res.bind_ok, mute_run reply es s h hc (fun e' he' => he e' (List.mem_cons_of_mem _ he'))]
    rfl

end Verif.HttpComm
