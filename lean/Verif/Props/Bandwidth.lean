import Verif.Proof.BandwidthRun
/-! C39: grants of bandwidth. The theorems named partial leave out amounts, priorities and limits of 2^31 and more,
requests for 0 bytes, and requests for more than two channels; see `C39_amount_violated`. -/

namespace Verif
open Bandwidth Spec

/-- C39: over any period during which the limit `l` of the channel `c` is kept, after any earlier history, the bytes
granted on it are at most the limit times the period, half a byte of rounding per tick, and the burst: the quota the
channel had at the start of the period and the bytes set aside for the requests then waiting. -/
theorem C39_limit_partial (before period : List Ev) (hb : Sane before) (hp : Sane period) (c l : Nat) (hl : 0 < l) (hk : Keeps c l period) :
    ∃ s s' gs gs', run {} before = .ok (s, gs) ∧ run s period = .ok (s', gs') ∧
      ((s.channels c).limit = l → 1000 * granted c gs' ≤ l * elapsed period + 500 * ticks period + 1000 * burst c s) := by
  obtain ⟨s, gs, e, R⟩ := run_spec before {} inv_init hb
  obtain ⟨s', gs', e', R'⟩ := run_spec period s R.inv hp
  refine ⟨s, s', gs, gs', e, e', fun h => ?_⟩
  have h1 := R'.total c l hk hl h
  have h2 := burst_nonneg R'.inv c
  omega

/-- C39: when the limit is set at the start, before anything was granted, there is no burst. -/
theorem C39_limit_start_partial (es : List Ev) (he : Sane es) (c l : Nat) (hl : 0 < l) (hl' : l < 2147483648) (hk : Keeps c l es) :
    ∃ s gs, run {} (.setLimit c l :: es) = .ok (s, gs) ∧ 1000 * granted c gs ≤ l * elapsed es + 500 * ticks es := by
  obtain ⟨s1, g1, e1, S⟩ := step_spec inv_init (e := .setLimit c l) hl'
  have hx : (s1.channels c).limit = l ∧ burst c s1 = 0 ∧ g1 = [] := by
    cases e1
    simp [burst, set_same, toInt32_of (x := (l : Int)) (by omega) (by omega)]
  obtain ⟨s2, g2, e2, R⟩ := run_spec es s1 S.inv he
  refine ⟨s2, g1 ++ g2, by simp [run, e1, e2, Res.bind_ok], ?_⟩
  have h1 := R.total c l hk hl hx.1
  have h2 := burst_nonneg R.inv c
  rw [hx.2.2, List.nil_append]
  omega

/-- 3 s with a limit of 1000 bytes per second: 3000 bytes are granted, of 5000. -/
example : ∃ s gs, run {} (.setLimit 0 1000 :: [.request 7 5000 1 [0], .tick 1000 [], .tick 1000 [], .tick 1000 []]) = .ok (s, gs) ∧
    1000 * granted 0 gs ≤ 1000 * 3000 + 1500 := by
  have h := C39_limit_start_partial [.request 7 5000 1 [0], .tick 1000 [], .tick 1000 [], .tick 1000 []]
    (by intro e he; simp at he; rcases he with rfl | rfl <;> simp [SaneEv]) 0 1000 (by omega) (by omega) (by intro k m h; simp at h)
  simpa [elapsed, ticks] using h

/-- C39: every request is answered once or waits, and no answer is negative or above what was asked for. -/
theorem C39_at_most_asked_partial (es : List Ev) (he : Sane es) (hc : .close ∉ es) :
    ∃ s gs, run {} es = .ok (s, gs) ∧ ∃ qs, List.Forall₂ Answers gs qs ∧ (requests es).Perm (qs ++ pending s) := by
  obtain ⟨s, gs, e, R⟩ := run_spec es {} inv_init he
  obtain ⟨_, qs, h1, h2⟩ := R.answered rfl hc
  exact ⟨s, gs, e, qs, h1, by simpa [pending] using h2⟩

/-- C39: after the manager was closed every request has its answer. -/
theorem C39_closed_partial (es : List Ev) (he : Sane es) (hc : .close ∉ es) :
    ∃ s gs, run {} (es ++ [.close]) = .ok (s, gs) ∧ s.queue = [] ∧ ∃ qs, List.Forall₂ Answers gs qs ∧ (requests es).Perm qs := by
  obtain ⟨s, gs, e, R⟩ := run_spec es {} inv_init he
  obtain ⟨ha, qs, h1, h2⟩ := R.answered rfl hc
  obtain ⟨S, hq⟩ := close_spec R.inv
  obtain ⟨qs', h1', h2'⟩ := S.answered ha
  refine ⟨(close s).1, gs ++ (close s).2, run_append e (by simp [run, step, Res.bind_ok, pure]), hq, qs ++ qs', List.rel_append h1 h1', ?_⟩
  have h3 : (requests es).Perm (qs ++ pending s) := by simpa [pending] using h2
  have h4 : (pending s).Perm qs' := by simpa [pending, requests, hq] using h2'
  exact h3.trans (List.Perm.append_left _ h4)

/-- C39: the count of queued bytes is that of the bytes waiting requests still want. -/
theorem C39_queued_partial (es : List Ev) (he : Sane es) :
    ∃ s gs, run {} es = .ok (s, gs) ∧ s.queued = (s.queue.map fun r => r.size - r.assigned).sum ∧ ∀ r ∈ s.queue, 0 ≤ r.assigned ∧ r.assigned ≤ r.size := by
  obtain ⟨s, gs, e, R⟩ := run_spec es {} inv_init he
  exact ⟨s, gs, e, R.inv.queued, fun r hr => ⟨(R.inv.fine r hr).assigned, (R.inv.fine r hr).size⟩⟩

/-- A history in which a request waits, with 1000 of 5000 bytes assigned. -/
example : (match run {} [.setLimit 0 1000, .request 7 5000 1 [0], .tick 1000 []] with
    | .ok (s, gs) => some (s.queued, s.queue.map (·.assigned), gs)
    | _ => none) = some (4000, [1000], []) := by decide +kernel

/-- C39: refilling a channel leaves a quota for at most three seconds, and two bytes, whatever the quota was and
however long the pause, for limits up to 300 MB per second: so much may be granted at once after a pause. -/
theorem C39_refill (ch : Channel) (dt : Int) (hl : 0 < ch.limit) (hl' : ch.limit ≤ 300000000) (hq : 0 ≤ ch.quota) (hq' : ch.quota ≤ 1000000000)
    (hd : 0 ≤ dt) (hd' : dt ≤ 3000) : (ch.update dt).quota ≤ 3 * ch.limit + 2 := by
  have h0 : 0 ≤ ch.limit * dt := Int.mul_nonneg (by omega) hd
  have h1 : ch.limit * dt ≤ ch.limit * 3000 := Int.mul_le_mul_of_nonneg_left hd' (by omega)
  unfold Channel.update inf
  rw [if_neg (by omega)]
  simp only
  rw [Int.tdiv_eq_ediv_of_nonneg (by omega)]
  generalize ch.limit * dt = m at h0 h1
  rw [if_neg (by omega), Int.tdiv_eq_ediv_of_nonneg (by omega)]
  split <;> omega

example : (({ limit := 1000, quota := 2900 } : Channel).update 1000).quota ≤ 3002 :=
  C39_refill _ _ (by decide) (by decide) (by decide) (by decide) (by decide) (by decide)

/-- C39 is false when the amount is not a positive `int`: the length of a peer's request is the amount, without a check
(Core/Uploader.cpp:18-46). The request for 2^32-1 bytes is one for -1 byte; the user is given -1, which it takes for
2^32-1 bytes (Core/Uploader.cpp:48-58), and the count of queued bytes stays wrong. -/
theorem C39_amount_violated :
    (match run {} [.setLimit 0 1000, .request 7 4294967295 1 [0], .tick 250 []] with
    | .ok (s, gs) => some (s.queued, s.queue, gs)
    | _ => none) = some (4294967296, [], [⟨7, [0], -1⟩]) := by decide +kernel

end Verif
