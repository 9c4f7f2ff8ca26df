import Verif.Model.UdpDispatch
/-! Executions of the dispatcher of UDP requests, for C51. -/

namespace Verif.Spec
open UdpDispatch

/-- An execution from the start, without end; `none` is a moment in which nothing happens. -/
structure Execution where
  state : Nat → State
  event : Nat → Option Ev
  start : state 0 = {}
  next : ∀ n, match event n with
    | some e => step (state n) e = some (.ok (state (n + 1)))
    | none => state (n + 1) = state n

/-- Timers expire, and what has begun gets on: each running timer expires or is stopped, each expired timer gets its
handler started, each handler gets to its second half. -/
structure Fair (x : Execution) : Prop where
  fire : ∀ n i, ((x.state n).info i).armed = true → ∃ m, n ≤ m ∧ (x.event m = some (.fire i) ∨ ((x.state m).info i).armed = false)
  lookup : ∀ n c, c ∈ (x.state n).fired → ∃ m, n ≤ m ∧ x.event m = some (.lookup c)
  act : ∀ n i, some i ∈ (x.state n).looked → ∃ m, n ≤ m ∧ x.event m = some (.act (some i))

/-- No two requests wait for the same client, and no handler of a timer looks for its request while a datagram for
that client is handed out. -/
structure Undisturbed (x : Execution) : Prop where
  clients : ∀ n, (x.state n).pending.Pairwise fun i j => ((x.state n).info i).client ≠ ((x.state n).info j).client
  lookups : ∀ n c j, x.event n = some (.lookup c) → (x.state n).job = some j → ∀ i ∈ j.found, ((x.state n).info i).client ≠ c

end Verif.Spec
