import Verif.Model.Torrent

/-! What is expected of a torrent's life, in terms of events, of what the interface reports and of what is on
the disk. -/

namespace Verif.Spec.Life

open Verif.Life

/-- Nothing in `evs` asks the torrent to start. -/
def NoStart (evs : List Ev) : Prop := ∀ e ∈ evs, ∀ env, e ≠ .start env

/-- The interface reports `st`. -/
def Reports (s : Sys) (st : St) : Prop := s.report = some st

/-- The torrent is meant to run and its metadata is known. -/
def Running (s : Sys) : Prop :=
  ∃ t, s.tor = some t ∧ t.started = true ∧ ∀ u, t.utm = some u → u.active = false

/-- Peers are being served: the transfer works. -/
def Transfers (s : Sys) : Prop := ∃ t, s.tor = some t ∧ t.transfer = true

/-- A check that nobody called off is being worked on. -/
def Checks (s : Sys) : Prop := ∃ t, s.tor = some t ∧ ∃ c ∈ t.checks, c.2 = false

/-- How many checks, called off or not, are being worked on. -/
def checksOf (s : Sys) : Nat := match s.tor with | some t => t.checks.length | none => 0

/-- A start waits in the pool. -/
def StartWaits (s : Sys) : Prop := ∃ t, s.tor = some t ∧ Task.start ∈ t.posts

/-- No work waits in the pool, metadata has not just become complete, and the checks being worked on, save
the current one, are called off. -/
def Settled (s : Sys) : Prop :=
  ∀ t, s.tor = some t → t.posts = [] ∧ (∀ u, t.utm = some u → u.finished = true → u.active = false) ∧
    ∀ c ∈ t.checks, c.2 = false → t.checking = true ∧ t.cur = some c.1

/-- On the way through `evs` never more than one check, called off or not, is being worked on. -/
def OneAtATime (evs : List Ev) : Prop := ∀ a b s, evs = a ++ b → run {} a = .ok s → checksOf s ≤ 1

/-- The torrent comes from a file, which is kept, and preallocation works when the client is launched. -/
def Calm : Ev → Prop
  | .launch env => env ≠ .fail
  | .loseFile | .addMagnet _ => False
  | _ => True

end Verif.Spec.Life
