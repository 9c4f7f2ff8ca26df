import Verif.Proof.Alerts
/-! C50: alerts. -/

namespace Verif
open Alerts Spec

/-- C50: after any history with a `popAlerts` (or nothing) before and no other since, `popAlerts` returns
exactly the alerts raised since then of kinds registered when they were raised, in order. -/
theorem C50_pop (before since : List Call) (hb : before = [] ∨ ∃ b, before = b ++ [.pop]) (hs : Call.pop ∉ since) :
    (({} : Manager).run (before ++ since ++ [.pop])).1 = (({} : Manager).run before).1 ++ [wantedAlerts before since] := by
  have h0 : ((({} : Manager).run before).2).alerts = [] := by
    rcases hb with rfl | ⟨b, rfl⟩
    · rfl
    · rw [(run_append _ b [.pop]).2]; rfl
  have key : (({} : Manager).run (before ++ since)).1 = (({} : Manager).run before).1 ∧
      ((({} : Manager).run (before ++ since)).2).alerts = wantedAlerts before since := by
    induction since using List.reverseRecOn with
    | nil => simp [h0, wantedAlerts]
    | append_singleton s c ih =>
      obtain ⟨i1, i2⟩ := ih (fun h => hs (List.mem_append_left _ h))
      rw [← List.append_assoc, (run_append _ (before ++ s) [c]).1, (run_append _ (before ++ s) [c]).2, wantedAlerts_snoc, ← run_mask]
      cases c with
      | raise a =>
        refine ⟨by simp [Manager.run, Manager.step, i1], ?_⟩
        simp only [Manager.run, Manager.step, Manager.raise, Manager.isRegistered]
        by_cases hm : (({} : Manager).run (before ++ s)).2.mask &&& a.id = 0 <;> simp [hm, i2]
      | register k => exact ⟨by simp [Manager.run, Manager.step, i1], by simp [Manager.run, Manager.step, Manager.register, i2]⟩
      | pop => exact absurd (by simp) hs
  rw [(run_append _ (before ++ since) [.pop]).1, key.1]
  simp only [Manager.run, Manager.step, Manager.pop, key.2, List.append_nil]

example : (({} : Manager).run [.raise (.torrent torrentAdded 1), .register (torrentFinished ||| configChanged), .raise (.torrent torrentFinished 1),
      .raise (.torrent torrentAdded 2), .raise (.config configChanged 3), .pop, .register metadataInitialized, .raise (.config configChanged 3),
      .raise (.metadata metadataInitialized 2), .register 0, .pop, .pop]).1 =
    [[.torrent torrentFinished 1, .config configChanged 3], [.metadata metadataInitialized 2], []] := by decide +kernel

/-- C50: over a whole history every alert of a registered kind is returned once, or is still waiting, in the
order of raising. -/
theorem C50_once (h : List Call) :
    (({} : Manager).run h).1.flatten ++ ((({} : Manager).run h).2).alerts = wantedAlerts [] h := by
  induction h using List.reverseRecOn with
  | nil => rfl
  | append_singleton h c ih =>
    rw [(run_append _ h [c]).1, (run_append _ h [c]).2, wantedAlerts_snoc, List.nil_append, ← run_mask, ← ih]
    cases c with
    | raise a =>
      simp only [Manager.run, Manager.step, Manager.raise, Manager.isRegistered]
      by_cases hm : (({} : Manager).run h).2.mask &&& a.id = 0 <;> simp [hm]
    | register k => simp [Manager.run, Manager.step, Manager.register]
    | pop => simp [Manager.run, Manager.step, Manager.pop]

/-- C50: each kind has its own bit: registering one kind registers it and no other. -/
theorem C50_kinds (m : Manager) :
    let kinds := [torrentFinished, torrentAdded, torrentRemoved, torrentCheckStarted, torrentCheckFinished, torrentInterrupted, metadataInitialized, configChanged]
    ∀ a ∈ kinds, ∀ b ∈ kinds, ((m.register a).isRegistered b = true ↔ a = b) := by
  intro kinds
  simp only [Manager.isRegistered, Manager.register]
  decide

end Verif
