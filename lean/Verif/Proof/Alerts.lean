import Mathlib.Data.List.Induction
import Verif.Spec.Alerts
namespace Verif.Alerts
open Verif Spec

theorem mask_snoc (h : List Call) (c : Call) : maskAfter (h ++ [c]) = match c with | .register k => k | _ => maskAfter h := by
  unfold maskAfter
  rw [List.reverse_append]
  cases c <;> rfl

theorem filterMap_ext {α β} {f g : α → Option β} : ∀ l : List α, (∀ x ∈ l, f x = g x) → l.filterMap f = l.filterMap g
  | [], _ => rfl
  | a :: l, h => by
    rw [List.filterMap_cons, List.filterMap_cons, h a List.mem_cons_self, filterMap_ext l fun x hx => h x (List.mem_cons_of_mem _ hx)]

theorem wantedAlerts_snoc (before h : List Call) (c : Call) :
    Spec.wantedAlerts before (h ++ [c]) = Spec.wantedAlerts before h ++ match c with
      | .raise a => if maskAfter (before ++ h) &&& a.id ≠ 0 then [a] else []
      | _ => [] := by
  unfold Spec.wantedAlerts
  rw [List.length_append, List.length_singleton, List.range_succ, List.filterMap_append]
  congr 1
  · apply filterMap_ext
    intro i hi
    have hi := List.mem_range.mp hi
    rw [List.getElem?_append_left hi, List.take_append_of_le_length (by omega)]
  · simp only [List.filterMap_cons, List.filterMap_nil]
    rw [List.getElem?_append_right (by omega), List.take_left]
    simp only [Nat.sub_self, List.getElem?_cons_zero]
    cases c with
    | raise a => by_cases hm : maskAfter (before ++ h) &&& a.id = 0 <;> simp [hm]
    | register k => rfl
    | pop => rfl

theorem run_append (m : Manager) : ∀ (h : List Call) (g : List Call),
    (m.run (h ++ g)).1 = (m.run h).1 ++ ((m.run h).2.run g).1 ∧ (m.run (h ++ g)).2 = ((m.run h).2.run g).2
  | [], g => by simp [Manager.run]
  | c :: h, g => by
    have ih := run_append (m.step c).2 h g
    simp only [List.cons_append, Manager.run, ih.1, ih.2, List.append_assoc, and_self]

theorem run_mask (h : List Call) : ((({} : Manager).run h).2).mask = maskAfter h := by
  induction h using List.reverseRecOn with
  | nil => rfl
  | append_singleton h c ih =>
    rw [(run_append _ h [c]).2, mask_snoc]
    cases c with
    | raise a =>
      simp only [Manager.run, Manager.step, Manager.raise]
      split <;> exact ih
    | register k => rfl
    | pop => exact ih

end Verif.Alerts
