import Verif.Model.Alerts
namespace Verif.Spec
open Alerts

/-- The kinds registered last in a history, none before the first registration. -/
def maskAfter (h : List Call) : UInt64 :=
  match h.reverse.findSome? (fun c => match c with | .register k => some k | _ => none) with
  | some k => k
  | none => 0

/-- The alerts raised in `h`, after the history `before`, of kinds registered at that time. -/
def wantedAlerts (before h : List Call) : List Alert :=
  (List.range h.length).filterMap fun (i : Nat) =>
    match (h[i]? : Option Call) with
    | some (.raise a) => if maskAfter (before ++ h.take i) &&& a.id ≠ 0 then some a else none
    | _ => none

end Verif.Spec
