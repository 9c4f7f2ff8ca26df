import Verif.Model.Config
/-! What surviving a restart means for the settings. -/

namespace Verif.Spec.Settings
open Verif Config

/-- Equal but for the two settings of a connection that are not written. -/
def Kept (s t : Config.Settings) : Prop :=
  t = { s with connection := { s.connection with preferUtp := t.connection.preferUtp, encryption := t.connection.encryption } }

/-- An id of the right length, a directory, and no `]]>` in them. -/
def Storable (h d : List UInt8) : Prop := h.length = 20 ∧ ¬ ascii "]]>" <:+: h ∧ d ≠ [] ∧ ¬ ascii "]]>" <:+: d

/-- Directories that can be stored are set, and the id is left alone. -/
def Sound : Ev → Prop
  | .setFiles d => d ≠ [] ∧ ¬ ascii "]]>" <:+: d
  | .setInternal _ => False
  | .start h d => Storable h d
  | _ => True

end Verif.Spec.Settings
