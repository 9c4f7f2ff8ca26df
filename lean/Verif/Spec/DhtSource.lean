import Verif.Model.DhtSource
/-! Vocabulary of C99. -/

namespace Verif.Spec.DhtSource

/-- The torrent an event is about. -/
def about : Verif.DhtSource.Ev → Nat
  | .start h => h
  | .stop h => h
  | .update h _ _ _ _ => h
  | .refresh h _ _ _ => h
  | .finish h _ _ => h
  | .found h _ _ _ => h

end Verif.Spec.DhtSource
