import Verif.Model.Peers
/-! What is expected of the connections of a torrent. -/

namespace Verif.Spec.Peering
open Verif Net Peers

/-- The same address: family, the bytes that count and port. -/
def Same (a b : Addr) : Prop :=
  a.ipv6 = b.ipv6 ∧ a.port = b.port ∧ a.bytes.take (if a.ipv6 then 16 else 4) = b.bytes.take (if b.ipv6 then 16 else 4)

instance (a b : Addr) : Decidable (Same a b) := inferInstanceAs (Decidable (_ ∧ _ ∧ _))

/-- The addresses that come up in an event. -/
def mentioned : Ev → List Addr
  | .found _ ps _ => ps
  | .connect a _ _ => [a]
  | .holepunch a _ _ _ => [a]
  | .incoming a => [a]
  | _ => []

/-- No IPv4 address has the port and the bytes an IPv6 address begins with. -/
def Apart (l : List Addr) : Prop :=
  ∀ a ∈ l, ∀ b ∈ l, a.port = b.port → a.bytes.take 4 = b.bytes.take 4 → a.ipv6 = b.ipv6

/-- There is a flag for every peer, if there are flags. -/
def Flagged : Ev → Prop
  | .found _ ps (some fl) => ps.length ≤ fl.length
  | _ => True

/-- An entry of the known peers belongs to the connection. -/
def Belongs (k : Known) (c : Conn) : Prop := Same k.addr c.addr

instance (k : Known) (c : Conn) : Decidable (Belongs k c) := inferInstanceAs (Decidable (Same _ _))

/-- The limit an event has to obey. -/
def limitOf : Ev → Option Nat
  | .next _ max _ => some max
  | .holepunch _ _ max _ => some max
  | _ => none

/-- Connections that nobody counts: of the user and of peers that connect to us. -/
def free : Ev → Prop
  | .connect _ _ _ => True
  | .incoming _ => True
  | _ => False

instance : DecidablePred free := fun e => by cases e <;> simp only [free] <;> infer_instance

/-- A connection that is asked for gets a stream. -/
def Opens : Ev → Prop
  | .next _ _ o => o
  | .connect _ _ o => o
  | .holepunch _ _ _ o => o
  | _ => True

/-- A peer comes up once in a list, and peers that connect to us were not heard of before. -/
def Orderly (seen : List Addr) : List Ev → Prop
  | [] => True
  | .found _ ps _ :: h => ps.Pairwise (fun a b => ¬ Same a b) ∧ Orderly (seen ++ ps) h
  | .incoming a :: h => (∀ b ∈ seen, ¬ Same b a) ∧ Orderly (seen ++ [a]) h
  | e :: h => Orderly (seen ++ mentioned e) h

/-- The time of an event. -/
def time : Ev → Option Nat
  | .next now _ _ => some now
  | .connect _ now _ => some now
  | .holepunch _ now _ _ => some now
  | .closed _ now => some now
  | _ => none

/-- The clock does not go back (nor is it the beginning of 1970). -/
def Clock (t : Nat) : List Ev → Prop
  | [] => True
  | e :: h => match time e with
    | some now => 0 < now ∧ t ≤ now ∧ Clock now h
    | none => Clock t h

/-- Nobody is dialled after having been banned. -/
def NeverAgain (o : List Out) : Prop :=
  ∀ before a now auto after, o = before ++ .dial a now auto :: after → ∀ b, .ban b ∈ before → ¬ Same b a

/-- Nobody is dialled, unless on demand, within 30 seconds of having been dialled or of the end of a connection. -/
def Paced (o : List Out) : Prop :=
  ∀ before a now after, o = before ++ .dial a now true :: after →
    ∀ b t, ((∃ auto, .dial b t auto ∈ before) ∨ .gone b t ∈ before) → Same b a → t + 30 < now

end Verif.Spec.Peering
