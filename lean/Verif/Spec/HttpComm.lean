import Verif.Model.HttpComm
import Verif.Spec.Magnet
import Verif.Spec.Addr
/-! What C67, C88 and C89 say about asking trackers over HTTP and HTTPS. -/

namespace Verif.Spec.HttpComm
open Verif Verif.HttpComm Verif.Http

/-- What is in front of the first `c` and what is behind it. -/
def cut (c : UInt8) (l : List UInt8) : List UInt8 × List UInt8 := (l.takeWhile (· != c), (l.dropWhile (· != c)).drop 1)

/-- The parts between the `c`. -/
def parts (c : UInt8) : List UInt8 → List (List UInt8)
  | [] => [[]]
  | x :: l => if x = c then [] :: parts c l else match parts c l with
    | [] => [[x]]
    | h :: t => (x :: h) :: t

/-- How a server reads a request: method, path, the fields of the query, version. -/
structure Request where
  method : List UInt8
  path : List UInt8
  fields : List (List UInt8 × List UInt8)
  version : List UInt8
deriving DecidableEq, Repr

def readRequest (l : List UInt8) : Request :=
  let a := cut (chr ' ') l
  let b := cut (chr ' ') a.2
  let c := cut (chr '\r') b.2
  let d := cut (chr '?') b.1
  { method := a.1, path := d.1, fields := (parts (chr '&') d.2).map (cut (chr '=')), version := c.1 }

/-- A path that can be in a request line and has no query. -/
def Plain (path : List UInt8) : Prop := chr ' ' ∉ path ∧ chr '?' ∉ path ∧ chr '\r' ∉ path ∧ chr '\n' ∉ path

/-- Requests are made one after another: not before the one before has ended. -/
def OneAtATime (reply : List UInt8 → Res (Nat × Announce)) : Comm → List Ev → Prop
  | _, [] => True
  | s, e :: es => (∀ r, e = .announce r → s.state ≠ .announcing) ∧ ∀ a, step reply s e = .ok a → OneAtATime reply a.1 es

/-- The same over HTTPS. -/
def SslOneAtATime (reply : List UInt8 → Res (Nat × Announce)) : Ssl → List SslEv → Prop
  | _, [] => True
  | s, e :: es => (∀ r, e = .announce r → s.state ≠ .announcing) ∧ ∀ a, sslStep reply s e = .ok a → SslOneAtATime reply a.1 es

/-- The number of requests in a history. -/
def requests (es : List Ev) : Nat := es.countP fun | .announce _ => true | _ => false

/-- The same over HTTPS. -/
def sslRequests (es : List SslEv) : Nat := es.countP fun | .announce _ => true | _ => false

/-- After the bytes read before, `l` arrives in these parts, and the reply is still not complete. -/
def Incomplete (reply : List UInt8 → Res (Nat × Announce)) : List UInt8 → List (List UInt8) → Prop
  | _, [] => True
  | before, b :: bs => (∃ x, reply (before ++ b) = .ok (0, x)) ∧ Incomplete reply (before ++ b) bs

/-- A complete reply. -/
def Complete (reply : List UInt8 → Res (Nat × Announce)) (l : List UInt8) (r : Announce) : Prop :=
  ∃ k, reply l = .ok (k, r) ∧ k ≠ 0 ∧ k ≠ 4294967295

/-- Something that is no good reply. -/
def Bad (reply : List UInt8 → Res (Nat × Announce)) (l : List UInt8) : Prop := ∃ r, reply l = .ok (4294967295, r)

/-- The bytes of one answer, part by part. -/
def arrives (c : Nat) (bs : List (List UInt8 × Nat)) : List Ev := bs.map fun b => .received c b.1 b.2

/-- The bytes of one answer over HTTPS, block by block. -/
def blocks (bs : List (List UInt8 × Nat)) : List SslEv := bs.map fun b => .received b.1 b.2

/-- The connection stands and nothing is under way. -/
structure Linked (s : Ssl) : Prop where
  phase : s.phase = .connected
  task : s.task = .none
  used : s.used = true
  buffer : s.readBuffer = []

/-- Nothing but the name is there. -/
structure Fresh (s : Ssl) : Prop where
  phase : s.phase = .disconnected
  task : s.task = .none
  used : s.used = false
  known : s.known = false
  buffer : s.readBuffer = []

/-- The way to a first request: `n` bytes of it are sent. -/
def opening (r : List UInt8) (n : Nat) : List SslEv := [.announce r, .resolved true, .connected true, .shaken true, .written n]

end Verif.Spec.HttpComm
