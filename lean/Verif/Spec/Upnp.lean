import Verif.Model.Upnp
import Verif.Spec.Http
/-! Routers that forward ports, and what may happen to the program and to them. -/

namespace Verif.Spec.Upnp
open Verif Upnp

/-- The program, and what the routers forward: the address of the router, the port and its kind. -/
structure World where
  sys : Sys := {}
  table : List (List UInt8 × Nat × Proto) := []
deriving DecidableEq, Repr

/-- A router does what it is asked for. -/
def carry (t : List (List UInt8 × Nat × Proto)) (r : Req) : List (List UInt8 × Nat × Proto) :=
  let x := (r.gateway, r.port, r.type)
  if r.add then (if x ∈ t then t else t ++ [x]) else t.filter (· ≠ x)

/-- What may happen: wishes of the user, routers that are found, requests that are granted or refused, and connections that end. -/
inductive Event where
  | map (w : Nat × Proto)
  | unmap (w : Nat × Proto)
  | unmapAll
  | found (d : Device)
  | granted (i : Nat)
  | refused (i : Nat)
  | closed (i : Nat)

/-- A request is answered once. -/
def World.step (w : World) : Event → World
  | .map x => { w with sys := mapPort w.sys x }
  | .unmap x => { w with sys := unmapPort w.sys x }
  | .unmapAll => { w with sys := unmapAll w.sys }
  | .found d => { w with sys := Upnp.found w.sys d }
  | .granted i =>
    match w.sys.pending[i]? with
    | some r => if r.answered then w else { sys := answer w.sys i true, table := carry w.table r }
    | none => w
  | .refused i =>
    match w.sys.pending[i]? with
    | some r => if r.answered then w else { w with sys := answer w.sys i false }
    | none => w
  | .closed i => if i < w.sys.pending.length then { w with sys := Upnp.closed w.sys i } else w

/-- From the beginning. -/
def run (es : List Event) : World := es.foldl World.step {}

/-- All routers that are found have this address. -/
def OneRouter (g : List UInt8) (es : List Event) : Prop := ∀ d, .found d ∈ es → d.gateway = g

/-- One of the requests under way is granted, if it was not answered, and its connection ends. -/
def World.finish (w : World) (i : Nat) : World :=
  if w.sys.pending = [] then w
  else (w.step (.granted (i % w.sys.pending.length))).step (.closed (i % w.sys.pending.length))

/-- What a router forwards. -/
def World.forwards (w : World) (g : List UInt8) (x : Nat × Proto) : Prop := (g, x.1, x.2) ∈ w.table

/-- The location of a description. -/
def url (protocol address : List UInt8) (port : Nat) (path : List UInt8) : List UInt8 :=
  protocol ++ ascii "://" ++ address ++ ascii ":" ++ Bencode.dec port ++ path

/-- An element with a text. -/
def field (name : String) (v : List UInt8) : List UInt8 := ascii "<" ++ ascii name ++ ascii ">" ++ v ++ ascii "</" ++ ascii name ++ ascii ">"

end Verif.Spec.Upnp
