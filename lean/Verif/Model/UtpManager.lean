import Verif.Model.Utp
/-! The uTP connections of the program and the datagrams that arrive for them (Core/Utp/UtpManager.h, Core/Utp/UtpManager.cpp). `E` are addresses with
ports. -/

namespace Verif.UtpManager
open Verif Utp

variable {E : Type} [DecidableEq E]

/-- Core/Utp/UtpManager.h:42-44: the connections by the number their datagrams carry, each with its address and a name; those with the same number are found
in the order in which they came. `next`: the next name. -/
structure Manager (E : Type) where
  streams : List (Nat × E × Nat) := []
  next : Nat := 0
deriving DecidableEq, Repr

/-- What is done with datagrams: `got`: what the connections read, in order; `opened`: what the owner of new connections is told; `rest`: what is left to
others; `finished`: the connections that were asked to finish reading. -/
structure Result (E : Type) where
  mgr : Manager E
  got : List (Nat × Header × List UInt8) := []
  opened : List (Nat × E × Header) := []
  rest : List (List UInt8) := []
  finished : List Nat := []
deriving DecidableEq, Repr

/-- Core/Utp/UtpManager.cpp:134-145, the search in the map. -/
def find (m : Manager E) (id : Nat) (e : E) : Option Nat := (m.streams.find? fun s => s.1 = id ∧ s.2.1 = e).map (·.2.2)

/-- Core/Utp/UtpManager.cpp:69-82 `connectStream`: a connection of our own with the number `id`. -/
def connect (m : Manager E) (id : Nat) (e : E) : Manager E := { streams := m.streams ++ [(id, e, m.next)], next := m.next + 1 }

/-- Core/Utp/UtpManager.cpp:189-206 `onNewConnection`; a number of 16 bits. There is an owner. -/
def accept (utpIn : Bool) (r : Result E) (e : E) (h : Header) : Result E :=
  if utpIn then { r with mgr := connect r.mgr ((h.conn + 1) % 65536) e, opened := r.opened ++ [(r.mgr.next, e, h)] } else r

/-- What is remembered of the last datagram (Core/Utp/UtpManager.cpp:125-127): its number and the connection found for it. -/
abbrev Cache := Option (Nat × Nat)

/-- Core/Utp/UtpManager.cpp:129-147 `findStream`: the connection, what is remembered, and what is added to those that are to finish. -/
def findStream (m : Manager E) (e : E) (c : Cache) (fin : List Nat) (id : Nat) : Option Nat × Cache × List Nat :=
  match c with
  | some (i, k) => if i = id then (some k, c, fin) else match find m id e with
    | some k => (some k, some (id, k), if k ∈ fin then fin else fin ++ [k])
    | none => (none, c, fin)
  | none => match find m id e with
    | some k => (some k, some (id, k), if k ∈ fin then fin else fin ++ [k])
    | none => (none, c, fin)

/-- Core/Utp/UtpManager.cpp:149-170, the loop. `size`: Core/Utp/UtpManager.cpp:95-106, which Model/Utp has as `packetHeaderSize`. -/
def readAll (utpIn : Bool) (size : List UInt8 → Nat) (e : E) (r : Result E) (c : Cache) : List (List UInt8) → Result E
  | [] => r
  | d :: ds =>
    if size d = 0 then readAll utpIn size e r c ds
    else
      let h := Header.read d
      let f := findStream r.mgr e c r.finished h.conn
      match f.1 with
      | some k => readAll utpIn size e { r with got := r.got ++ [(k, h, d.drop (size d))], finished := f.2.2 } f.2.1 ds
      | none =>
        let r := { r with finished := f.2.2 }
        if h.typ = 4 ∧ d.length = size d then readAll utpIn size e (accept utpIn r e h) f.2.1 ds
        else readAll utpIn size e r f.2.1 ds

/-- Core/Utp/UtpManager.cpp:90-173 `onUdpPacket`, of a manager that is active. -/
def onPackets (utpIn : Bool) (size : List UInt8 → Nat) (m : Manager E) (e : E) (ds : List (List UInt8)) : Result E :=
  readAll utpIn size e { mgr := m, rest := ds.filter (size · = 0) } none ds

end Verif.UtpManager
