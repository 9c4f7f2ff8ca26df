import Verif.Common
/-! Core/FileTransfer.cpp:245-287, 19-21, 43-55: the speeds of a torrent and of its connections, as shown, measured once a second.

Counters are 64-bit numbers that are taken as unbounded.  Measuring is one step. -/

namespace Verif.Measures
open Verif

/-- A connection: its address in memory, by which it is known here, and `stats` (Core/PeerCommunication.h). -/
structure Conn where
  addr : Nat
  down : Nat := 0
  up : Nat := 0
  downSpeed : Nat := 0
  upSpeed : Nat := 0
deriving DecidableEq, Repr

/-- `lastSpeedMeasure` and `lastSumMeasure` (Core/FileTransfer.h:36-38), the counters and speeds of the downloader (Core/Downloader.h:28-29) and uploader
(Core/Uploader.h:22-23), and the connections. -/
structure St where
  conns : List Conn := []
  last : List (Nat × Nat × Nat) := []
  down : Nat := 0
  up : Nat := 0
  lastDown : Nat := 0
  lastUp : Nat := 0
  downSpeed : Nat := 0
  upSpeed : Nat := 0
deriving DecidableEq, Repr

/-- Core/FileTransfer.cpp:262-265, 281-284: what came since, in 32 bits. -/
def since (now before : Nat) : Nat := if now > before then (now - before) % 4294967296 else 0

/-- Core/FileTransfer.cpp:256-266: one connection. -/
def measureConn (last : List (Nat × Nat × Nat)) (c : Conn) : Conn :=
  match last.find? fun e => e.1 = c.addr with
  | none => { c with downSpeed := 0, upSpeed := 0 }
  | some e => { c with downSpeed := since c.down e.2.1, upSpeed := since c.up e.2.2 }

/-- Core/FileTransfer.cpp:245-287 `updateMeasures`, without telling which pieces are there and the order of pieces. -/
def measureAll (s : St) : St :=
  { s with
    conns := s.conns.map (measureConn s.last), last := s.conns.map fun c => (c.addr, c.down, c.up)
    downSpeed := since s.down s.lastDown, upSpeed := since s.up s.lastUp, lastDown := s.down, lastUp := s.up }

/-- Core/FileTransfer.cpp:19-25: what `start` does to measures, also of a torrent that is running. -/
def start (s : St) : St := { s with lastDown := s.down, lastUp := s.up }

/-- Core/FileTransfer.cpp:43-55 `stop`, with Core/Downloader.cpp:44 and Core/Uploader.cpp:20; connections are closed. -/
def stop (s : St) : St := { s with conns := [], last := [], downSpeed := 0, upSpeed := 0 }

/-- What happens.  `received`, `sent`: blocks of a connection (Core/PeerCommunication.cpp:329, 432); `gained`, `given`: blocks counted for the torrent
(Core/Downloader.cpp:319, Core/Uploader.cpp:112). -/
inductive Ev where
  | opened (a : Nat)
  | closed (a : Nat)
  | received (a n : Nat)
  | sent (a n : Nat)
  | gained (n : Nat)
  | given (n : Nat)
  | measure
  | start
  | stop
deriving DecidableEq, Repr

/-- A change of the connection at an address. -/
def atAddr (a : Nat) (f : Conn → Conn) (s : St) : St := { s with conns := s.conns.map fun c => if c.addr = a then f c else c }

/-- One event.  No two connections are at the same address. -/
def step (s : St) : Ev → St
  | .opened a => if s.conns.any fun c => c.addr = a then s else { s with conns := s.conns ++ [{ addr := a }] }
  | .closed a => { s with conns := s.conns.filter fun c => c.addr ≠ a }
  | .received a n => atAddr a (fun c => { c with down := c.down + n }) s
  | .sent a n => atAddr a (fun c => { c with up := c.up + n }) s
  | .gained n => { s with down := s.down + n }
  | .given n => { s with up := s.up + n }
  | .measure => measureAll s
  | .start => start s
  | .stop => stop s

/-- Events in turn, with the speeds of the torrent shown after each measure. -/
def run (s : St) : List Ev → St × List (Nat × Nat)
  | [] => (s, [])
  | e :: es =>
    let s' := step s e
    let r := run s' es
    (r.1, if e = .measure then (s'.downSpeed, s'.upSpeed) :: r.2 else r.2)

end Verif.Measures
