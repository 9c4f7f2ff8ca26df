import Verif.Common
/-! Core/FileTransfer.cpp:152-241: which peers are left when there are too many connections.

Not modelled: the closing itself (see Model/Downloader.lean and Model/Peers.lean) and log output.  Times are numbers of 64 bits and wrap where the program
computes with them. -/

namespace Verif.PeersEval

/-- Api/Interface.h:150-181, what is looked at of a connection.  `id` tells connections apart (the pointer). -/
structure Peer where
  id : Nat
  connectionTime : Nat
  lastActivity : Nat
  interested : Bool
  downloadSpeed : Nat
  downloaded : Nat
  uploadSpeed : Nat
  uploaded : Nat
deriving DecidableEq, Repr

/-- Subtraction of 64 bits. -/
def minus (a b : Nat) : Nat := (a + 18446744073709551616 - b) % 18446744073709551616

/-- Core/FileTransfer.cpp:154-160: the counter, and whether connections are looked at now. -/
def countDown (counter : Nat) : Nat × Bool := if counter > 0 then (counter - 1, false) else (5, true)

/-- The counter after `n` calls. -/
def counted : Nat → Nat → Nat
  | 0, c => c
  | n + 1, c => counted n (countDown c).1

/-- Core/FileTransfer.cpp:175-177: what the loop collects. -/
structure Found where
  slowest : Option Peer := none
  idleUploads : List Peer := []
  idlePeers : List Peer := []
deriving DecidableEq, Repr

/-- Core/FileTransfer.cpp:198-203: is `p` slower than what was found? -/
def slower (p : Peer) : Option Peer → Bool
  | none => true
  | some q => p.downloadSpeed < q.downloadSpeed || (p.downloadSpeed = q.downloadSpeed && p.downloaded < q.downloaded)

/-- Core/FileTransfer.cpp:179-204: one connection. -/
def look (now : Nat) (f : Found) (p : Peer) : Found :=
  if p.connectionTime > minus now 10 ∨ p.connectionTime = 0 then f
  else if p.lastActivity < minus now 20 then
    if p.interested then { f with idleUploads := f.idleUploads ++ [p] }
    else { f with idlePeers := f.idlePeers ++ [p] }
  else if slower p f.slowest then { f with slowest := some p }
  else f

/-- Core/FileTransfer.cpp:206-218: idle connections, with uploads that are not protected.  `sortUploads` is std::sort with the comparison of
211-212. -/
def candidates (sortUploads : List Peer → List Peer) (f : Found) : List Peer :=
  if f.idleUploads.length > 5 then
    f.idlePeers ++ (sortUploads f.idleUploads).take (f.idleUploads.length - 5)
  else f.idlePeers

/-- Core/FileTransfer.cpp:161-238: the connections that are closed.  `sortDownloads` is std::sort with the comparison of 222-223. -/
def closed (sortUploads sortDownloads : List Peer → List Peer) (now limit : Nat) (peers : List Peer) : List Peer :=
  if peers.length > limit then
    let f := peers.foldl (look now) {}
    let idle := candidates sortUploads f
    if idle.length > 5 then (sortDownloads idle).take 5
    else if idle.isEmpty then f.slowest.toList
    else idle
  else []

end Verif.PeersEval
