import Verif.Model.Xml
/-!
The settings (Core/Configuration.cpp): setting values, saving them and loading them.

Writing the file always succeeds here, and no crash comes between emptying and writing it.
-/

namespace Verif.Config
open Verif Xml

/-- `Encryption` (Api/Configuration.h:20). -/
inductive Encryption where
  | refuse | allow | require
deriving DecidableEq, Repr

/-- `External::Connection` (Api/Configuration.h:29-47). -/
structure Connection where
  tcpPort : UInt16 := 55125
  udpPort : UInt16 := 55125
  maxTorrentConnections : UInt32 := 50
  upnpPortMapping : Bool := false
  enableTcpIn : Bool := true
  enableTcpOut : Bool := true
  enableUtpIn : Bool := true
  enableUtpOut : Bool := true
  preferUtp : Bool := false
  encryption : Encryption := .allow
deriving DecidableEq, Repr

/-- The settings: `External` (Api/Configuration.h:25-67), and `hashId` of `Internal` (Api/Configuration.h:72-97), the only
one of those that is saved. -/
structure Settings where
  connection : Connection := {}
  dht : Bool := true
  maxDownloadSpeed : UInt32 := 0
  maxUploadSpeed : UInt32 := 0
  directory : List UInt8 := []
  hashId : List UInt8
deriving DecidableEq, Repr

/-- The process, and the file `config.xml`.  `dirty` (Core/Configuration.cpp:54). -/
structure Sys where
  settings : Settings
  dirty : Bool := true
  file : Option (List UInt8) := none
deriving DecidableEq, Repr

/-- A `bool` as number (Core/Configuration.cpp:271). -/
def num (b : Bool) : Nat := if b then 1 else 0

/-- What `save` writes (Core/Configuration.cpp:255-295). -/
def document (s : Settings) : List UInt8 :=
  let b := openRoot [] (ascii "config")
  let b := openChild b 1 (ascii "internal")
  let b := addCData b 2 (ascii "hashId") s.hashId
  let b := close b 1 true (ascii "internal")
  let b := openChild b 1 (ascii "external")
  let b := openChild b 2 (ascii "connection")
  let b := addNumber b 3 (ascii "tcpPort") s.connection.tcpPort.toNat
  let b := addNumber b 3 (ascii "udpPort") s.connection.udpPort.toNat
  let b := addNumber b 3 (ascii "maxTorrentConnections") s.connection.maxTorrentConnections.toNat
  let b := addNumber b 3 (ascii "upnpPortMapping") (num s.connection.upnpPortMapping)
  let b := addNumber b 3 (ascii "enableTcpIn") (num s.connection.enableTcpIn)
  let b := addNumber b 3 (ascii "enableTcpOut") (num s.connection.enableTcpOut)
  let b := addNumber b 3 (ascii "enableUtpIn") (num s.connection.enableUtpIn)
  let b := addNumber b 3 (ascii "enableUtpOut") (num s.connection.enableUtpOut)
  let b := close b 2 true (ascii "connection")
  let b := openChild b 2 (ascii "dht")
  let b := addNumber b 3 (ascii "enabled") (num s.dht)
  let b := close b 2 true (ascii "dht")
  let b := openChild b 2 (ascii "transfer")
  let b := addNumber b 3 (ascii "maxDownloadSpeed") s.maxDownloadSpeed.toNat
  let b := addNumber b 3 (ascii "maxUploadSpeed") s.maxUploadSpeed.toNat
  let b := close b 2 true (ascii "transfer")
  let b := openChild b 2 (ascii "files")
  let b := addCData b 3 (ascii "directory") s.directory
  let b := close b 2 true (ascii "files")
  let b := close b 1 true (ascii "external")
  close b 0 true (ascii "config")

/-- `save` (Core/Configuration.cpp:246-298). -/
def save (s : Sys) : Sys := if s.dirty then { s with file := some (document s.settings) } else s

/-- `triggerChange` (Core/Configuration.cpp:59-72), without telling others. -/
def trigger (s : Sys) : Sys := save { s with dirty := true }

/-- `setValues` of the connection (Core/Configuration.cpp:84-101): `preferUtp` is not compared. -/
def setConnection (s : Sys) (c : Connection) : Sys :=
  let o := s.settings.connection
  if c.tcpPort ≠ o.tcpPort ∨ c.udpPort ≠ o.udpPort ∨ c.maxTorrentConnections ≠ o.maxTorrentConnections
    ∨ c.upnpPortMapping ≠ o.upnpPortMapping ∨ c.enableTcpIn ≠ o.enableTcpIn ∨ c.enableTcpOut ≠ o.enableTcpOut
    ∨ c.enableUtpIn ≠ o.enableUtpIn ∨ c.enableUtpOut ≠ o.enableUtpOut ∨ c.encryption ≠ o.encryption
  then trigger { s with settings := { s.settings with connection := c } } else s

/-- `setValues` of the DHT (Core/Configuration.cpp:103-112). -/
def setDht (s : Sys) (b : Bool) : Sys :=
  if b ≠ s.settings.dht then trigger { s with settings := { s.settings with dht := b } } else s

/-- `setValues` of the files (Core/Configuration.cpp:114-123). -/
def setFiles (s : Sys) (d : List UInt8) : Sys :=
  if d ≠ s.settings.directory then trigger { s with settings := { s.settings with directory := d } } else s

/-- `setValues` of the transfer (Core/Configuration.cpp:125-135). -/
def setTransfer (s : Sys) (d u : UInt32) : Sys :=
  if d ≠ s.settings.maxDownloadSpeed ∨ u ≠ s.settings.maxUploadSpeed then
    trigger { s with settings := { s.settings with maxDownloadSpeed := d, maxUploadSpeed := u } } else s

/-- `setInternalValues` (Core/Configuration.cpp:145-149), as far as it is saved. -/
def setInternal (s : Sys) (h : List UInt8) : Sys := { s with settings := { s.settings with hashId := h } }

/-- `if (auto i = node->firstNode(name)) value = i->valueNumber()`, as in Core/Configuration.cpp:204-205. -/
def number (els : List El) (k : Nat) (name : String) : Res (Option Nat) :=
  (firstNode els k (ascii name)).bind fun i =>
    match i with
    | none => .ok none
    | some i => (valueNumber els i).bind fun v => .ok (some v)

/-- A value that is there replaces the old one (Core/Configuration.cpp:204-205). -/
def orOld {α} (v : Option Nat) (f : Nat → α) (old : α) : α := match v with | some n => f n | none => old

/-- Core/Configuration.cpp:202-220. -/
def loadConnection (els : List El) (k : Nat) (c : Connection) : Res Connection := do
  let tcpPort ← number els k "tcpPort"
  let udpPort ← number els k "udpPort"
  let maxTorrentConnections ← number els k "maxTorrentConnections"
  let upnpPortMapping ← number els k "upnpPortMapping"
  let enableTcpIn ← number els k "enableTcpIn"
  let enableTcpOut ← number els k "enableTcpOut"
  let enableUtpIn ← number els k "enableUtpIn"
  let enableUtpOut ← number els k "enableUtpOut"
  pure { c with
    tcpPort := orOld tcpPort UInt16.ofNat c.tcpPort
    udpPort := orOld udpPort UInt16.ofNat c.udpPort
    maxTorrentConnections := orOld maxTorrentConnections UInt32.ofNat c.maxTorrentConnections
    upnpPortMapping := orOld upnpPortMapping (· != 0) c.upnpPortMapping
    enableTcpIn := orOld enableTcpIn (· != 0) c.enableTcpIn
    enableTcpOut := orOld enableTcpOut (· != 0) c.enableTcpOut
    enableUtpIn := orOld enableUtpIn (· != 0) c.enableUtpIn
    enableUtpOut := orOld enableUtpOut (· != 0) c.enableUtpOut }

/-- A part of the settings, if its node is there (Core/Configuration.cpp:221). -/
def part (els : List El) (k : Nat) (name : String) (s : Settings) (f : Nat → Res Settings) : Res Settings :=
  (firstNode els k (ascii name)).bind fun i =>
    match i with
    | none => .ok s
    | some i => f i

/-- Core/Configuration.cpp:193-198. -/
def loadInternal (els : List El) (s : Settings) : Res Settings :=
  part els 0 "internal" s fun i => (valueOf els i (ascii "hashId")).bind fun id =>
    .ok (if id.length = 20 then { s with hashId := id } else s)

/-- Core/Configuration.cpp:202-220. -/
def loadConnectionPart (els : List El) (x : Nat) (s : Settings) : Res Settings :=
  part els x "connection" s fun i => (loadConnection els i s.connection).bind fun c => .ok { s with connection := c }

/-- Core/Configuration.cpp:221-225. -/
def loadDht (els : List El) (x : Nat) (s : Settings) : Res Settings :=
  part els x "dht" s fun i => (number els i "enabled").bind fun v => .ok { s with dht := orOld v (· != 0) s.dht }

/-- Core/Configuration.cpp:226-232. -/
def loadTransfer (els : List El) (x : Nat) (s : Settings) : Res Settings :=
  part els x "transfer" s fun i => (number els i "maxDownloadSpeed").bind fun d => (number els i "maxUploadSpeed").bind fun u =>
    .ok { s with maxDownloadSpeed := orOld d UInt32.ofNat s.maxDownloadSpeed
                 maxUploadSpeed := orOld u UInt32.ofNat s.maxUploadSpeed }

/-- Core/Configuration.cpp:233-237. -/
def loadFiles (els : List El) (x : Nat) (s : Settings) : Res Settings :=
  part els x "files" s fun i => (firstNode els i (ascii "directory")).bind fun d =>
    match d with
    | none => .ok s
    | some d => (value els d).bind fun v => .ok { s with directory := v }

/-- Core/Configuration.cpp:200-238. -/
def loadExternal (els : List El) (s : Settings) : Res Settings :=
  part els 0 "external" s fun x =>
    (loadConnectionPart els x s).bind fun s => (loadDht els x s).bind fun s => (loadTransfer els x s).bind fun s => loadFiles els x s

/-- `load` (Core/Configuration.cpp:168-244).  `dir`: what `getDefaultDirectory` returns. -/
def load (dir : List UInt8) (s : Sys) : Res Sys :=
  (match s.file with
    | none => Res.ok s
    | some d => (parse d).bind fun els =>
      match els with
      | none => .ok s
      | some els => (loadInternal els s.settings).bind fun t => (loadExternal els t).bind fun t =>
        .ok { s with settings := t, dirty := false }).bind fun s =>
  .ok (if s.settings.directory = [] then { s with settings := { s.settings with directory := dir } } else s)

/-- Calls of the user, and restarts.  `quit`: `Core::deinit` (Core/Core.cpp:143); `start`: a new process with a random `hashId`
(Core/Configuration.cpp:304-321) calls `Core::init` (Core/Core.cpp:67), in a directory. -/
inductive Ev where
  | setConnection (c : Connection)
  | setDht (b : Bool)
  | setFiles (d : List UInt8)
  | setTransfer (d u : UInt32)
  | setInternal (h : List UInt8)
  | quit
  | start (h dir : List UInt8)

/-- One step. -/
def step (s : Sys) : Ev → Res Sys
  | .setConnection c => .ok (setConnection s c)
  | .setDht b => .ok (setDht s b)
  | .setFiles d => .ok (setFiles s d)
  | .setTransfer d u => .ok (setTransfer s d u)
  | .setInternal h => .ok (setInternal s h)
  | .quit => .ok (save s)
  | .start h dir => load dir { settings := { hashId := h }, file := s.file }

/-- A history. -/
def run (s : Sys) : List Ev → Res Sys
  | [] => .ok s
  | e :: es => (step s e).bind fun s => run s es

end Verif.Config
