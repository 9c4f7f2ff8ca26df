/-! Alerts, Core/AlertsManager.cpp. -/

namespace Verif.Alerts

/-- Public/Alerts.h:18-30 `Alerts::Id`: single bits. -/
def torrentFinished : UInt64 := 0x1
def torrentAdded : UInt64 := 0x2
def torrentRemoved : UInt64 := 0x4
def torrentCheckStarted : UInt64 := 0x8
def torrentCheckFinished : UInt64 := 0x10
def torrentInterrupted : UInt64 := 0x20
def metadataInitialized : UInt64 := 0x10000
def configChanged : UInt64 := 0x100000

/-- Core/Interface.h `TorrentAlert`, `MetadataAlert` and `ConfigAlert`; torrents and configuration kinds are
numbered. -/
inductive Alert
  | torrent (id : UInt64) (torrent : Nat)
  | metadata (id : UInt64) (torrent : Nat)
  | config (id : UInt64) (kind : Nat)
deriving DecidableEq, Repr

def Alert.id : Alert → UInt64
  | .torrent id _ => id
  | .metadata id _ => id
  | .config id _ => id

/-- Core/AlertsManager.h:22-25. -/
structure Manager where
  mask : UInt64 := 0
  alerts : List Alert := []
deriving DecidableEq, Repr

/-- Core/AlertsManager.cpp:64-67 `isAlertRegistered`. -/
def Manager.isRegistered (m : Manager) (id : UInt64) : Bool := (m.mask &&& id) != 0

/-- Core/AlertsManager.cpp:6-17, 19-30 and 32-43 `torrentAlert`, `metadataAlert` and `configAlert`. -/
def Manager.raise (m : Manager) (a : Alert) : Manager :=
  if m.isRegistered a.id = false then m else { m with alerts := m.alerts ++ [a] }

/-- Core/AlertsManager.cpp:50-53 `registerAlerts`. -/
def Manager.register (m : Manager) (mask : UInt64) : Manager := { m with mask := mask }

/-- Core/AlertsManager.cpp:55-62 `popAlerts`. -/
def Manager.pop (m : Manager) : List Alert × Manager := (m.alerts, { m with alerts := [] })

/-- A call. -/
inductive Call
  | raise (a : Alert)
  | register (mask : UInt64)
  | pop
deriving DecidableEq, Repr

/-- A call with what it returns (nothing unless `pop`). -/
def Manager.step (m : Manager) : Call → List (List Alert) × Manager
  | .raise a => ([], m.raise a)
  | .register k => ([], m.register k)
  | .pop => ([m.pop.1], m.pop.2)

/-- A history, with the results of all calls of `popAlerts` in order. -/
def Manager.run (m : Manager) : List Call → List (List Alert) × Manager
  | [] => ([], m)
  | c :: cs =>
    let r := m.step c
    let s := r.2.run cs
    (r.1 ++ s.1, s.2)

end Verif.Alerts
