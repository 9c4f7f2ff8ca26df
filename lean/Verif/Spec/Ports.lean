import Verif.Model.Ports
/-! C102: ports, as seen from outside. -/

namespace Verif.Spec.Ports
open Verif Config Upnp Verif.Ports

/-- A core that has just been made, with settings. -/
def fresh (c : Connection) : St := { set := c }

/-- The core goes on living. -/
def Alive (e : Ports.Ev) : Prop :=
  match e with
  | .deinit => False
  | _ => True

/-- No other program has the port, whenever it is tried. -/
def AlwaysFree (t : Proto) (e : Ports.Ev) : Prop :=
  match e with
  | .add free => ∀ p, free t p = true
  | .change _ free => ∀ p, free t p = true
  | _ => True

/-- The UDP port is not set to 0. -/
def UdpSet (e : Ports.Ev) : Prop :=
  match e with
  | .change c _ => c.udpPort ≠ 0
  | _ => True

/-- The port is to be forwarded by routers. -/
def Forwarded (s : St) (w : Nat × Proto) : Prop :=
  s.set.upnpPortMapping = true ∧ (w = (s.set.tcpPort.toNat, .tcp) ∨ w = (s.set.udpPort.toNat, .udp))

end Verif.Spec.Ports
