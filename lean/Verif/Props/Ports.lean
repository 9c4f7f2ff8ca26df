import Verif.Proof.Ports

/-! C102: the ports listened to and forwarded are those set. -/

namespace Verif
open Config Upnp Ports Spec.Ports

/-- As long as the core lives, nothing is read outside, TCP and UDP are never listened to on a port that is not the one set, and before the first
torrent nothing is opened and nothing asked of routers; routers are asked for exactly the ports set, if they are to be asked, each once. -/
theorem C102_ports_partial (c : Connection) (es : List Ports.Ev) (ha : ∀ e ∈ es, Alive e) :
    ∃ s, Ports.run (fresh c) es = .ok s ∧ (∀ p, s.tcp = some p → p = s.set.tcpPort.toNat) ∧ (∀ p, s.udp = some p → p = s.set.udpPort.toNat) ∧
      (s.listening = false → s.tcp = none ∧ s.udp = none ∧ s.upnp.wishes = [] ∧ s.binds = []) ∧
      s.upnp.wishes.Nodup ∧ (s.listening = true → ∀ w, w ∈ s.upnp.wishes ↔ Forwarded s w) := by
  obtain ⟨s, h1, -, h2⟩ := run_inv es (inv_fresh c) rfl ha
  refine ⟨s, h1, ?_, ?_, ?_, h2.once, h2.wish⟩
  · intro p hp
    rcases h2.tcp with h | h
    · rw [h] at hp; cases hp
    · rw [h] at hp; cases hp; rfl
  · intro p hp
    rcases h2.udp with h | h
    · rw [h] at hp; cases hp
    · rw [h] at hp; cases hp; rfl
  · intro hl
    have := h2.idle hl
    exact ⟨this.1, this.2.1, this.2.2.2.2.1, this.2.2.2.2.2⟩

/-- When the TCP port is not taken by other programs, it is listened to from the first torrent on, whatever is set.
Missing for the full property: a port that is taken at first is not tried again (`C102_taken_violated`). -/
theorem C102_tcp_partial (c : Connection) (es : List Ports.Ev) (ha : ∀ e ∈ es, Alive e) (hf : ∀ e ∈ es, AlwaysFree .tcp e) (s : St)
    (hr : Ports.run (fresh c) es = .ok s) (hl : s.listening = true) : s.tcp = some s.set.tcpPort.toNat :=
  run_keeps (P := fun s => s.listening = true → s.tcp = some s.tcpPort) (K := AlwaysFree .tcp) open_tcp es (inv_fresh c) rfl
    (fun h => by simp [fresh] at h) ha hf hr hl

/-- When the UDP port is never set to 0 and not taken by other programs, it is listened to from the first torrent on, whatever is set.
Missing for the full property: a port that is taken at first is not tried again, and after a start with port 0 UDP is never listened to
(`C102_zero_violated`). -/
theorem C102_udp_partial (c : Connection) (hc : c.udpPort ≠ 0) (es : List Ports.Ev) (ha : ∀ e ∈ es, Alive e) (hf : ∀ e ∈ es, AlwaysFree .udp e)
    (hu : ∀ e ∈ es, UdpSet e) (s : St) (hr : Ports.run (fresh c) es = .ok s) (hl : s.listening = true) : s.udp = some s.set.udpPort.toNat :=
  ((run_keeps (P := fun s => s.set.udpPort ≠ 0 ∧ (s.listening = true → s.receiver = true ∧ s.udp = some s.udpPort))
    (K := fun e => AlwaysFree .udp e ∧ UdpSet e) open_udp es (inv_fresh c) rfl ⟨hc, fun h => by simp [fresh] at h⟩ ha
    (fun e he => ⟨hf e he, hu e he⟩) hr).2 hl).2

/-- A new TCP port is tried at once: it is listened to if nobody else has it, and the old one is not listened to any more in any case. -/
theorem C102_moved_partial (c : Connection) (es : List Ports.Ev) (ha : ∀ e ∈ es, Alive e) (s : St) (hr : Ports.run (fresh c) es = .ok s)
    (hl : s.listening = true) (d : Connection) (free : Proto → Nat → Bool) (hd : d.tcpPort ≠ s.set.tcpPort) :
    ∃ s', Ports.step s (.change d free) = .ok s' ∧ s'.tcp = if free .tcp d.tcpPort.toNat then some d.tcpPort.toNat else none := by
  obtain ⟨x, h1, hg, h2⟩ := run_inv es (inv_fresh c) rfl ha
  rw [hr] at h1
  cases h1
  obtain ⟨s', e1, -, -, -, -, -, -, e2, -⟩ := change_eq free d h2 hl hg
  exact ⟨s', e1, by rw [e2, if_neg hd]⟩

/-- Other settings disturb nobody: no socket is opened or closed, and routers are asked for nothing unless forwarding is switched. -/
theorem C102_quiet_partial (c : Connection) (es : List Ports.Ev) (ha : ∀ e ∈ es, Alive e) (s : St) (hr : Ports.run (fresh c) es = .ok s)
    (d : Connection) (free : Proto → Nat → Bool) (ht : d.tcpPort = s.set.tcpPort) (hu : d.udpPort = s.set.udpPort) :
    ∃ s', Ports.step s (.change d free) = .ok s' ∧ s'.tcp = s.tcp ∧ s'.udp = s.udp ∧ s'.binds = s.binds ∧
      (d.upnpPortMapping = s.set.upnpPortMapping → s'.upnp = s.upnp) := by
  obtain ⟨x, h1, hg, h2⟩ := run_inv es (inv_fresh c) rfl ha
  rw [hr] at h1
  cases h1
  exact change_quiet free d h2 hg ht hu

/-- Once the core is gone, nothing is listened to and no port is to be forwarded, and this stays so until settings are changed
(`C102_gone_violated`). -/
theorem C102_end_partial (c : Connection) (es : List Ports.Ev) (ha : ∀ e ∈ es, Alive e) (s : St) (hr : Ports.run (fresh c) es = .ok s)
    (free : Proto → Nat → Bool) : ∃ s', Ports.run s [.deinit, .add free] = .ok s' ∧ s'.tcp = none ∧ s'.udp = none ∧ s'.upnp.wishes = [] := by
  obtain ⟨x, h1, hg, h2⟩ := run_inv es (inv_fresh c) rfl ha
  rw [hr] at h1
  cases h1
  exact ⟨deinit s, rfl, rfl, rfl, rfl⟩

namespace PortsEx

def all : Proto → Nat → Bool := fun _ _ => true
def none' : Proto → Nat → Bool := fun _ _ => false
def state (c : Connection) (es : List Ports.Ev) : St :=
  match Ports.run (fresh c) es with
  | .ok s => s
  | _ => fresh c

end PortsEx

/-- Started, then both ports changed and forwarding switched on and kept through another change. -/
example : let s := PortsEx.state {} [.add PortsEx.all, .change { tcpPort := 1, udpPort := 2, upnpPortMapping := true } PortsEx.all,
      .change { tcpPort := 3, udpPort := 4, upnpPortMapping := true } PortsEx.all]
    s.tcp = some 3 ∧ s.udp = some 4 ∧ s.upnp.wishes = [(4, .udp), (3, .tcp)] ∧ s.listening = true ∧
    s.binds = [(.udp, 55125), (.tcp, 55125), (.udp, 2), (.tcp, 1), (.udp, 4), (.tcp, 3)] := by decide +kernel

/-- **Violated**: a port that is taken when it is tried is not tried again, though it is free later and settings change; routers forward it to nobody. -/
theorem C102_taken_violated :
    let s := PortsEx.state { upnpPortMapping := true } [.add PortsEx.none', .change { upnpPortMapping := true, enableUtpOut := false } PortsEx.all]
    s.tcp = none ∧ s.udp = none ∧ s.upnp.wishes = [(55125, .tcp), (55125, .udp)] := by decide +kernel

/-- **Violated**: when the first torrent comes while the UDP port is 0, UDP is not listened to whatever is set later. -/
theorem C102_zero_violated :
    let s := PortsEx.state { udpPort := 0 } [.add PortsEx.all, .change { udpPort := 7 } PortsEx.all, .change { udpPort := 8 } PortsEx.all]
    s.udp = none ∧ s.bindPort = 8 := by decide +kernel

/-- **Violated**: settings changed after the core is gone call the listener that was deleted. -/
theorem C102_gone_violated : Ports.run (fresh {}) [.add PortsEx.all, .deinit, .change { enableTcpIn := false } PortsEx.all] = .ub := by decide +kernel

end Verif
