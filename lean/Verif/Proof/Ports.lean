import Verif.Spec.Ports
import Mathlib.Data.List.Basic

namespace Verif.Ports
open Verif Config Upnp Spec.Ports

theorem mapPort_wishes (u : Upnp.Sys) (w : Nat × Proto) (h : u.wishes.Nodup) :
    (mapPort u w).wishes.Nodup ∧ ∀ x, x ∈ (mapPort u w).wishes ↔ x ∈ u.wishes ∨ x = w := by
  unfold mapPort
  split
  · next hw =>
    refine ⟨h, fun x => ⟨Or.inl, ?_⟩⟩
    rintro (hx | rfl)
    · exact hx
    · exact hw
  · next hw =>
    constructor
    · show (u.wishes ++ [w]).Nodup
      rw [List.nodup_append]
      refine ⟨h, by simp, ?_⟩
      intro a ha b hb e
      rw [List.mem_singleton] at hb
      exact hw (hb ▸ e ▸ ha)
    · intro x
      show x ∈ u.wishes ++ [w] ↔ _
      simp

theorem unmapPort_wishes (u : Upnp.Sys) (w : Nat × Proto) (h : u.wishes.Nodup) :
    (unmapPort u w).wishes.Nodup ∧ ∀ x, x ∈ (unmapPort u w).wishes ↔ x ∈ u.wishes ∧ x ≠ w := by
  constructor
  · exact h.erase w
  · intro x
    show x ∈ u.wishes.erase w ↔ _
    rw [h.mem_erase_iff]
    exact and_comm

theorem mapTwo (u : Upnp.Sys) (a b : Nat) (h : u.wishes.Nodup) :
    (mapPort (mapPort u (a, .tcp)) (b, .udp)).wishes.Nodup ∧
      ∀ x, x ∈ (mapPort (mapPort u (a, .tcp)) (b, .udp)).wishes ↔ x ∈ u.wishes ∨ x = (a, .tcp) ∨ x = (b, .udp) := by
  obtain ⟨h1, h2⟩ := mapPort_wishes u (a, .tcp) h
  obtain ⟨h3, h4⟩ := mapPort_wishes _ (b, .udp) h1
  refine ⟨h3, fun x => ?_⟩
  rw [h4, h2, or_assoc]

/-- What always holds of a core that is alive. -/
structure Inv (s : St) : Prop where
  idle : s.listening = false → s.tcp = none ∧ s.udp = none ∧ s.receiver = false ∧ s.bindPort = 0 ∧ s.upnp.wishes = [] ∧ s.binds = []
  used : s.listening = true → s.usedTcp = s.tcpPort ∧ s.usedUdp = s.udpPort ∧ s.upnpEnabled = s.set.upnpPortMapping ∧ s.bindPort = s.udpPort
  tcp : s.tcp = none ∨ s.tcp = some s.tcpPort
  udp : s.udp = none ∨ s.udp = some s.udpPort
  deaf : s.receiver = false → s.udp = none
  once : s.upnp.wishes.Nodup
  wish : s.listening = true → ∀ w, w ∈ s.upnp.wishes ↔ Forwarded s w

theorem inv_fresh (c : Connection) : Inv (fresh c) where
  idle := fun _ => ⟨rfl, rfl, rfl, rfl, rfl, rfl⟩
  used := fun h => by simp [fresh] at h
  tcp := .inl rfl
  udp := .inl rfl
  deaf := fun _ => rfl
  once := by simp [fresh]
  wish := fun h => by simp [fresh] at h

theorem inv_upnp {s : St} (h : Inv s) (u : Upnp.Sys) (hu : u.wishes = s.upnp.wishes) : Inv { s with upnp := u } where
  idle := fun hl => by have := h.idle hl; exact ⟨this.1, this.2.1, this.2.2.1, this.2.2.2.1, hu.trans this.2.2.2.2.1, this.2.2.2.2.2⟩
  used := h.used
  tcp := h.tcp
  udp := h.udp
  deaf := h.deaf
  once := by show u.wishes.Nodup; rw [hu]; exact h.once
  wish := fun hl w => by show w ∈ u.wishes ↔ _; rw [hu]; exact h.wish hl w

theorem found_wishes (u : Upnp.Sys) (d : Device) : (Upnp.found u d).wishes = u.wishes := by unfold Upnp.found; split <;> rfl
theorem answer_wishes (u : Upnp.Sys) (i : Nat) (b : Bool) : (Upnp.answer u i b).wishes = u.wishes := by unfold Upnp.answer; split <;> rfl

/-- The first torrent: everything is opened. -/
theorem init_eq (free : Proto → Nat → Bool) {s : St} (h : Inv s) (hl : s.listening = false) :
    (initListeners free s).set = s.set ∧ (initListeners free s).listening = true ∧ (initListeners free s).gone = s.gone ∧
    (initListeners free s).tcp = (if free .tcp s.tcpPort then some s.tcpPort else none) ∧
    (initListeners free s).udp = (if s.udpPort ≠ 0 ∧ free .udp s.udpPort then some s.udpPort else none) ∧
    (initListeners free s).receiver = decide (s.udpPort ≠ 0) ∧ (initListeners free s).bindPort = s.udpPort ∧
    (initListeners free s).usedTcp = s.tcpPort ∧ (initListeners free s).usedUdp = s.udpPort ∧
    (initListeners free s).upnpEnabled = s.set.upnpPortMapping ∧
    (initListeners free s).upnp = (if s.set.upnpPortMapping then mapPort (mapPort {} (s.tcpPort, .tcp)) (s.udpPort, .udp) else {}) := by
  obtain ⟨h1, h2, h3, h4, h5, h6⟩ := h.idle hl
  obtain ⟨set, listening, gone, bindPort, receiver, udp, tcp, upnp, ue, ut, uu, binds⟩ := s
  simp only at h1 h2 h3 h4 h5 h6 hl
  subst h1 h2 h3 h4 h6 hl
  unfold initListeners start setBindPort startListening createTcp mapBoth
  simp only [St.tcpPort, St.udpPort]
  by_cases hu : set.udpPort.toNat = 0 <;> by_cases hp : set.upnpPortMapping = true <;> simp [hu, hp, eq_comm (a := 0)] <;> rfl

theorem inv_init (free : Proto → Nat → Bool) {s : St} (h : Inv s) : Inv (initListeners free s) := by
  by_cases hl : s.listening = true
  · unfold initListeners
    rw [if_pos hl]
    exact h
  rw [Bool.not_eq_true] at hl
  obtain ⟨e1, e2, -, e3, e4, e5, e6, e7, e8, e9, e10⟩ := init_eq free h hl
  have ht : (initListeners free s).tcpPort = s.tcpPort := by unfold St.tcpPort; rw [e1]
  have hu : (initListeners free s).udpPort = s.udpPort := by unfold St.udpPort; rw [e1]
  obtain ⟨m1, m2⟩ := mapTwo {} s.tcpPort s.udpPort List.nodup_nil
  exact {
    idle := fun h => by rw [e2] at h; cases h
    used := fun _ => ⟨e7.trans ht.symm, e8.trans hu.symm, by rw [e9, e1], e6.trans hu.symm⟩
    tcp := by rw [e3, ht]; split <;> simp
    udp := by rw [e4, hu]; split <;> simp
    deaf := fun hr => by
      rw [e5] at hr
      rw [e4, if_neg fun h0 => (of_decide_eq_false hr) h0.1]
    once := by rw [e10]; split; exact m1; exact List.nodup_nil
    wish := fun _ w => by
      unfold Forwarded
      rw [e10, e1]
      split
      · next hp => rw [m2, hp]; simp [St.tcpPort, St.udpPort]
      · next hp => simp [hp] }

/-- What the change of the bind port does. -/
theorem setBind_eq (free : Proto → Nat → Bool) (s : St) :
    (setBindPort free s).set = s.set ∧ (setBindPort free s).listening = s.listening ∧ (setBindPort free s).gone = s.gone ∧
    (setBindPort free s).tcp = s.tcp ∧ (setBindPort free s).upnp = s.upnp ∧ (setBindPort free s).upnpEnabled = s.upnpEnabled ∧
    (setBindPort free s).usedTcp = s.usedTcp ∧ (setBindPort free s).usedUdp = s.usedUdp ∧ (setBindPort free s).bindPort = s.udpPort ∧
    (setBindPort free s).receiver = s.receiver ∧
    (setBindPort free s).udp = (if s.bindPort = s.udpPort then s.udp else if s.receiver then
      if s.udpPort ≠ 0 ∧ free .udp s.udpPort then some s.udpPort else none else s.udp) := by
  unfold setBindPort startListening
  by_cases h : s.bindPort = s.udpPort
  · simp [h]
  · by_cases hr : s.receiver = true
    · by_cases h0 : s.udpPort = 0 <;> simp [h, hr, h0]
      · simp [h0] at h
        simp [h]
    · simp [h, hr]

/-- What the listener does. -/
theorem onChange_eq (free : Proto → Nat → Bool) (s : St) :
    (onChange free s).set = s.set ∧ (onChange free s).listening = s.listening ∧ (onChange free s).gone = s.gone ∧
    (onChange free s).udp = s.udp ∧ (onChange free s).receiver = s.receiver ∧ (onChange free s).bindPort = s.bindPort ∧
    (onChange free s).usedTcp = s.tcpPort ∧ (onChange free s).usedUdp = s.udpPort ∧ (onChange free s).upnpEnabled = s.set.upnpPortMapping ∧
    (onChange free s).tcp = (if s.usedTcp = s.tcpPort then s.tcp else if free .tcp s.tcpPort then some s.tcpPort else none) ∧
    (onChange free s).upnp = (forward s).upnp := by
  unfold onChange forward mapBoth moveTcp moveUdp createTcp St.tcpPort St.udpPort
  by_cases h1 : s.usedTcp = s.set.tcpPort.toNat <;> by_cases h2 : s.usedUdp = s.set.udpPort.toNat <;>
    by_cases h3 : s.set.upnpPortMapping = true <;> by_cases h4 : s.upnpEnabled = true <;> simp [h1, h2, h3, h4]

/-- What routers are asked for after a change. -/
theorem forward_wishes (s : St) (hn : s.upnp.wishes.Nodup)
    (hw : ∀ w, w ∈ s.upnp.wishes ↔ s.upnpEnabled = true ∧ (w = (s.usedTcp, .tcp) ∨ w = (s.usedUdp, .udp))) :
    (forward s).upnp.wishes.Nodup ∧ ∀ w, w ∈ (forward s).upnp.wishes ↔ Forwarded s w := by
  unfold forward Forwarded
  by_cases h3 : s.set.upnpPortMapping = true
  · by_cases h4 : s.upnpEnabled = true
    · rw [if_neg (by simp [h3, h4]), if_pos h4]
      have hU : (moveUdp s).upnp.wishes.Nodup ∧ ∀ w, w ∈ (moveUdp s).upnp.wishes ↔ w = (s.usedTcp, .tcp) ∨ w = (s.udpPort, .udp) := by
        unfold moveUdp
        split
        · next h =>
          obtain ⟨a1, a2⟩ := unmapPort_wishes s.upnp (s.usedUdp, .udp) hn
          obtain ⟨b1, b2⟩ := mapPort_wishes _ (s.udpPort, .udp) a1
          refine ⟨b1, fun w => ?_⟩
          simp only [b2, a2, hw, h4, true_and]
          constructor
          · rintro (⟨h1 | h1, h2⟩ | h1)
            · exact .inl h1
            · exact absurd h1 h2
            · exact .inr h1
          · rintro (h1 | h1)
            · exact .inl ⟨.inl h1, by rw [h1]; simp⟩
            · exact .inr h1
        · next h =>
          refine ⟨hn, fun w => ?_⟩
          rw [hw, not_not.1 h]
          simp [h4]
      have hf : (moveUdp s).usedTcp = s.usedTcp ∧ (moveUdp s).tcpPort = s.tcpPort := by
        unfold moveUdp
        split <;> exact ⟨rfl, rfl⟩
      unfold moveTcp
      rw [hf.1, hf.2]
      split
      · next h =>
        obtain ⟨a1, a2⟩ := unmapPort_wishes (moveUdp s).upnp (s.usedTcp, .tcp) hU.1
        obtain ⟨b1, b2⟩ := mapPort_wishes _ (s.tcpPort, .tcp) a1
        refine ⟨b1, fun w => ?_⟩
        simp only [b2, a2, hU.2, h3, true_and]
        constructor
        · rintro (⟨h1 | h1, h2⟩ | h1)
          · exact absurd h1 h2
          · exact .inr h1
          · exact .inl h1
        · rintro (h1 | h1)
          · exact .inr h1
          · exact .inl ⟨.inr h1, by rw [h1]; simp⟩
      · next h =>
        refine ⟨hU.1, fun w => ?_⟩
        rw [hU.2, not_not.1 h]
        simp [h3, St.tcpPort, St.udpPort]
    · rw [if_pos (by simp [h3, h4]), if_pos h3]
      obtain ⟨m1, m2⟩ := mapTwo s.upnp s.tcpPort s.udpPort hn
      refine ⟨m1, fun w => ?_⟩
      show w ∈ (mapPort (mapPort s.upnp (s.tcpPort, .tcp)) (s.udpPort, .udp)).wishes ↔ _
      rw [m2, hw]
      simp [h4, h3, St.tcpPort, St.udpPort]
  · by_cases h4 : s.upnpEnabled = true
    · rw [if_pos (by simp [h3, h4]), if_neg h3]
      refine ⟨List.nodup_nil, fun w => ?_⟩
      show w ∈ [] ↔ _
      simp [h3]
    · rw [if_neg (by simp [h3, h4]), if_neg h4]
      refine ⟨hn, fun w => ?_⟩
      rw [hw]
      simp [h3, h4]

/-- A change, told from outside. -/
theorem change_eq (free : Proto → Nat → Bool) (c : Connection) {s : St} (h : Inv s) (hl : s.listening = true) (hg : s.gone = false) :
    ∃ s', setConnection free c s = .ok s' ∧ s'.listening = true ∧ s'.gone = false ∧ Inv s' ∧
      s'.set.tcpPort = c.tcpPort ∧ s'.set.udpPort = c.udpPort ∧ s'.set.upnpPortMapping = c.upnpPortMapping ∧
      s'.tcp = (if c.tcpPort = s.set.tcpPort then s.tcp else if free .tcp c.tcpPort.toNat then some c.tcpPort.toNat else none) ∧
      s'.receiver = s.receiver ∧
      s'.udp = (if c.udpPort = s.set.udpPort then s.udp else if s.receiver then
        if c.udpPort ≠ 0 ∧ free .udp c.udpPort.toNat then some c.udpPort.toNat else none else s.udp) := by
  obtain ⟨u1, u2, u3, u4⟩ := h.used hl
  by_cases hc : changed c s.set = true
  · unfold setConnection
    rw [if_pos hc]
    simp only
    rw [if_pos hl, if_neg (by rw [hg]; simp)]
    obtain ⟨b1, b2, b3, b4, b5, b6, b7, b8, b9, b10, b11⟩ := setBind_eq free { s with set := c }
    obtain ⟨o1, o2, o3, o4, o5, o6, o7, o8, o9, o10, o11⟩ := onChange_eq free (setBindPort free { s with set := c })
    have hset : (onChange free (setBindPort free { s with set := c })).set = c := o1.trans b1
    have htp : (setBindPort free { s with set := c }).tcpPort = c.tcpPort.toNat := by unfold St.tcpPort; rw [b1]
    have hup : (setBindPort free { s with set := c }).udpPort = c.udpPort.toNat := by unfold St.udpPort; rw [b1]
    have htp' : (onChange free (setBindPort free { s with set := c })).tcpPort = c.tcpPort.toNat := by unfold St.tcpPort; rw [hset]
    have hup' : (onChange free (setBindPort free { s with set := c })).udpPort = c.udpPort.toNat := by unfold St.udpPort; rw [hset]
    have htcp : (onChange free (setBindPort free { s with set := c })).tcp =
        (if c.tcpPort = s.set.tcpPort then s.tcp else if free .tcp c.tcpPort.toNat then some c.tcpPort.toNat else none) := by
      rw [o10, b7, htp, b4]
      simp only
      rw [u1]
      unfold St.tcpPort
      by_cases e : c.tcpPort = s.set.tcpPort
      · rw [if_pos (by rw [e]), if_pos e]
      · rw [if_neg fun e' => e (UInt16.toNat_inj.1 e').symm, if_neg e]
    have hudp : (onChange free (setBindPort free { s with set := c })).udp =
        (if c.udpPort = s.set.udpPort then s.udp else if s.receiver then
          if c.udpPort ≠ 0 ∧ free .udp c.udpPort.toNat then some c.udpPort.toNat else none else s.udp) := by
      rw [o4, b11]
      simp only [St.udpPort]
      rw [u4]
      have hz : c.udpPort.toNat ≠ 0 ↔ c.udpPort ≠ 0 := ⟨fun h e => h (by rw [e]; rfl), fun h e => h (UInt16.toNat_inj.1 e)⟩
      unfold St.udpPort
      simp only [hz]
      by_cases e : c.udpPort = s.set.udpPort
      · rw [if_pos (by rw [e]), if_pos e]
      · rw [if_neg fun e' => e (UInt16.toNat_inj.1 e').symm, if_neg e]
    have hw := forward_wishes (setBindPort free { s with set := c }) (by rw [b5]; exact h.once) (by
      intro w
      rw [b5, b6, b7, b8]
      simp only
      rw [h.wish hl w, u1, u2, u3]
      rfl)
    refine ⟨_, rfl, by rw [o2, b2]; exact hl, by rw [o3, b3]; exact hg, ?_, by rw [hset], by rw [hset], by rw [hset], htcp, by rw [o5, b10], hudp⟩
    exact {
      idle := fun h => by rw [o2, b2] at h; simp only at h; rw [hl] at h; cases h
      used := fun _ => ⟨by rw [o7, htp, htp'], by rw [o8, hup, hup'], by rw [o9, b1, hset], by rw [o6, b9, hup']; rfl⟩
      tcp := by
        rw [htcp, htp']
        have ht := h.tcp
        split
        · next e =>
          rw [e]
          exact ht
        · split <;> simp
      udp := by
        rw [hudp, hup']
        have ht := h.udp
        split
        · next e =>
          rw [e]
          exact ht
        · split
          · split <;> simp
          · next hr => exact .inl (h.deaf (Bool.not_eq_true _ ▸ hr))
      deaf := fun hr => by
        rw [o5, b10] at hr
        simp only at hr
        rw [hudp, h.deaf hr, hr]
        simp
      once := by rw [o11]; exact hw.1
      wish := fun _ w => by
        rw [o11, hw.2]
        unfold Forwarded
        rw [b1, hset] }
  · have hc' := hc
    unfold changed at hc'
    simp only [decide_eq_true_eq, not_or, not_not] at hc'
    unfold setConnection
    rw [if_neg hc]
    refine ⟨s, rfl, hl, hg, h, hc'.1.symm, hc'.2.1.symm, hc'.2.2.2.1.symm, by rw [if_pos hc'.1], rfl, by rw [if_pos hc'.2.1]⟩

/-- A change before the first torrent. -/
theorem change_idle (free : Proto → Nat → Bool) (c : Connection) {s : St} (h : Inv s) (hl : s.listening = false) :
    ∃ s', setConnection free c s = .ok s' ∧ s'.listening = false ∧ s'.gone = s.gone ∧ Inv s' ∧ (s'.set.udpPort = c.udpPort ∧ s'.set.tcpPort = c.tcpPort) := by
  unfold setConnection
  by_cases hc : changed c s.set = true
  · rw [if_pos hc]
    simp only
    rw [if_neg (by rw [hl]; simp)]
    obtain ⟨h1, h2, h3, h4, h5, h6⟩ := h.idle hl
    refine ⟨_, rfl, hl, rfl, ?_, rfl, rfl⟩
    exact {
      idle := fun _ => ⟨h1, h2, h3, h4, h5, h6⟩
      used := fun h => by simp only at h; rw [hl] at h; cases h
      tcp := .inl h1
      udp := .inl h2
      deaf := fun _ => h2
      once := h.once
      wish := fun h => by simp only at h; rw [hl] at h; cases h }
  · have hc' := hc
    unfold changed at hc'
    simp only [decide_eq_true_eq, not_or, not_not] at hc'
    rw [if_neg hc]
    exact ⟨s, rfl, hl, rfl, h, hc'.2.1.symm, hc'.1.symm⟩

theorem step_inv {s : St} (h : Inv s) (hg : s.gone = false) (e : Ports.Ev) (ha : Alive e) :
    ∃ s', step s e = .ok s' ∧ s'.gone = false ∧ Inv s' := by
  cases e with
  | add free =>
    refine ⟨_, rfl, ?_, ?_⟩
    · rw [if_neg (by rw [hg]; simp)]
      by_cases hl : s.listening = true
      · unfold initListeners
        rw [if_pos hl]
        exact hg
      · exact (init_eq free h (Bool.not_eq_true _ ▸ hl)).2.2.1.trans hg
    · rw [if_neg (by rw [hg]; simp)]
      exact inv_init free h
  | change c free =>
    by_cases hl : s.listening = true
    · obtain ⟨s', h1, -, h2, h3, -⟩ := change_eq free c h hl hg
      exact ⟨s', h1, h2, h3⟩
    · obtain ⟨s', h1, -, h2, h3, -⟩ := change_idle free c h (Bool.not_eq_true _ ▸ hl)
      exact ⟨s', h1, h2.trans hg, h3⟩
  | found d => exact ⟨_, rfl, hg, inv_upnp h _ (found_wishes _ _)⟩
  | answer i b => exact ⟨_, rfl, hg, inv_upnp h _ (answer_wishes _ _ _)⟩
  | closed i => exact ⟨_, rfl, hg, inv_upnp h _ rfl⟩
  | deinit => exact ha.elim

theorem run_inv (es : List Ports.Ev) : ∀ {s : St}, Inv s → s.gone = false → (∀ e ∈ es, Alive e) →
    ∃ s', run s es = .ok s' ∧ s'.gone = false ∧ Inv s' := by
  induction es with
  | nil => intro s h hg _; exact ⟨s, rfl, hg, h⟩
  | cons e es ih =>
    intro s h hg ha
    obtain ⟨s1, h1, h2, h3⟩ := step_inv h hg e (ha e List.mem_cons_self)
    obtain ⟨s', h4, h5, h6⟩ := ih h3 h2 fun e he => ha e (List.mem_cons_of_mem _ he)
    exact ⟨s', by unfold run; rw [h1]; exact h4, h5, h6⟩

/-- A property kept by every event of a kind. -/
theorem run_keeps {P : St → Prop} {K : Ports.Ev → Prop}
    (hP : ∀ s e s', Inv s → s.gone = false → P s → K e → Alive e → step s e = .ok s' → P s') (es : List Ports.Ev) : ∀ {s s' : St}, Inv s →
    s.gone = false → P s → (∀ e ∈ es, Alive e) → (∀ e ∈ es, K e) → run s es = .ok s' → P s' := by
  induction es with
  | nil => intro s s' _ _ hp _ _ hr; cases hr; exact hp
  | cons e es ih =>
    intro s s' h hg hp ha hk hr
    obtain ⟨s1, h1, h2, h3⟩ := step_inv h hg e (ha e List.mem_cons_self)
    unfold run at hr
    rw [h1] at hr
    exact ih h3 h2 (hP s e s1 h hg hp (hk e List.mem_cons_self) (ha e List.mem_cons_self) h1)
      (fun e he => ha e (List.mem_cons_of_mem _ he)) (fun e he => hk e (List.mem_cons_of_mem _ he)) hr

theorem open_tcp (s : St) (e : Ports.Ev) (s' : St) (h : Inv s) (hg : s.gone = false) (hp : s.listening = true → s.tcp = some s.tcpPort)
    (hk : AlwaysFree .tcp e) (ha : Alive e) (hr : step s e = .ok s') : s'.listening = true → s'.tcp = some s'.tcpPort := by
  cases e with
  | add free =>
    change Res.ok (if s.gone = true then s else initListeners free s) = .ok s' at hr
    rw [if_neg (by rw [hg]; simp)] at hr
    cases hr
    intro hl'
    by_cases hl : s.listening = true
    · unfold initListeners at hl' ⊢
      rw [if_pos hl] at hl' ⊢
      exact hp hl
    · obtain ⟨e1, -, -, e3, -⟩ := init_eq free h (Bool.not_eq_true _ ▸ hl)
      rw [e3, hk, if_pos rfl]
      unfold St.tcpPort
      rw [e1]
  | change c free =>
    change setConnection free c s = .ok s' at hr
    intro hl'
    by_cases hl : s.listening = true
    · obtain ⟨x, h1, -, -, -, h2, -, -, h3, -⟩ := change_eq free c h hl hg
      rw [h1] at hr
      cases hr
      rw [h3]
      unfold St.tcpPort
      rw [h2]
      split
      · next e => rw [e]; exact hp hl
      · rw [hk, if_pos rfl]
    · obtain ⟨x, h1, h2, -⟩ := change_idle free c h (Bool.not_eq_true _ ▸ hl)
      rw [h1] at hr
      cases hr
      rw [h2] at hl'
      cases hl'
  | found d => cases hr; exact hp
  | answer i b => cases hr; exact hp
  | closed i => cases hr; exact hp
  | deinit => exact ha.elim

theorem port_ne {p : UInt16} (h : p ≠ 0) : p.toNat ≠ 0 := fun e => h (UInt16.toNat_inj.1 e)

theorem open_udp (s : St) (e : Ports.Ev) (s' : St) (h : Inv s) (hg : s.gone = false)
    (hp : s.set.udpPort ≠ 0 ∧ (s.listening = true → s.receiver = true ∧ s.udp = some s.udpPort))
    (hk : AlwaysFree .udp e ∧ UdpSet e) (ha : Alive e) (hr : step s e = .ok s') :
    s'.set.udpPort ≠ 0 ∧ (s'.listening = true → s'.receiver = true ∧ s'.udp = some s'.udpPort) := by
  cases e with
  | add free =>
    change Res.ok (if s.gone = true then s else initListeners free s) = .ok s' at hr
    rw [if_neg (by rw [hg]; simp)] at hr
    cases hr
    by_cases hl : s.listening = true
    · unfold initListeners
      rw [if_pos hl]
      exact hp
    · obtain ⟨e1, -, -, -, e4, e5, -⟩ := init_eq free h (Bool.not_eq_true _ ▸ hl)
      refine ⟨by rw [e1]; exact hp.1, fun _ => ⟨?_, ?_⟩⟩
      · rw [e5]; exact decide_eq_true (port_ne hp.1)
      · rw [e4, if_pos ⟨port_ne hp.1, hk.1 _⟩]
        unfold St.udpPort
        rw [e1]
  | change c free =>
    change setConnection free c s = .ok s' at hr
    by_cases hl : s.listening = true
    · obtain ⟨x, h1, -, -, -, -, h2, -, -, h3, h4⟩ := change_eq free c h hl hg
      rw [h1] at hr
      cases hr
      refine ⟨by rw [h2]; exact hk.2, fun _ => ⟨by rw [h3]; exact (hp.2 hl).1, ?_⟩⟩
      rw [h4]
      unfold St.udpPort
      rw [h2]
      split
      · next e => rw [e]; exact (hp.2 hl).2
      · rw [if_pos (hp.2 hl).1, if_pos ⟨hk.2, hk.1 _⟩]
    · obtain ⟨x, h1, h2, -, -, h3, -⟩ := change_idle free c h (Bool.not_eq_true _ ▸ hl)
      rw [h1] at hr
      cases hr
      refine ⟨by rw [h3]; exact hk.2, fun hl' => ?_⟩
      rw [h2] at hl'
      cases hl'
  | found d => cases hr; exact hp
  | answer i b => cases hr; exact hp
  | closed i => cases hr; exact hp
  | deinit => exact ha.elim

/-- A change that is not about ports. -/
theorem change_quiet (free : Proto → Nat → Bool) (c : Connection) {s : St} (h : Inv s) (hg : s.gone = false)
    (ht : c.tcpPort = s.set.tcpPort) (hu : c.udpPort = s.set.udpPort) :
    ∃ s', setConnection free c s = .ok s' ∧ s'.tcp = s.tcp ∧ s'.udp = s.udp ∧ s'.binds = s.binds ∧
      (c.upnpPortMapping = s.set.upnpPortMapping → s'.upnp = s.upnp) := by
  unfold setConnection
  by_cases hc : changed c s.set = true
  · rw [if_pos hc]
    simp only
    by_cases hl : s.listening = true
    · obtain ⟨u1, u2, u3, u4⟩ := h.used hl
      rw [if_pos hl, if_neg (by rw [hg]; simp)]
      have e1 : setBindPort free { s with set := c } = { s with set := c } := by
        unfold setBindPort
        rw [if_neg]
        simp only [St.udpPort, not_not] at *
        rw [u4, hu]
      rw [e1]
      refine ⟨_, rfl, ?_⟩
      unfold onChange forward moveTcp moveUdp mapBoth
      unfold St.tcpPort at u1
      unfold St.udpPort at u2
      by_cases h3 : c.upnpPortMapping = true <;> by_cases h4 : s.set.upnpPortMapping = true <;>
        simp [St.udpPort, St.tcpPort, h3, h4, ht, hu, u1, u2, u3]
    · rw [if_neg hl]
      exact ⟨_, rfl, rfl, rfl, rfl, fun _ => rfl⟩
  · rw [if_neg hc]
    exact ⟨s, rfl, rfl, rfl, rfl, fun _ => rfl⟩

end Verif.Ports
