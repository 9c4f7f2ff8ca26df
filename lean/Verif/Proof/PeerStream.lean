import Verif.Spec.PeerStream

namespace Verif.PeerStream
open Verif Spec.PeerStream

variable {H : Type}

theorem crypt_append (k : Nat → UInt8) : ∀ (a b : List UInt8) (n : Nat), crypt k n (a ++ b) = crypt k n a ++ crypt k (n + a.length) b
  | [], b, n => rfl
  | x :: a, b, n => by
    simp only [List.cons_append, crypt, List.length_cons, crypt_append k a b (n + 1)]
    rw [show n + 1 + a.length = n + (a.length + 1) by omega]

theorem crypt_length (k : Nat → UInt8) : ∀ (a : List UInt8) (n : Nat), (crypt k n a).length = a.length
  | [], _ => rfl
  | _ :: a, n => by simp only [crypt, List.length_cons, crypt_length k a]

theorem crypt_shift (k : Nat → UInt8) (o : Nat) : ∀ (a : List UInt8) (n : Nat), crypt (fun i => k (o + i)) n a = crypt k (o + n) a
  | [], _ => rfl
  | x :: a, n => by
    simp only [crypt, crypt_shift k o a]
    rfl

/-- While shaking hands. -/
structure Shaking (w : World H) : Prop where
  taken : w.taken = []
  shown : w.shown = []
  said : w.said = []
  sent : w.sent = []
  base : w.base ≤ w.raw.length
  buffer : w.buffer = w.raw.drop w.base
  unhandled : w.state.unhandled = 0
  pe : w.state.pe = none

/-- What the key streams have been used for. -/
def Keys (w : World H) : Prop :=
  match w.state.pe with
  | none => w.inKey = none ∧ w.outKey = none
  | some c => ∃ i o, w.inKey = some (fun n => c.inKey (i + n)) ∧ w.outKey = some (fun n => c.outKey (o + n)) ∧
      c.inPos = i + (w.raw.drop w.base).length ∧ c.outPos = o + w.said.length ∧ w.state.unhandled = w.buffer.length

/-- Afterwards. -/
structure Talking (w : World H) : Prop where
  base : w.base ≤ w.raw.length
  buffer : w.taken ++ w.buffer = apply w.inKey (w.raw.drop w.base)
  sent : w.sent = apply w.outKey w.said
  shown : ∀ x ∈ w.shown, x.1 ++ x.2 <+: apply w.inKey (w.raw.drop w.base)
  keys : Keys w

structure Inv (w : World H) : Prop where
  settled : w.state.remote = true ∨ w.state.firstWrite = false
  stream : (w.state.tcp.isSome || w.state.utp.isSome) = true
  shaking : ∀ h, w.state.hs = some h → Shaking w
  talking : w.state.hs = none → Talking w

theorem apply_append (key : Option (Nat → UInt8)) (a b : List UInt8) : apply key a <+: apply key (a ++ b) := by
  cases key with
  | none => exact List.prefix_append _ _
  | some k => simp only [apply, crypt_append]; exact List.prefix_append _ _

theorem write_settled (m : Machine H) (c : Config) {s : State H} (data : List UInt8) (h : s.remote = true ∨ s.firstWrite = false) :
    write m c s data = push s data := by
  unfold write
  rw [if_neg]
  rcases h with h | h <;> simp [h]

theorem push_state (s : State H) (data : List UInt8) : (push s data).1.hs = s.hs ∧ (push s data).1.tcp = s.tcp ∧ (push s data).1.utp = s.utp ∧
    (push s data).1.unhandled = s.unhandled ∧ (push s data).1.remote = s.remote ∧
    (push s data).1.pe = s.pe.map (fun c => { c with outPos := c.outPos + data.length }) ∧
    (s.firstWrite = false → (push s data).1.firstWrite = false) := by
  unfold push
  by_cases h : s.remote = true
  · simp only [h, if_true]; exact ⟨trivial, trivial, trivial, trivial, trivial, trivial, fun h => h⟩
  · simp only [if_neg h]; exact ⟨trivial, trivial, trivial, trivial, trivial, trivial, fun _ => trivial⟩

theorem push_bytes (s : State H) (data : List UInt8) (hs : (s.tcp.isSome || s.utp.isSome) = true) :
    bytes (push s data).2 = (match s.pe with | none => data | some c => crypt c.outKey c.outPos data) := by
  obtain ⟨-, h1, h2, -⟩ := push_state s data
  have : (push s data).2 = [.send (match s.pe with | none => data | some c => crypt c.outKey c.outPos data)] := by
    unfold push
    by_cases h : s.remote = true
    · simp only [h, if_true, hs]; rfl
    · simp only [if_neg h, hs, if_true]; rfl
  rw [this]
  simp [bytes]

theorem writes_inv (m : Machine H) (c : Config) {w : World H} (h : Inv w) (data : List UInt8) :
    ∃ w', w.step m c (.writes data) = .ok w' ∧ Inv w' := by
  obtain ⟨p1, p2, p3, p4, p5, p6, p7⟩ := push_state w.state data
  have hb := push_bytes w.state data h.stream
  have hset : (push w.state data).1.remote = true ∨ (push w.state data).1.firstWrite = false := by
    rw [p5]; exact h.settled.imp id p7
  unfold World.step
  simp only
  rw [write_settled m c data h.settled]
  cases hh : w.state.hs with
  | some x =>
    have ht := h.shaking x hh
    refine ⟨_, rfl, hset, by simp only [p2, p3]; exact h.stream, fun _ _ => ?_, by simp [p1, hh]⟩
    exact ⟨ht.taken, ht.shown, ht.said, ht.sent, ht.base, ht.buffer, by simp only [p4]; exact ht.unhandled, by simp only [p6, ht.pe]; rfl⟩
  | none =>
    have ht := h.talking hh
    refine ⟨_, rfl, hset, by simp only [p2, p3]; exact h.stream, by simp [p1, hh], fun _ => ?_⟩
    have hk := ht.keys
    have hs := ht.sent
    refine ⟨ht.base, ht.buffer, ?_, ht.shown, ?_⟩
    · simp only [hb]
      unfold Keys at hk
      cases hp : w.state.pe with
      | none => rw [hp] at hk; simp only [hk.2, apply] at hs ⊢; rw [hs]
      | some c =>
        rw [hp] at hk
        obtain ⟨i, o, -, k2, -, k4, -⟩ := hk
        simp only [k2, apply] at hs ⊢
        rw [crypt_append, hs, crypt_shift c.outKey o data, k4, Nat.zero_add]
    · unfold Keys at hk ⊢
      simp only [p6]
      cases hp : w.state.pe with
      | none => rw [hp] at hk; exact hk
      | some c =>
        rw [hp] at hk
        obtain ⟨i, o, k1, k2, k3, k4, k5⟩ := hk
        exact ⟨i, o, k1, k2, k3, by simp only [List.length_append]; omega, by simp only [p4]; exact k5⟩

/-- What `deliver` does for a connection that talks. -/
theorem deliver_ok {s : State H} {buffer taken rest chunk : List UInt8} {inKey : Option (Nat → UInt8)} (use : List UInt8 → Nat) (hu : ∀ l, use l ≤ l.length)
    (hb : taken ++ buffer = apply inKey rest)
    (hk : match s.pe with
      | none => inKey = none
      | some c => ∃ i, inKey = some (fun n => c.inKey (i + n)) ∧ c.inPos = i + rest.length ∧ s.unhandled = buffer.length) :
    ∃ g bs, deliver s (buffer ++ chunk) use = .ok g ∧ g.shown = some bs ∧ g.buffer = bs ∧ g.used = use bs ∧ taken ++ bs = apply inKey (rest ++ chunk) ∧
      g.state.hs = s.hs ∧ g.state.tcp = s.tcp ∧ g.state.utp = s.utp ∧ g.state.remote = s.remote ∧ g.state.firstWrite = s.firstWrite ∧
      (match s.pe with
        | none => g.state.pe = none
        | some c => g.state.pe = some { c with inPos := c.inPos + chunk.length } ∧ g.state.unhandled = (bs.drop (use bs)).length) := by
  unfold deliver
  cases hp : s.pe with
  | none =>
    rw [hp] at hk
    simp only at hk
    subst hk
    refine ⟨_, buffer ++ chunk, rfl, rfl, rfl, rfl, ?_, rfl, rfl, rfl, rfl, rfl, rfl⟩
    simp only [apply] at hb ⊢
    rw [← List.append_assoc, hb]
  | some c =>
    rw [hp] at hk
    obtain ⟨i, k1, k2, k3⟩ := hk
    simp only
    rw [if_neg (by simp only [List.length_append]; omega)]
    refine ⟨_, buffer ++ crypt c.inKey c.inPos chunk, rfl, ?_, ?_, ?_, ?_, rfl, rfl, rfl, rfl, rfl, ?_, ?_⟩
    · simp only [k3, List.take_left, List.drop_left]
    · simp only [k3, List.take_left, List.drop_left]
    · simp only [k3, List.take_left, List.drop_left]
    · subst k1
      simp only [apply] at hb ⊢
      rw [← List.append_assoc, hb, crypt_append, crypt_shift c.inKey i chunk, k2, Nat.zero_add]
    · simp only [List.length_append]
      rw [show buffer.length + chunk.length - s.unhandled = chunk.length by omega]
    · simp only [k3, List.take_left, List.drop_left, List.length_drop]

theorem arrives_inv (m : Machine H) (c : Config) (hm : Modest m) {w : World H} (h : Inv w) (chunk : List UInt8) (use : List UInt8 → Nat)
    (hu : ∀ l, use l ≤ l.length) : ∃ w', w.step m c (.arrives chunk use) = .ok w' ∧ Inv w' := by
  have hst : ((count w.state chunk.length).tcp.isSome || (count w.state chunk.length).utp.isSome) = true := by
    simp only [count, Option.isSome_map]; exact h.stream
  unfold World.step
  simp only
  unfold dataReceived
  have hcs : (count w.state chunk.length).hs = w.state.hs := rfl
  rw [hcs]
  cases hh : w.state.hs with
  | none =>
    have ht := h.talking hh
    have hk := ht.keys
    unfold Keys at hk
    simp only
    obtain ⟨g, bs, d1, d2, d3, d4, d5, d6, d7, d8, d9, d10, d11⟩ := deliver_ok (s := count w.state chunk.length) (chunk := chunk) use hu ht.buffer (by
      show (match w.state.pe with | none => _ | some c => _)
      cases hp : w.state.pe with
      | none => rw [hp] at hk; exact hk.1
      | some k =>
        rw [hp] at hk
        obtain ⟨i, o, k1, k2, k3, k4, k5⟩ := hk
        exact ⟨i, k1, k3, k5⟩)
    rw [d1]
    simp only [Res.map', Res.bind, d2, d3, d4]
    have hdrop : (w.raw ++ chunk).drop w.base = w.raw.drop w.base ++ chunk := List.drop_append_of_le_length ht.base
    refine ⟨_, rfl, ?_, ?_, ?_, fun _ => ⟨?_, ?_, ht.sent, ?_, ?_⟩⟩
    · simp only [d9, d10]; exact h.settled
    · simp only [d7, d8]; exact hst
    · simp only [d6, hcs, hh]; intro _ hx; cases hx
    · simp only [List.length_append]; have := ht.base; omega
    · simp only [hdrop]
      rw [← d5, List.append_assoc, List.take_append_drop]
    · intro x hx
      simp only [hdrop]
      rcases List.mem_append.1 hx with hx | hx
      · exact (ht.shown x hx).trans (apply_append _ _ _)
      · rw [List.mem_singleton] at hx
        subst hx
        rw [← d5]
        exact List.prefix_rfl
    · unfold Keys
      simp only [hdrop]
      have d11' : (match w.state.pe with
        | none => g.state.pe = none
        | some c => g.state.pe = some { c with inPos := c.inPos + chunk.length } ∧ g.state.unhandled = (bs.drop (use bs)).length) := d11
      cases hp : w.state.pe with
      | none => rw [hp] at hk d11'; rw [d11']; exact hk
      | some k =>
        rw [hp] at hk d11'
        obtain ⟨i, o, k1, k2, k3, k4, k5⟩ := hk
        rw [d11'.1]
        refine ⟨i, o, k1, k2, ?_, k4, d11'.2⟩
        simp only [List.length_append]; omega
  | some x =>
    have ht := h.shaking x hh
    have hl := hm x (w.buffer ++ chunk)
    have hdrop : (w.raw ++ chunk).drop w.base = w.raw.drop w.base ++ chunk := List.drop_append_of_le_length ht.base
    have hbuf : w.buffer ++ chunk = (w.raw ++ chunk).drop w.base := by rw [hdrop, ht.buffer]
    have hbase : w.base + (m.read x (w.buffer ++ chunk)).1 ≤ (w.raw ++ chunk).length := by
      have h1 := hbuf ▸ hl
      rw [List.length_drop] at h1
      have := ht.base
      rw [hbuf]
      simp only [List.length_append] at h1 ⊢
      omega
    have hrest : (w.buffer ++ chunk).drop (m.read x (w.buffer ++ chunk)).1 = (w.raw ++ chunk).drop (w.base + (m.read x (w.buffer ++ chunk)).1) := by
      generalize (m.read x (w.buffer ++ chunk)).1 = n
      rw [hbuf, List.drop_drop]
    simp only
    unfold shake
    generalize hr : m.read x (w.buffer ++ chunk) = r at *
    obtain ⟨n, resp, x'⟩ := r
    simp only at hl hbase hrest ⊢
    by_cases hf : m.failed x' = true
    · simp only [hf, if_true, Res.map', Res.bind]
      exact ⟨_, rfl, h.settled, hst, fun _ _ => ⟨ht.taken, by simp [ht.shown], ht.said, ht.sent, hbase, hrest, ht.unhandled, ht.pe⟩, by simp⟩
    · simp only [hf, Bool.false_eq_true, if_false]
      have hw : ∃ s' acts, (if resp = [] then (({ count w.state chunk.length with hs := some x' } : State H), ([] : List Act))
          else write m c { count w.state chunk.length with hs := some x' } resp) = (s', acts) ∧ s'.hs = some x' ∧ (s'.tcp.isSome || s'.utp.isSome) = true ∧
          s'.unhandled = 0 ∧ s'.pe = none ∧ (s'.remote = true ∨ s'.firstWrite = false) := by
        split
        · exact ⟨_, _, rfl, rfl, hst, ht.unhandled, ht.pe, h.settled⟩
        · obtain ⟨p1, p2, p3, p4, p5, p6, p7⟩ := push_state ({ count w.state chunk.length with hs := some x' } : State H) resp
          refine ⟨_, _, by rw [write_settled m c resp (by exact h.settled)], p1, by rw [p2, p3]; exact hst, by rw [p4]; exact ht.unhandled, ?_, ?_⟩
          · rw [p6]; show Option.map _ w.state.pe = none; rw [ht.pe]; rfl
          · rw [p5]; exact h.settled.imp id p7
      obtain ⟨s', acts, w1, w2, w3, w4, w5, w6⟩ := hw
      rw [w1]
      simp only
      by_cases he : m.established x' = true
      · simp only [he, if_true]
        by_cases hn : n < (w.buffer ++ chunk).length
        · rw [if_pos hn]
          by_cases hp : m.plain x' = true
          · obtain ⟨g, bs, d1, d2, d3, d4, d5, d6, d7, d8, d9, d10, d11⟩ := deliver_ok (s := { s' with pe := if m.plain x' = true then s'.pe else some (m.cipher x'), hs := none })
              (buffer := []) (taken := []) (rest := []) (inKey := none) (chunk := (w.buffer ++ chunk).drop n) use hu rfl (by simp [hp, w5])
            rw [List.nil_append] at d1
            rw [d1]
            simp only [Res.map', Res.bind, d2, d3, d4, d6, hp]
            simp only [if_pos hp, w5] at d11
            simp only [apply, List.nil_append] at d5
            refine ⟨_, rfl, ?_, ?_, ?_, fun _ => ⟨hbase, ?_, ?_, ?_, ?_⟩⟩
            · simp only [d9, d10]; exact w6
            · simp only [d7, d8]; exact w3
            · intro _ hx; simp only [d6] at hx; cases hx
            · simp only [ht.taken, List.nil_append, Bool.not_true, Bool.and_false, Bool.false_eq_true, if_false, Option.map_none, apply]
              rw [← hrest, ← d5, ← List.drop_drop, List.drop_left' (by rw [List.length_take]; omega), List.take_append_drop]
            · simp [ht.sent, ht.said, apply]
            · intro y hy
              simp only [ht.shown, List.nil_append, List.mem_singleton] at hy
              subst hy
              simp only [ht.taken, List.nil_append, Bool.not_true, Bool.and_false, Bool.false_eq_true, if_false, Option.map_none, apply]
              rw [← hrest, ← d5]
              exact List.prefix_rfl
            · unfold Keys
              simp only [d11]
              simp
          · obtain ⟨g, bs, d1, d2, d3, d4, d5, d6, d7, d8, d9, d10, d11⟩ := deliver_ok (s := { s' with pe := if m.plain x' = true then s'.pe else some (m.cipher x'), hs := none })
              (buffer := []) (taken := []) (rest := []) (inKey := some (fun i => (m.cipher x').inKey ((m.cipher x').inPos + i))) (chunk := (w.buffer ++ chunk).drop n) use hu rfl
              (by simp only [if_neg hp]; exact ⟨(m.cipher x').inPos, rfl, rfl, w4⟩)
            rw [List.nil_append] at d1
            rw [d1]
            simp only [Res.map', Res.bind, d2, d3, d4, d6, hp]
            simp only [if_neg hp] at d11
            simp only [List.nil_append] at d5
            refine ⟨_, rfl, ?_, ?_, ?_, fun _ => ⟨hbase, ?_, ?_, ?_, ?_⟩⟩
            · simp only [d9, d10]; exact w6
            · simp only [d7, d8]; exact w3
            · intro _ hx; simp only [d6] at hx; cases hx
            · simp only [ht.taken, List.nil_append, Option.isNone_none, Bool.not_false, Bool.and_self, if_true, Option.map_some]
              rw [← hrest, ← d5, ← List.drop_drop, List.drop_left' (by rw [List.length_take]; omega), List.take_append_drop]
            · simp [ht.sent, ht.said, apply, crypt]
            · intro y hy
              simp only [ht.shown, List.nil_append, List.mem_singleton] at hy
              subst hy
              simp only [ht.taken, List.nil_append, Option.isNone_none, Bool.not_false, Bool.and_self, if_true, Option.map_some]
              rw [← hrest, ← d5]
              exact List.prefix_rfl
            · unfold Keys
              simp only [d11.1]
              refine ⟨(m.cipher x').inPos, (m.cipher x').outPos, ?_, ?_, ?_, ?_, ?_⟩
              · simp
              · simp
              · rw [← hrest]
              · simp [ht.said]
              · rw [d11.2, ← List.drop_drop, List.drop_left' (by rw [List.length_take]; omega)]
        · rw [if_neg hn]
          have hnil : (w.buffer ++ chunk).drop n = [] := List.drop_eq_nil_of_le (by omega)
          have hnil2 : (w.raw ++ chunk).drop (w.base + n) = [] := by rw [← hrest, hnil]
          simp only [Res.map', Res.bind]
          refine ⟨_, rfl, w6, w3, by simp, fun _ => ⟨hbase, ?_, ?_, ?_, ?_⟩⟩
          · simp only [hnil, hnil2, ht.taken]
            generalize Option.map _ _ = k
            cases k <;> rfl
          · simp only [ht.sent, ht.said]
            generalize Option.map _ _ = k
            cases k <;> rfl
          · simp [ht.shown]
          · unfold Keys
            by_cases hp : m.plain x' = true
            · simp [hp, w5]
            · simp only [if_neg hp]
              refine ⟨(m.cipher x').inPos, (m.cipher x').outPos, ?_, ?_, ?_, ?_, ?_⟩
              · simp [hp]
              · simp [hp]
              · simp [hnil2]
              · simp [ht.said]
              · simp only [hnil, w4, List.length_nil]
      · simp only [he, Bool.false_eq_true, if_false, Res.map', Res.bind, w2]
        refine ⟨_, rfl, w6, w3, fun _ _ => ⟨ht.taken, by simp [ht.shown], ht.said, ht.sent, hbase, hrest, w4, w5⟩, by simp [w2]⟩

theorem arrives_shown (m : Machine H) (c : Config) {w : World H} (ht : Talking w) (hh : w.state.hs = none) (chunk : List UInt8) (use : List UInt8 → Nat)
    (hu : ∀ l, use l ≤ l.length) :
    ∃ w' bs, w.step m c (.arrives chunk use) = .ok w' ∧ w'.shown = w.shown ++ [(w.taken, bs)] ∧
      w.taken ++ bs = apply w.inKey ((w.raw ++ chunk).drop w.base) ∧ w'.taken = w.taken ++ bs.take (use bs) ∧ w'.state.hs = none := by
  unfold World.step
  simp only
  unfold dataReceived
  have hcs : (count w.state chunk.length).hs = w.state.hs := rfl
  rw [hcs, hh]
  have hk := ht.keys
  unfold Keys at hk
  simp only
  obtain ⟨g, bs, d1, d2, d3, d4, d5, d6, -⟩ := deliver_ok (s := count w.state chunk.length) (chunk := chunk) use hu ht.buffer (by
    show (match w.state.pe with | none => _ | some c => _)
    cases hp : w.state.pe with
    | none => rw [hp] at hk; exact hk.1
    | some k =>
      rw [hp] at hk
      obtain ⟨i, o, k1, k2, k3, k4, k5⟩ := hk
      exact ⟨i, k1, k3, k5⟩)
  rw [d1]
  simp only [Res.map', Res.bind, d2]
  refine ⟨_, bs, rfl, rfl, ?_, rfl, by simp only [d6, hcs, hh]⟩
  rw [d5, List.drop_append_of_le_length ht.base]

theorem run_inv (m : Machine H) (c : Config) (hm : Modest m) : ∀ (es : List Event) (w : World H), Inv w → (∀ e ∈ es, Fair e) →
    ∃ w', runFrom m c es w = .ok w' ∧ Inv w'
  | [], w, h, _ => ⟨w, rfl, h⟩
  | e :: es, w, h, hf => by
    have : ∃ w', w.step m c e = .ok w' ∧ Inv w' := by
      have hfe := hf e (List.mem_cons_self ..)
      cases e with
      | arrives chunk use => exact arrives_inv m c hm h chunk use hfe
      | writes data => exact writes_inv m c h data
    obtain ⟨w1, h1, h2⟩ := this
    obtain ⟨w2, h3, h4⟩ := run_inv m c hm es w1 h2 (fun x hx => hf x (List.mem_cons_of_mem _ hx))
    exact ⟨w2, by unfold runFrom; rw [h1]; exact h3, h4⟩

/-- What becomes of a connection that was made. -/
def verdict (c : Config) (p : Peer) : Nat × Outcome :=
  if c.policy ≠ .require ∧ p.plain = true then (0, .talking false)
  else if c.policy = .require then (0, if p.encrypted = true then .talking true else .closed)
  else if c.policy = .allow then (1, if p.encrypted = true then .talking true else .closed)
  else (0, .closed)

theorem follow_opened (m : Machine H) (c : Config) (p : Peer) (msg : List UInt8) (hmsg : msg ≠ []) (t : Transport) (n : Nat) (s : State H)
    (hp : p.reached t = true) (hc : s.connected = true) (hr : s.reconnect = false) (hrm : s.remote = false) (hm : s.manualClose = false)
    (hf : s.firstWrite = true) (hh : s.hs = none) (hpe : s.pe = none)
    (ht : (t = .tcp ∧ s.tcp = some 0) ∨ (t = .utp ∧ s.tcp = none ∧ s.utp = some 0)) :
    follow m c p msg t (n + 8) s [.opened] = verdict c p := by
  have hfl : ∃ b, m.failed (m.initiate msg).1 = b := ⟨_, rfl⟩
  obtain ⟨b, hb⟩ := hfl
  obtain ⟨tc, ut, mc, co, re, tt, utt, rc, fw, ho, hs', pe', ini, un⟩ := s
  simp only at hc hr hrm hm hf hh hpe ht
  subst hc hr hrm hm hf hh hpe
  obtain ⟨c1, c2, c3, c4⟩ := c
  obtain ⟨p1, p2, p3, p4⟩ := p
  rcases ht with ⟨rfl, rfl⟩ | ⟨rfl, rfl, rfl⟩
  all_goals
    simp only [Peer.reached] at hp
    subst hp
    cases c4 <;> cases p3 <;> cases p4 <;> cases b <;>
      simp [verdict, follow, write, push, startEncryption, connectionClosed, retryOrClose, kept, received, reconnectStream, openTcp, openUtp, connectionOpened, sendRetry, hmsg, hb, Peer.reached]

theorem follow_opened' (m : Machine H) (c : Config) (p : Peer) (msg : List UInt8) (hmsg : msg ≠ []) (t : Transport) (N : Nat) (s : State H) (hN : 8 ≤ N)
    (hp : p.reached t = true) (hc : s.connected = true) (hr : s.reconnect = false) (hrm : s.remote = false) (hm : s.manualClose = false)
    (hf : s.firstWrite = true) (hh : s.hs = none) (hpe : s.pe = none)
    (ht : (t = .tcp ∧ s.tcp = some 0) ∨ (t = .utp ∧ s.tcp = none ∧ s.utp = some 0)) :
    follow m c p msg t N s [.opened] = verdict c p := by
  obtain ⟨n, rfl⟩ : ∃ n, N = n + 8 := ⟨N - 8, by omega⟩
  exact follow_opened m c p msg hmsg t n s hp hc hr hrm hm hf hh hpe ht

theorem follow_opened_utp (m : Machine H) (c : Config) (p : Peer) (msg : List UInt8) (hmsg : msg ≠ []) (N : Nat) (s : State H) (hN : 8 ≤ N)
    (hp : p.utp = true) (hc : s.connected = true) (hr : s.reconnect = false) (hrm : s.remote = false) (hm : s.manualClose = false)
    (hf : s.firstWrite = true) (hh : s.hs = none) (hpe : s.pe = none) (ht : s.tcp = none) (hu : s.utp = some 0) :
    follow m c p msg .utp N s [.opened] = verdict c p :=
  follow_opened' m c p msg hmsg .utp N s hN hp hc hr hrm hm hf hh hpe (Or.inr ⟨rfl, ht, hu⟩)

theorem follow_opened_tcp (m : Machine H) (c : Config) (p : Peer) (msg : List UInt8) (hmsg : msg ≠ []) (N : Nat) (s : State H) (hN : 8 ≤ N)
    (hp : p.tcp = true) (hc : s.connected = true) (hr : s.reconnect = false) (hrm : s.remote = false) (hm : s.manualClose = false)
    (hf : s.firstWrite = true) (hh : s.hs = none) (hpe : s.pe = none) (ht : s.tcp = some 0) :
    follow m c p msg .tcp N s [.opened] = verdict c p :=
  follow_opened' m c p msg hmsg .tcp N s hN hp hc hr hrm hm hf hh hpe (Or.inl ⟨rfl, ht⟩)

theorem follow_connect (m : Machine H) (c : Config) (p : Peer) (msg : List UInt8) (t' t : Transport) (n : Nat) (s : State H) :
    follow m c p msg t' (n + 1) s [.connect t] =
      ((follow m c p msg t n (if p.reached t then connectionOpened m c s else connectionClosed m c s t).1 (if p.reached t then connectionOpened m c s else connectionClosed m c s t).2).1 + 1,
       (follow m c p msg t n (if p.reached t then connectionOpened m c s else connectionClosed m c s t).1 (if p.reached t then connectionOpened m c s else connectionClosed m c s t).2).2) := rfl

theorem follow_closed (m : Machine H) (c : Config) (p : Peer) (msg : List UInt8) (t : Transport) (n : Nat) (s : State H) :
    follow m c p msg t (n + 1) s [.closed] = (0, .closed) := rfl

theorem attempt_eq (m : Machine H) (c : Config) (p : Peer) (hole : Bool) (msg : List UInt8) (hmsg : msg ≠ []) :
    (attempt m c p hole msg).1 ≤ 2 + (verdict c p).1 ∧ (attempt m c p hole msg).2 =
      if ((c.tcpOut && p.tcp) || (c.utpOut && p.utp)) && (!hole || c.utpOut) then (verdict c p).2 else .closed := by
  obtain ⟨c1, c2, c3, c4⟩ := c
  obtain ⟨p1, p2, p3, p4⟩ := p
  unfold attempt
  cases c1 <;> cases c2 <;> cases c3 <;> cases p1 <;> cases p2 <;> cases hole <;>
    simp [opening, openTcp, openUtp, follow_connect, follow_closed, Peer.reached, connectionClosed, connectionOpened, follow_opened_utp, follow_opened_tcp, hmsg] <;> omega

end Verif.PeerStream
