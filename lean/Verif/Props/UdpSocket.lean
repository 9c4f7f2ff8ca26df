import Verif.Spec.UdpSocket
/-! C85, C86. -/

namespace Verif
open UdpSocket Spec.UdpSocket

set_option linter.unusedSectionVars false
set_option linter.unusedSimpArgs false

namespace UdpSocketP
variable {E : Type} [DecidableEq E]

/-- What a reading has received so far. -/
def got (r : Reading E) : List (List UInt8) := (handed r.calls).map (·.2) ++ r.packets

theorem handed_append (a b : List (Option E × List (List UInt8))) : handed (a ++ b) = handed a ++ handed b := by simp [handed]

theorem handed_bytes (e : Option E) (ps : List (List UInt8)) : (handed [(e, ps)]).map (·.2) = ps := by
  simp [handed, Function.comp_def]

theorem got_flush (r : Reading E) : got (flush r) = got r := by
  unfold flush; split
  · rfl
  · simp only [got, handed_append, List.map_append, handed_bytes, List.append_nil]

theorem got_append (r : Reading E) (b : List UInt8) : got (append r b) = got r ++ [b] := by
  unfold append; dsimp only
  split
  · have h := got_flush r
    simp only [got] at h ⊢
    rw [← List.append_assoc, h]
  · simp only [got, List.append_assoc]

theorem size_append (r : Reading E) (b : List UInt8) : (append r b).size = r.size := by
  unfold append flush; dsimp only; split <;> (try split) <;> rfl

theorem pos_append (r : Reading E) (b : List UInt8) : (append r b).pos = r.pos + b.length := by
  unfold append flush; dsimp only; split <;> (try split) <;> rfl

theorem flush_packets (r : Reading E) : (flush r).packets = [] := by
  unfold flush; split
  · assumption
  · rfl

theorem arrived_append (a b : List (Recv E)) : arrived (a ++ b) = arrived a ++ arrived b := by
  induction a with
  | nil => rfl
  | cons v a ih =>
    cases v with
    | data e bs => cases bs <;> simp [arrived, ih]
    | interrupted => simp [arrived, ih]
    | error => simp [arrived, ih]

/-- The loop takes some of what the socket has, in order. -/
theorem loop_got : ∀ (vs : List (Recv E)) (r : Reading E), Short vs → r.pos ≤ r.size →
    ∃ used, vs = used ++ (readLoop r vs).2 ∧ got (readLoop r vs).1 = got r ++ (arrived used).map (·.2) ∧
      (vs ≠ [] → 2048 ≤ r.size - r.pos → used ≠ [])
  | [], r, _, _ => ⟨[], rfl, by simp [readLoop, arrived], fun h => absurd rfl h⟩
  | v :: vs, r, hs, hp => by
    have hs' : Short vs := fun e bs hm => hs e bs (List.mem_cons_of_mem _ hm)
    unfold readLoop
    by_cases hc : r.size - r.pos < 2048
    · rw [if_pos hc]
      exact ⟨[], rfl, by simp [arrived], fun _ h => absurd h (by omega)⟩
    · rw [if_neg hc]
      cases v with
      | interrupted =>
        obtain ⟨u, h1, h2, -⟩ := loop_got vs r hs' hp
        exact ⟨.interrupted :: u, by dsimp only; rw [List.cons_append, ← h1], by dsimp only; rw [h2]; rfl, fun _ _ => by simp⟩
      | error => exact ⟨[.error], rfl, by simp [arrived], fun _ _ => by simp⟩
      | data e bs =>
        dsimp only
        have hl := hs e bs (List.mem_cons_self ..)
        rw [List.take_of_length_le (by omega : bs.length ≤ r.size - r.pos)]
        cases bs with
        | nil => exact ⟨[.data e []], by simp, by simp [arrived, got], fun _ _ => by simp⟩
        | cons b bs =>
          rw [if_neg (by simp)]
          generalize hr : ({ r with endpoint := some e } : Reading E) = r1
          have e1 : r1.size = r.size := by rw [← hr]
          have e2 : r1.pos = r.pos := by rw [← hr]
          have e3 : got r1 = got r := by rw [← hr]; rfl
          obtain ⟨u, h1, h2, -⟩ := loop_got vs (append r1 (b :: bs)) hs' (by rw [size_append, pos_append, e1, e2]; omega)
          refine ⟨.data e (b :: bs) :: u, ?_, ?_, fun _ _ => by simp⟩
          · rw [List.cons_append, ← h1]
          · rw [h2, got_append, e3]; simp [arrived]

theorem short_of {vs used rest : List (Recv E)} (h : Short vs) (e : vs = used ++ rest) : Short rest :=
  fun x bs hm => h x bs (e ▸ List.mem_append_right _ hm)

theorem socket_got (size n : Nat) (vs : List (Recv E)) (hs : Short vs) (hz : 2048 ≤ size) :
    ∃ used, vs = used ++ (readSocket size n vs).2.2 ∧ (handed (readSocket size n vs).1).map (·.2) = (arrived used).map (·.2) ∧
      (vs ≠ [] → used ≠ []) ∧ 2048 ≤ (readSocket size n vs).2.1 := by
  obtain ⟨u, h1, h2, h3⟩ := loop_got vs { size := max size (min 51200 n) } hs (Nat.zero_le _)
  refine ⟨u, h1, ?_, fun h => h3 h ?_, ?_⟩
  · have h4 := got_flush (readLoop { size := max size (min 51200 n) } vs).1
    rw [h2] at h4
    simp only [got, flush_packets, List.append_nil] at h4
    simpa [readSocket, handed] using h4
  · dsimp only; omega
  · simp only [readSocket]; omega

/-- The sender of all is `e`: it is that of all calls. -/
def Of (e : E) (r : Reading E) : Prop := (∀ c ∈ r.calls, c.1 = some e) ∧ (r.packets ≠ [] → r.endpoint = some e)

theorem of_flush {e : E} {r : Reading E} (h : Of e r) : Of e (flush r) := by
  unfold flush; split
  · exact h
  · rename_i hp
    refine ⟨fun c hc => ?_, fun h => absurd rfl h⟩
    rcases List.mem_append.mp hc with hc | hc
    · exact h.1 c hc
    · rw [List.mem_singleton.mp hc]; exact h.2 hp

theorem flush_endpoint (r : Reading E) : (flush r).endpoint = r.endpoint := by unfold flush; split <;> rfl

theorem of_append {e : E} {r : Reading E} {b : List UInt8} (h : Of e r) (he : r.endpoint = some e) : Of e (append r b) := by
  unfold append; dsimp only
  split
  · exact ⟨(of_flush h).1, fun _ => by simpa [flush_endpoint] using he⟩
  · exact ⟨h.1, fun _ => he⟩

theorem of_loop {e : E} : ∀ (vs : List (Recv E)) (r : Reading E), From e vs → Of e r → Of e (readLoop r vs).1
  | [], _, _, h => h
  | v :: vs, r, hf, h => by
    have hf' : From e vs := fun e' bs hm => hf e' bs (List.mem_cons_of_mem _ hm)
    unfold readLoop
    split
    · exact h
    · cases v with
      | interrupted => exact of_loop vs r hf' h
      | error => exact h
      | data e' bs =>
        have := hf e' bs (List.mem_cons_self ..)
        subst this
        dsimp only
        have hr : Of e' { r with endpoint := some e' } := ⟨h.1, fun _ => rfl⟩
        split
        · exact hr
        · exact of_loop vs _ hf' (of_append hr rfl)

theorem handed_of {e : E} {calls : List (Option E × List (List UInt8))} (h : ∀ c ∈ calls, c.1 = some e) :
    handed calls = ((handed calls).map (·.2)).map (some e, ·) := by
  induction calls with
  | nil => rfl
  | cons c cs ih =>
    have hc := h c (List.mem_cons_self ..)
    have hi := ih (fun c hm => h c (List.mem_cons_of_mem _ hm))
    have e1 : handed (c :: cs) = c.2.map (c.1, ·) ++ handed cs := by simp [handed]
    rw [e1, List.map_append, List.map_append, ← hi, hc]
    simp [Function.comp_def]

theorem arrived_of {e : E} : ∀ {vs : List (Recv E)}, From e vs → arrived vs = ((arrived vs).map (·.2)).map (e, ·)
  | [], _ => rfl
  | v :: vs, hf => by
    have hi := arrived_of (fun e' bs hm => hf e' bs (List.mem_cons_of_mem _ hm) : From e vs)
    cases v with
    | interrupted => exact hi
    | error => exact hi
    | data e' bs =>
      have := hf e' bs (List.mem_cons_self ..)
      subst this
      cases bs with
      | nil => exact hi
      | cons b bs =>
        show (_ :: arrived vs) = _
        conv => lhs; rw [hi]
        simp [arrived]

/-- Each sent datagram was written, to an address that was set. -/
def Origin (ds : List (List UInt8)) (as : List E) (w : Writer E) : Prop :=
  (w.message = [] ∨ w.message ∈ ds) ∧ (∀ e, w.target = some e → e ∈ as) ∧ (w.phase ≠ .clear → w.target.isSome)

def Fine (ds : List (List UInt8)) (as : List E) (acts : List (Act E)) : Prop := ∀ t d, Act.sent t d ∈ acts → d ∈ ds ∧ ∃ e ∈ as, t = some e

theorem origin_fail {ds : List (List UInt8)} {as : List E} {w : Writer E} (h : Origin ds as w) :
    Origin ds as (postFail w).1 ∧ Fine ds as (postFail w).2 := by
  refine ⟨⟨h.1, h.2.1, ?_⟩, ?_⟩
  · intro hp; apply h.2.2
    simp only [postFail] at hp
    intro hc; rw [hc] at hp; exact hp rfl
  · intro t d hm; simp only [postFail] at hm; split at hm <;> simp at hm

theorem origin_send {ds : List (List UInt8)} {as : List E} {w : Writer E} (h : Origin ds as w) (hp : w.phase ≠ .clear) {data : List UInt8} (hd : data ∈ ds) (ok : Bool) :
    Origin ds as (send w data ok).1 ∧ Fine ds as (send w data ok).2 := by
  unfold send; split
  · refine ⟨h, fun t d hm => ?_⟩
    simp only [List.mem_singleton, Act.sent.injEq] at hm
    obtain ⟨rfl, rfl⟩ := hm
    obtain ⟨e, he⟩ := Option.isSome_iff_exists.mp (h.2.2 hp)
    exact ⟨hd, e, h.2.1 e he, he⟩
  · exact origin_fail h

theorem origin_kept {ds : List (List UInt8)} {as : List E} {w : Writer E} (h : Origin ds as w) (hp : w.phase ≠ .clear) (ok : Bool) :
    Origin ds as (sendKept w ok).1 ∧ Fine ds as (sendKept w ok).2 := by
  unfold sendKept; split
  · exact ⟨h, fun _ _ hm => by simp at hm⟩
  · rename_i hm; exact origin_send h hp (h.1.resolve_left hm) ok

theorem origin_set {ds : List (List UInt8)} {as : List E} {w : Writer E} (h : Origin ds as w) (hp : w.phase ≠ .clear) (ok : Bool) :
    Origin ds as (setConnected w ok).1 ∧ Fine ds as (setConnected w ok).2 := by
  unfold setConnected
  exact origin_kept (w := { w with receives := _, phase := .connected }) ⟨h.1, h.2.1, fun _ => h.2.2 hp⟩ (by simp) ok

theorem origin_message {ds : List (List UInt8)} {as : List E} {w : Writer E} (h : Origin ds as w) (ok : Bool) :
    Origin ds as (sendMessage w ok).1 ∧ Fine ds as (sendMessage w ok).2 := by
  unfold sendMessage; split
  · exact ⟨h, fun _ _ hm => by simp at hm⟩
  · rename_i hp
    split
    · exact origin_set h (by rw [hp]; simp) ok
    · exact ⟨h, fun _ _ hm => by simp at hm⟩
  · rename_i hp; exact origin_kept h (by rw [hp]; simp) ok

theorem origin_resolve {ds : List (List UInt8)} {as : List E} {w : Writer E} (h : Origin ds as w) :
    Origin ds as (resolve w).1 ∧ Fine ds as (resolve w).2 := by
  unfold resolve; split
  · exact ⟨h, fun _ _ hm => by simp at hm⟩
  · exact ⟨h, fun _ _ hm => by simp at hm⟩


theorem fine_mono {ds ds' : List (List UInt8)} {as as' : List E} {acts : List (Act E)} (hd : ∀ d ∈ ds, d ∈ ds') (ha : ∀ a ∈ as, a ∈ as')
    (h : Fine ds as acts) : Fine ds' as' acts := fun t d hm =>
  have ⟨h1, e, h2, h3⟩ := h t d hm
  ⟨hd d h1, e, ha e h2, h3⟩

theorem origin_step {ds : List (List UInt8)} {as : List E} {w : Writer E} (h : Origin ds as w) (v : Event E)
    (hw : ∀ d ∈ written [v], d ∈ ds) (ha : ∀ a ∈ addresses [v], a ∈ as) (hc : ∀ e ok, v = .connected e ok → w.phase ≠ .clear) :
    Origin ds as (step w v).1 ∧ Fine ds as (step w v).2 := by
  cases v with
  | setAddress e =>
    refine ⟨⟨h.1, fun e' he' => ?_, fun _ => rfl⟩, fun _ _ hm => by simp [step] at hm⟩
    simp only [step, setAddress, Option.some.injEq] at he'
    exact he' ▸ ha e (by simp [addresses])
  | setName => exact origin_resolve (w := { w with named := true }) h
  | resolved e ok =>
    simp only [step, resolved]
    cases e with
    | none =>
      obtain ⟨h1, h2⟩ := origin_fail h
      exact ⟨h1, h2⟩
    | some e =>
      have h' : Origin ds as { w with target := some e, phase := .initialized } :=
        ⟨h.1, fun e' he' => by simp only [Option.some.injEq] at he'; exact he' ▸ ha e (by simp [addresses]), fun _ => rfl⟩
      dsimp only
      split
      · exact ⟨h', fun _ _ hm => by simp at hm⟩
      · obtain ⟨h1, h2⟩ := origin_message h' ok
        exact ⟨h1, h2⟩
  | connected e ok =>
    have hp := hc e ok rfl
    simp only [step, connected]
    split
    · exact origin_fail (w := { w with connecting := w.connecting - 1 }) h
    · exact origin_set (w := { w with connecting := w.connecting - 1 }) h hp ok
  | write d ok =>
    simp only [step, write]
    have h' : Origin ds as { w with message := d } := ⟨Or.inr (hw d (by simp [written])), h.2⟩
    split
    · exact origin_message h' ok
    · split
      · exact origin_resolve h'
      · exact ⟨h', fun _ _ hm => by simp at hm⟩
  | writeView d ok =>
    simp only [step, writeView]
    split
    · rename_i hp; exact origin_send h (by rw [hp]; simp) (hw d (by simp [written])) ok
    · simp only [write]
      have h' : Origin ds as { w with message := d } := ⟨Or.inr (hw d (by simp [written])), h.2⟩
      split
      · exact origin_message h' ok
      · split
        · exact origin_resolve h'
        · exact ⟨h', fun _ _ hm => by simp at hm⟩
  | rewrite ok =>
    simp only [step, rewrite]
    split
    · exact origin_message h ok
    · exact ⟨h, fun _ _ hm => by simp at hm⟩
  | close =>
    refine ⟨⟨h.1, h.2.1, fun hp => h.2.2 ?_⟩, fun _ _ hm => by simp [step] at hm⟩
    simp only [step, close] at hp
    intro hc'; rw [hc'] at hp; exact hp rfl

/-- A connection ends only if one was asked for. -/
def Asked : Writer E → List (Event E) → Prop
  | _, [] => True
  | w, v :: vs => (∀ e ok, v = .connected e ok → 0 < w.connecting) ∧ Asked (step w v).1 vs

theorem phase_kept (w : Writer E) (ok : Bool) (h : w.phase ≠ .clear) : (sendKept w ok).1.phase ≠ .clear := by
  unfold sendKept send postFail
  split
  · exact h
  · split
    · exact h
    · dsimp only; split <;> simp_all

theorem phase_message (w : Writer E) (ok : Bool) (h : w.phase ≠ .clear) : (sendMessage w ok).1.phase ≠ .clear := by
  unfold sendMessage; split
  · exact h
  · split
    · exact phase_kept _ ok (by simp)
    · exact h
  · exact phase_kept w ok h

theorem connecting_kept (w : Writer E) (ok : Bool) : (sendKept w ok).1.connecting = w.connecting := by
  unfold sendKept send postFail; split
  · rfl
  · split <;> rfl

/-- Connections are asked for with an address only. -/
def Ready (w : Writer E) : Prop := 0 < w.connecting → w.phase ≠ .clear

theorem ready_message {w : Writer E} (ok : Bool) (h : Ready w) : Ready (sendMessage w ok).1 := by
  by_cases hc : w.phase = .clear
  · have : sendMessage w ok = (w, []) := by unfold sendMessage; rw [hc]
    rw [this]; exact h
  · intro _; exact phase_message w ok hc

theorem ready_resolve {w : Writer E} (h : Ready w) : Ready (resolve w).1 := by
  unfold resolve; split <;> exact h

theorem ready_write {w : Writer E} (d : List UInt8) (ok : Bool) (h : Ready w) : Ready (write w d ok).1 := by
  unfold write; dsimp only; split
  · exact ready_message (w := { w with message := d }) ok h
  · split
    · exact ready_resolve (w := { w with message := d }) h
    · exact h

theorem ready_fail {w : Writer E} (h : Ready w) : Ready (postFail w).1 := by
  intro hc; have := h hc
  simp only [postFail]; split <;> simp_all

theorem ready_step {w : Writer E} (v : Event E) (h : Ready w) (ha : ∀ e ok, v = .connected e ok → 0 < w.connecting) : Ready (step w v).1 := by
  cases v with
  | setAddress e => intro _; simp [step, setAddress]
  | setName => exact ready_resolve (w := { w with named := true }) h
  | resolved e ok =>
    simp only [step, resolved]
    cases e with
    | none => exact ready_fail h
    | some e =>
      dsimp only; split
      · intro _; simp
      · exact ready_message (w := { w with target := some e, phase := .initialized }) ok (fun _ => by simp)
  | connected e ok =>
    have hp := h (ha e ok rfl)
    simp only [step, connected]
    split
    · exact ready_fail (w := { w with connecting := _ }) (fun _ => hp)
    · intro _; exact phase_kept _ ok (by simp)
  | write d ok => exact ready_write d ok h
  | writeView d ok =>
    simp only [step, writeView]; split
    · rename_i hp
      unfold send; split
      · exact h
      · exact ready_fail h
    · exact ready_write d ok h
  | rewrite ok =>
    simp only [step, rewrite]; split
    · exact ready_message ok h
    · exact h
  | close => intro hc; simp [step, close] at hc

theorem origin_run : ∀ (vs : List (Event E)) (w : Writer E) (ds : List (List UInt8)) (as : List E), Origin ds as w → Ready w → Asked w vs →
    (∀ d ∈ written vs, d ∈ ds) → (∀ a ∈ addresses vs, a ∈ as) → Fine ds as (run w vs).2
  | [], _, _, _, _, _, _, _, _ => fun _ _ hm => by simp [run] at hm
  | v :: vs, w, ds, as, h, hr, ha, hw, hs => by
    have e1 : ∀ d ∈ written [v], d ∈ ds := fun d hd => hw d (by cases v <;> simp_all [written])
    have e2 : ∀ a ∈ addresses [v], a ∈ as := fun a hd => hs a (by
      cases v with
      | resolved e ok => cases e <;> simp_all [addresses]
      | _ => simp_all [addresses])
    obtain ⟨h1, h2⟩ := origin_step h v e1 e2 (fun e ok hv => hr (ha.1 e ok hv))
    have h3 := origin_run vs (step w v).1 ds as h1 (ready_step v hr ha.1) ha.2
      (fun d hd => hw d (by cases v <;> simp_all [written]))
      (fun a hd => hs a (by
        cases v with
        | resolved e ok => cases e <;> simp_all [addresses]
        | _ => simp_all [addresses]))
    intro t d hm
    simp only [run, List.mem_append] at hm
    rcases hm with hm | hm
    · exact h2 t d hm
    · exact h3 t d hm

theorem read_all : ∀ (n : Nat) (t : Option E) (vs : List (E × List UInt8)), (∀ v ∈ vs, v.2 ≠ []) →
    ((readDatagrams n t vs).1, (readDatagrams n t vs).2.2) = ((vs.take n).map fun v => Act.answer v.2, vs.drop n)
  | 0, _, _, _ => rfl
  | _ + 1, _, [], _ => rfl
  | n + 1, t, (e, bytes) :: vs, h => by
    have hb := h _ (List.mem_cons_self ..)
    have hi := read_all n (some e) vs (fun v hv => h v (List.mem_cons_of_mem _ hv))
    simp only [Prod.mk.injEq] at hi
    simp only [readDatagrams, List.length_eq_zero_iff]
    rw [if_neg hb]
    simp [hi.1, hi.2]

theorem run_append (w : Writer E) (a b : List (Event E)) : (run w (a ++ b)).2 = (run w a).2 ++ (run (run w a).1 b).2 ∧
    (run w (a ++ b)).1 = (run (run w a).1 b).1 := by
  induction a generalizing w with
  | nil => exact ⟨rfl, rfl⟩
  | cons v a ih =>
    obtain ⟨h1, h2⟩ := ih (step w v).1
    exact ⟨by simp only [List.cons_append, run, h1, List.append_assoc], by simp only [List.cons_append, run, h2]⟩

theorem run_writes {w : Writer E} (hp : w.phase = .connected) : ∀ (ds : List (List UInt8)), (∀ d ∈ ds, d ≠ []) →
    (run w (ds.map (.write · true))).2 = ds.map (.sent w.target)
  | [], _ => rfl
  | d :: ds, h => by
    have hd := h d (List.mem_cons_self ..)
    have e : step w (.write d true) = ({ w with message := d }, [.sent w.target d]) := by
      simp [step, write, sendMessage, sendKept, send, hp, hd]
    simp only [List.map_cons, run, e]
    rw [run_writes (w := { w with message := d }) hp ds (fun d hm => h d (List.mem_cons_of_mem _ hm))]
    rfl

/-- All that was received is of one sender and still kept. -/
def Joined (e : E) (r : Reading E) : Prop := r.calls = [] ∧ (r.packets ≠ [] → r.last = some e)

theorem joined_append {e : E} {r : Reading E} {b : List UInt8} (h : Joined e r) (he : r.endpoint = some e) : Joined e (append r b) := by
  unfold append; dsimp only
  split
  · rename_i hl
    have hp : r.packets = [] := by
      apply Decidable.byContradiction
      intro hp; exact hl ((h.2 hp).trans he.symm)
    refine ⟨?_, fun _ => ?_⟩
    · simp [flush, hp, h.1]
    · simpa [flush_endpoint] using he
  · exact ⟨h.1, fun _ => he⟩

theorem joined_loop {e : E} : ∀ (vs : List (Recv E)) (r : Reading E), From e vs → Joined e r → Joined e (readLoop r vs).1
  | [], _, _, h => h
  | v :: vs, r, hf, h => by
    have hf' : From e vs := fun e' bs hm => hf e' bs (List.mem_cons_of_mem _ hm)
    unfold readLoop
    split
    · exact h
    · cases v with
      | interrupted => exact joined_loop vs r hf' h
      | error => exact h
      | data e' bs =>
        have := hf e' bs (List.mem_cons_self ..)
        subst this
        dsimp only
        have hr : Joined e' { r with endpoint := some e' } := h
        split
        · exact hr
        · exact joined_loop vs _ hf' (joined_append hr rfl)

/-- Nobody is to be told of the end. -/
def Quiet (r : Writer E × List (Act E)) : Prop := r.1.closes = false ∧ Act.closed ∉ r.2

theorem quiet_fail {w : Writer E} (h : w.closes = false) : Quiet (postFail w) := by simp [Quiet, postFail, h]

theorem quiet_send {w : Writer E} (h : w.closes = false) (d : List UInt8) (ok : Bool) : Quiet (send w d ok) := by
  unfold send; split
  · simp [Quiet, h]
  · exact quiet_fail h

theorem quiet_kept {w : Writer E} (h : w.closes = false) (ok : Bool) : Quiet (sendKept w ok) := by
  unfold sendKept; split
  · simp [Quiet, h]
  · exact quiet_send h _ ok

theorem quiet_set {w : Writer E} (h : w.closes = false) (ok : Bool) : Quiet (setConnected w ok) := quiet_kept (w := { w with receives := _, phase := .connected }) h ok

theorem quiet_message {w : Writer E} (h : w.closes = false) (ok : Bool) : Quiet (sendMessage w ok) := by
  unfold sendMessage; split
  · simp [Quiet, h]
  · split
    · exact quiet_set h ok
    · simp [Quiet, h]
  · exact quiet_kept h ok

theorem quiet_resolve {w : Writer E} (h : w.closes = false) : Quiet (resolve w) := by
  unfold resolve; split <;> simp [Quiet, h]

theorem quiet_write {w : Writer E} (h : w.closes = false) (d : List UInt8) (ok : Bool) : Quiet (write w d ok) := by
  unfold write; dsimp only
  split
  · exact quiet_message (w := { w with message := d }) h ok
  · split
    · exact quiet_resolve (w := { w with message := d }) h
    · simp [Quiet, h]

theorem quiet_step {w : Writer E} (h : w.closes = false) (v : Event E) : Quiet (step w v) := by
  cases v with
  | setAddress e => simp [Quiet, step, setAddress, h]
  | setName => exact quiet_resolve (w := { w with named := true }) h
  | resolved e ok =>
    simp only [step, resolved]
    cases e with
    | none => exact quiet_fail h
    | some e =>
      dsimp only
      split
      · simp [Quiet, h]
      · exact quiet_message (w := { w with target := some e, phase := .initialized }) h ok
  | connected error ok =>
    simp only [step, connected]
    split
    · exact quiet_fail (w := { w with connecting := w.connecting - 1 }) h
    · exact quiet_set (w := { w with connecting := w.connecting - 1 }) h ok
  | write d ok => exact quiet_write h d ok
  | writeView d ok =>
    simp only [step, writeView]
    split
    · exact quiet_send h d ok
    · exact quiet_write h d ok
  | rewrite ok =>
    simp only [step, rewrite]
    split
    · exact quiet_message h ok
    · simp [Quiet, h]
  | close => simp [Quiet, step, close]

theorem quiet_run : ∀ (es : List (Event E)) (w : Writer E), w.closes = false → Quiet (run w es)
  | [], w, h => by simp [Quiet, run, h]
  | v :: es, w, h => by
    have h1 := quiet_step h v
    have h2 := quiet_run es (step w v).1 h1.1
    exact ⟨h2.1, fun hm => (List.mem_append.mp hm).elim h1.2 h2.2⟩

end UdpSocketP
open UdpSocketP

section
variable {E : Type} [DecidableEq E]

/-! ### C85 -/

/-- C85: all datagrams of at most 2048 bytes are handed on, whole and in order, whoever sent them and whatever interrupts reading; nothing stays in the
socket. That the address is the right one is not said; `C85_sender_violated` says that it is not. -/
theorem C85_all_partial (size : Nat) (hz : 2048 ≤ size) : ∀ (ns : List Nat) (vs : List (Recv E)), Short vs → vs.length ≤ ns.length →
    (receiveAll size ns vs).2 = [] ∧ (handed (receiveAll size ns vs).1).map (·.2) = (arrived vs).map (·.2) := by
  intro ns
  induction ns generalizing size with
  | nil =>
    intro vs _ hl
    have : vs = [] := List.length_eq_zero_iff.mp (by simpa using hl)
    subst this
    exact ⟨rfl, rfl⟩
  | cons n ns ih =>
    intro vs hs hl
    obtain ⟨u, h1, h2, h3, h4⟩ := socket_got size n vs hs hz
    have hl' : (readSocket size n vs).2.2.length ≤ ns.length := by
      by_cases hv : vs = []
      · have := congrArg List.length h1
        rw [hv] at this; simp only [List.length_nil, List.length_append] at this; rw [hv]; omega
      · have h5 := List.length_pos_iff.mpr (h3 hv)
        have := congrArg List.length h1
        simp only [List.length_append, List.length_cons] at this hl
        omega
    obtain ⟨h6, h7⟩ := ih _ h4 _ (short_of hs h1) hl'
    refine ⟨h6, ?_⟩
    simp only [receiveAll, handed_append, List.map_append, h2, h7]
    rw [← List.map_append, ← arrived_append, ← h1]

example : (receiveAll 10240 [0, 0, 0] [.data 1 [7], .interrupted, .data (2 : Nat) [8, 9]]).2 = [] :=
  (C85_all_partial 10240 (by decide) _ _ (by intro e bs h; simp at h; rcases h with h | h <;> simp [h]) (by decide)).1

/-- C85: as long as all that is in the socket has one sender, it is handed on with its address. -/
theorem C85_sender_partial (size n : Nat) (hz : 2048 ≤ size) (vs : List (Recv E)) (hs : Short vs) (e : E) (hf : From e vs) :
    ∃ used, vs = used ++ (readSocket size n vs).2.2 ∧ (vs ≠ [] → used ≠ []) ∧
      handed (readSocket size n vs).1 = (arrived used).map fun d => (some d.1, d.2) := by
  obtain ⟨u, h1, h2, h3, -⟩ := socket_got size n vs hs hz
  refine ⟨u, h1, h3, ?_⟩
  have ho : Of e (flush (readLoop { size := max size (min 51200 n) } vs).1) :=
    of_flush (of_loop vs _ hf ⟨fun c hc => by simp at hc, fun h => absurd rfl h⟩)
  have h4 : handed (readSocket size n vs).1 = ((handed (readSocket size n vs).1).map (·.2)).map (some e, ·) := handed_of ho.1
  rw [h4, h2]
  have hu : From e u := fun e' bs hm => hf e' bs (by rw [h1]; exact List.mem_append_left _ hm)
  conv => rhs; rw [arrived_of hu]
  simp [Function.comp_def]

example : handed (readSocket 10240 0 [.data (5 : Nat) [7], .data 5 [8, 9]]).1 = [(some 5, [7]), (some 5, [8, 9])] := by decide +kernel

/-- C85: datagrams of one sender that are in the socket at once are handed on together. -/
theorem C85_together_partial (size n : Nat) (vs : List (Recv E)) (e : E) (hf : From e vs) : (readSocket size n vs).1.length ≤ 1 := by
  have h := joined_loop vs { size := max size (min 51200 n) } hf ⟨rfl, fun h => absurd rfl h⟩
  simp only [readSocket, flush]
  split <;> simp [h.1]

example : (readSocket 10240 0 [.data (5 : Nat) [7], .data 5 [8, 9]]).1 = [(some 5, [[7], [8, 9]])] := by decide +kernel

/-- C85 fails: of datagrams of two senders in the socket, that of the first is handed on with the address of the second. -/
theorem C85_sender_violated (a b : E) (hab : a ≠ b) (n : Nat) (x y : List UInt8) (hx : x ≠ []) (hy : y ≠ []) (lx : x.length ≤ 2048) (ly : y.length ≤ 2048) :
    handed (readSocket 10240 n [.data a x, .data b y]).1 = [(some b, x), (some b, y)] := by
  obtain ⟨x0, xs, rfl⟩ := List.exists_cons_of_ne_nil hx
  obtain ⟨y0, ys, rfl⟩ := List.exists_cons_of_ne_nil hy
  simp only [List.length_cons] at lx ly
  have h1 : ¬ max 10240 (min 51200 n) < 2048 := by omega
  have h2 : ¬ max 10240 (min 51200 n) - (xs.length + 1) < 2048 := by omega
  have h3 : (x0 :: xs).take (max 10240 (min 51200 n)) = x0 :: xs := List.take_of_length_le (by simp; omega)
  have h4 : (y0 :: ys).take (max 10240 (min 51200 n) - (xs.length + 1)) = y0 :: ys := List.take_of_length_le (by simp; omega)
  have hab' : ¬ (some a = some b) := fun h => hab (Option.some.inj h)
  simp [readSocket, readLoop, h1, h2, h3, h4, append, flush, hab', handed]

/-- C85 fails: a datagram in front of an empty one is handed on with the address of the empty one. -/
theorem C85_empty_violated (a b : E) (n : Nat) (x : List UInt8) (hx : x ≠ []) (lx : x.length ≤ 2048) :
    handed (readSocket 10240 n [.data a x, .data b []]).1 = [(some b, x)] := by
  obtain ⟨x0, xs, rfl⟩ := List.exists_cons_of_ne_nil hx
  simp only [List.length_cons] at lx
  have h1 : ¬ max 10240 (min 51200 n) < 2048 := by omega
  have h2 : ¬ max 10240 (min 51200 n) - (xs.length + 1) < 2048 := by omega
  have h3 : (x0 :: xs).take (max 10240 (min 51200 n)) = x0 :: xs := List.take_of_length_le (by simp; omega)
  simp [readSocket, readLoop, h1, h2, h3, append, flush, handed]

/-- C85 fails: a datagram behind another one is cut off where the memory of the socket's owner ends, which had room for all of it. -/
theorem C85_cut_violated (a : E) (x y : List UInt8) (hx : x ≠ []) (lx : x.length ≤ 8192) (ly : 10240 < x.length + y.length) :
    handed (readSocket 10240 x.length [.data a x, .data a y]).1 = [(some a, x), (some a, y.take (10240 - x.length))] := by
  have h0 : max 10240 (min 51200 x.length) = 10240 := by omega
  have h2 : ¬ 10240 - x.length < 2048 := by omega
  have h3 : x.take 10240 = x := List.take_of_length_le (by omega)
  have h5 : ¬ (y.take (10240 - x.length)).length = 0 := by rw [List.length_take]; omega
  have h6 : ¬ (min (10240 - x.length) y.length = 0) := by omega
  simp only [readSocket, h0, readLoop, Nat.sub_zero, h3, append]
  have e1 : ¬ (x.length = 0) := by simpa using hx
  rw [if_neg (by decide), if_neg e1]
  simp only [flush, reduceCtorEq, ne_eq, not_false_eq_true, ↓reduceIte, Nat.zero_add, List.nil_append]
  rw [if_neg h2, if_neg h5]
  simp [handed]

/-! ### C86 -/

/-- C86: all answers that are not empty are handed on, in order; nothing stays in the socket. -/
theorem C86_answers_partial : ∀ (n : Nat) (w : Writer E) (vs : List (E × List UInt8)), w.phase = .connected → (∀ v ∈ vs, v.2 ≠ []) → vs.length ≤ 30 * n →
    (handleAll w n vs).2 = (vs.map fun v => Act.answer v.2, [])
  | 0, _, vs, _, _, hl => by
    have : vs = [] := List.length_eq_zero_iff.mp (by omega)
    subst this; rfl
  | n + 1, w, vs, hp, hn, hl => by
    have h := read_all 30 w.target vs hn
    simp only [Prod.mk.injEq] at h
    have e : handleReceive w false vs = ({ w with target := (readDatagrams 30 w.target vs).2.1 }, (vs.take 30).map (fun v => Act.answer v.2), vs.drop 30) := by
      simp [handleReceive, hp, h.1, h.2]
    simp only [handleAll, e]
    rw [C86_answers_partial n { w with target := (readDatagrams 30 w.target vs).2.1 } (vs.drop 30) hp (fun v hv => hn v (List.mem_of_mem_drop hv)) (by rw [List.length_drop]; omega)]
    simp [← List.map_append]

example : (handleAll { phase := .connected : Writer Nat } 1 [(5, [1]), (5, [2, 3])]).2 = ([.answer [1], .answer [2, 3]], []) := by decide +kernel

/-- C86 fails: behind an empty datagram nothing is read any more, however often the socket says that there is something. -/
theorem C86_empty_violated (w : Writer E) (e : E) (vs : List (E × List UInt8)) : ∀ n, (handleAll w n ((e, []) :: vs)).2 = ([], (e, []) :: vs) := by
  intro n
  induction n generalizing w with
  | zero => rfl
  | succ n ih =>
    have e1 : (handleReceive w false ((e, []) :: vs)).2 = ([], (e, []) :: vs) := by
      simp only [handleReceive]; split
      · rfl
      · rfl
    simp only [handleAll, e1]
    rw [ih]; rfl

/-- C86: messages written to an address, the second one after the socket is connected, are sent there, each once and in order; asked again, the last
one is sent again. -/
theorem C86_sent_partial (e : E) (answers : Bool) (d : List UInt8) (ds : List (List UInt8)) (k : Nat) (hd : ∀ x ∈ d :: ds, x ≠ []) :
    (run (E := E) { answers := answers } (.setAddress e :: .write d true :: .connected false true :: (ds.map (.write · true) ++ List.replicate k (.rewrite true)))).2 =
      (d :: ds).map (.sent (some e)) ++ List.replicate k (.sent (some e) ((d :: ds).getLast (by simp))) := by
  have h0 := hd d (List.mem_cons_self ..)
  generalize hw : ({ phase := .connected, target := some e, named := true, message := d, receives := if answers then 1 else 0, answers := answers } : Writer E) = w
  have hp : w.phase = .connected := by rw [← hw]
  have ht : w.target = some e := by rw [← hw]
  have hm : w.message = d := by rw [← hw]
  have e1 : ∀ rest, (run (E := E) { answers := answers } (.setAddress e :: .write d true :: .connected false true :: rest)).2 = .sent (some e) d :: (run w rest).2 := by
    intro rest
    rw [← hw]
    cases answers <;> simp [run, step, setAddress, write, sendMessage, connected, setConnected, sendKept, send, h0]
  have rew : ∀ (k : Nat) (w : Writer E), w.phase = .connected → w.target = some e → w.message ≠ [] →
      (run w (List.replicate k (.rewrite true))).2 = List.replicate k (.sent (some e) w.message) := by
    intro k
    induction k with
    | zero => intro w _ _ _; rfl
    | succ k ih =>
      intro w hp ht hm
      have e2 : step w (.rewrite true) = (w, [.sent (some e) w.message]) := by
        simp [step, rewrite, sendMessage, sendKept, send, hp, hm, ht]
      simp only [List.replicate_succ, run, e2]
      rw [ih w hp ht hm]; rfl
  have last : ∀ (ds : List (List UInt8)) (w : Writer E), w.phase = .connected → w.target = some e → w.message ≠ [] → (∀ x ∈ ds, x ≠ []) →
      (run w (ds.map (.write · true))).1.phase = .connected ∧ (run w (ds.map (.write · true))).1.target = some e ∧
        (run w (ds.map (.write · true))).1.message = (w.message :: ds).getLast (by simp) := by
    intro ds
    induction ds with
    | nil => intro w hp ht _ _; exact ⟨hp, ht, rfl⟩
    | cons x ds ih =>
      intro w hp ht _ hx
      have hx0 := hx x (List.mem_cons_self ..)
      have e2 : step w (.write x true) = ({ w with message := x }, [.sent w.target x]) := by
        simp [step, write, sendMessage, sendKept, send, hp, hx0]
      simp only [List.map_cons, run, e2]
      obtain ⟨a, b, c⟩ := ih { w with message := x } hp ht hx0 (fun y hy => hx y (List.mem_cons_of_mem _ hy))
      refine ⟨a, b, ?_⟩
      rw [c]; simp
  have hds : ∀ x ∈ ds, x ≠ [] := fun x hx => hd x (List.mem_cons_of_mem _ hx)
  obtain ⟨l1, l2, l3⟩ := last ds w hp ht (hm ▸ h0) hds
  rw [e1, (run_append w _ _).1, run_writes hp ds hds, rew k _ l1 l2 (by rw [l3, hm]; exact hd _ (List.getLast_mem _)), l3, ht]
  simp [hm]

example : (run (E := Nat) {} [.setAddress 5, .write [1] true, .connected false true, .write [2] true, .rewrite true]).2 =
    [.sent (some 5) [1], .sent (some 5) [2], .sent (some 5) [2]] := by decide +kernel

/-- C86: a message written to a name is sent to the address it is found to have, be it written before or after that. -/
theorem C86_named_partial (e : E) (d : List UInt8) (hd : d ≠ []) :
    (run (E := E) {} [.setName, .write d true, .resolved (some e) true, .connected false true]).2 = [.lookup, .sent (some e) d] ∧
    (run (E := E) {} [.setName, .resolved (some e) true, .write d true, .connected false true]).2 = [.lookup, .sent (some e) d] ∧
    (run (E := E) { closes := true } [.setName, .write d true, .resolved none true]).2 = [.lookup, .closed] := by
  refine ⟨?_, ?_, ?_⟩ <;> simp [run, step, setName, resolve, write, resolved, sendMessage, connected, setConnected, sendKept, send, postFail, hd]

/-- C86: whatever happens to a request, what it sends was written, and it sends it to an address that was given to it or found for its name. -/
theorem C86_origin_partial (w : Writer E) (hw : w.message = [] ∧ w.target = none ∧ w.phase = .clear ∧ w.connecting = 0) (es : List (Event E)) (ha : Asked w es)
    (t : Option E) (d : List UInt8) (h : Act.sent t d ∈ (run w es).2) : d ∈ written es ∧ ∃ e ∈ addresses es, t = some e :=
  origin_run es w (written es) (addresses es) ⟨Or.inl hw.1, fun e he => (by rw [hw.2.1] at he; cases he), fun hp => absurd hw.2.2.1 hp⟩
    (fun hc => by omega) ha (fun _ hd => hd) (fun _ hd => hd) t d h

example : Act.sent (some 5) [1] ∈ (run (E := Nat) {} [.setAddress 5, .write [1] true, .connected false true]).2 := by decide +kernel

/-- C86: a request listens once though it was connected twice; a name that was not found is looked up again for the next message. -/
theorem C86_again_partial (e : E) (d1 d2 : List UInt8) (h2 : d2 ≠ []) :
    (run (E := E) { answers := true } [.setAddress e, .write d1 true, .write d2 true, .connected false true, .connected false true]).1.receives = 1 ∧
    (run (E := E) {} [.setName, .write d1 true, .resolved none true, .write d2 true, .resolved (some e) true, .connected false true]).2 =
      [.lookup, .lookup, .sent (some e) d2] := by
  refine ⟨?_, ?_⟩ <;> simp [run, step, setAddress, setName, resolve, resolved, write, sendMessage, connected, setConnected, sendKept, send, postFail, h2]

/-- C86: once a request was closed, its owner is told nothing any more, whatever happens to it, and nothing is read from its socket when the
call that waited ends; nothing is read after an error either. -/
theorem C86_silent_partial (w : Writer E) (es : List (Event E)) (error : Bool) (vs : List (E × List UInt8)) :
    Act.closed ∉ (run (close w) es).2 ∧ (handleReceive (close w) error vs).2 = ([], vs) ∧ (handleReceive w true vs).2 = ([], vs) := by
  refine ⟨(quiet_run es (close w) rfl).2, ?_, by simp [handleReceive]⟩
  unfold handleReceive
  rw [if_pos]
  simp only [close, Bool.or_eq_true, decide_eq_true_eq]
  right
  split <;> simp_all

example : (run (E := Nat) (close { phase := .connected, closes := true }) [.write [1] true, .connected true true]).2 = [] := by decide +kernel
example : (run (E := Nat) { phase := .initialized, closes := true } [.write [1] true, .connected true true]).2 = [.closed] := by decide +kernel

/-- C86 fails: of two messages written before the socket is connected, the first one is lost and the second one sent twice. -/
theorem C86_lost_violated (e : E) (d1 d2 : List UInt8) (h2 : d2 ≠ []) :
    (run (E := E) {} [.setAddress e, .write d1 true, .write d2 true, .connected false true, .connected false true]).2 =
      [.sent (some e) d2, .sent (some e) d2] := by
  simp [run, step, setAddress, write, sendMessage, connected, setConnected, sendKept, send, h2]

/-- C86 fails: a request that was closed sends again; what is answered is not received, its owner is not told of the end. -/
theorem C86_closed_violated (e : E) (d : List UInt8) (hd : d ≠ []) :
    let r := run (E := E) { answers := true, closes := true } [.setAddress e, .write d true, .connected false true, .close, .rewrite true, .connected false true]
    r.2 = [.sent (some e) d, .sent (some e) d] ∧ r.1.phase = .connected ∧ r.1.receives = 0 := by
  simp [run, step, setAddress, write, sendMessage, connected, setConnected, sendKept, send, close, rewrite, hd]

/-- C86 fails: a request to all that was answered by one is sent to that one alone when asked again. -/
theorem C86_target_violated (group router : E) (d b : List UInt8) (hd : d ≠ []) (hb : b ≠ []) :
    let w := (run (E := E) { broadcast := true, answers := true } [.setAddress group, .write d true]).1
    let r := handleReceive w false [(router, b)]
    r.2.1 = [.answer b] ∧ (rewrite r.1 true).2 = [.sent (some router) d] := by
  simp [run, step, setAddress, write, sendMessage, setConnected, sendKept, send, rewrite, handleReceive, readDatagrams, hd, hb]

end
end Verif
