import Verif.Spec.Measures

/-! C104: the speeds shown are the bytes of the last second. -/

namespace Verif
open Measures Spec.Measures

namespace MeasuresProof

theorem since_eq {now before : Nat} (h : before ≤ now) : since now before = (now - before) % 4294967296 := by
  unfold since
  split
  · rfl
  · rw [show now - before = 0 by omega]

theorem run_down (es : List Ev) : ∀ (s : St), s.lastDown ≤ s.down → (∀ e ∈ es, goesOn e) →
    (run s es).2.map (·.1) = (perSecond gains (s.down - s.lastDown) es).map (· % 4294967296) := by
  induction es with
  | nil => intro s _ _; rfl
  | cons e es ih =>
    intro s hs hg
    have hg' := fun x hx => hg x (List.mem_cons_of_mem e hx)
    have he := hg e List.mem_cons_self
    unfold run perSecond
    cases e with
    | measure =>
      simp only [if_true, List.map_cons, step]
      rw [ih (measureAll s) (Nat.le_refl _) hg']
      simp only [measureAll, Nat.sub_self, since_eq hs]
    | start => exact absurd rfl he.1
    | stop => exact absurd rfl he.2
    | gained n =>
      simp only [reduceCtorEq, if_false]
      rw [ih _ (by simp only [step]; omega) hg']
      simp only [step, gains]
      rw [show s.down + n - s.lastDown = s.down - s.lastDown + n by omega]
    | opened a =>
      simp only [reduceCtorEq, if_false]
      have h1 : (step s (.opened a)).down = s.down ∧ (step s (.opened a)).lastDown = s.lastDown := by
        simp only [step]; split <;> exact ⟨rfl, rfl⟩
      rw [ih _ (by rw [h1.1, h1.2]; exact hs) hg', h1.1, h1.2]
      rfl
    | closed a => simp only [reduceCtorEq, if_false]; exact ih (step s (.closed a)) hs hg'
    | received a n => simp only [reduceCtorEq, if_false]; exact ih (step s (.received a n)) hs hg'
    | sent a n => simp only [reduceCtorEq, if_false]; exact ih (step s (.sent a n)) hs hg'
    | given n => simp only [reduceCtorEq, if_false]; exact ih (step s (.given n)) hs hg'

theorem run_up (es : List Ev) : ∀ (s : St), s.lastUp ≤ s.up → (∀ e ∈ es, goesOn e) →
    (run s es).2.map (·.2) = (perSecond gifts (s.up - s.lastUp) es).map (· % 4294967296) := by
  induction es with
  | nil => intro s _ _; rfl
  | cons e es ih =>
    intro s hs hg
    have hg' := fun x hx => hg x (List.mem_cons_of_mem e hx)
    have he := hg e List.mem_cons_self
    unfold run perSecond
    cases e with
    | measure =>
      simp only [if_true, List.map_cons, step]
      rw [ih (measureAll s) (Nat.le_refl _) hg']
      simp only [measureAll, Nat.sub_self, since_eq hs]
    | start => exact absurd rfl he.1
    | stop => exact absurd rfl he.2
    | given n =>
      simp only [reduceCtorEq, if_false]
      rw [ih _ (by simp only [step]; omega) hg']
      simp only [step, gifts]
      rw [show s.up + n - s.lastUp = s.up - s.lastUp + n by omega]
    | opened a =>
      simp only [reduceCtorEq, if_false]
      have h1 : (step s (.opened a)).up = s.up ∧ (step s (.opened a)).lastUp = s.lastUp := by
        simp only [step]; split <;> exact ⟨rfl, rfl⟩
      rw [ih _ (by rw [h1.1, h1.2]; exact hs) hg', h1.1, h1.2]
      rfl
    | closed a => simp only [reduceCtorEq, if_false]; exact ih (step s (.closed a)) hs hg'
    | received a n => simp only [reduceCtorEq, if_false]; exact ih (step s (.received a n)) hs hg'
    | sent a n => simp only [reduceCtorEq, if_false]; exact ih (step s (.sent a n)) hs hg'
    | gained n => simp only [reduceCtorEq, if_false]; exact ih (step s (.gained n)) hs hg'

/-- At most one connection at an address. -/
def Single (s : St) : Prop := (s.conns.map (·.addr)).Nodup

/-- The connection at `a` has counted so much. -/
def At (s : St) (a d u : Nat) : Prop := ∃ c ∈ s.conns, c.addr = a ∧ c.down = d ∧ c.up = u

theorem atAddr_addrs (a : Nat) (f : Conn → Conn) (hf : ∀ c, (f c).addr = c.addr) (s : St) : (atAddr a f s).conns.map (·.addr) = s.conns.map (·.addr) := by
  unfold atAddr
  simp only [List.map_map]
  apply List.map_congr_left
  intro c _
  simp only [Function.comp]
  split
  · exact hf c
  · rfl

theorem measureConn_addr (l : List (Nat × Nat × Nat)) (c : Conn) : (measureConn l c).addr = c.addr ∧ (measureConn l c).down = c.down ∧
    (measureConn l c).up = c.up := by
  unfold measureConn
  split <;> exact ⟨rfl, rfl, rfl⟩

theorem step_single (s : St) (e : Ev) (h : Single s) : Single (step s e) := by
  unfold Single at *
  cases e with
  | opened a =>
    simp only [step]
    split
    · exact h
    · next hn =>
      simp only [List.map_append, List.map_cons, List.map_nil]
      rw [List.nodup_append]
      refine ⟨h, by simp, ?_⟩
      intro x hx y hy e
      rw [List.mem_singleton] at hy
      obtain ⟨c, hc, rfl⟩ := List.mem_map.1 hx
      exact hn (List.any_eq_true.2 ⟨c, hc, by simp [e, hy]⟩)
  | closed a => exact h.sublist (List.filter_sublist.map _)
  | received a n => simp only [step]; rw [atAddr_addrs a _ (by intro c; rfl)]; exact h
  | sent a n => simp only [step]; rw [atAddr_addrs a _ (by intro c; rfl)]; exact h
  | gained n => exact h
  | given n => exact h
  | measure =>
    have : (step s .measure).conns.map (·.addr) = s.conns.map (·.addr) := by
      simp only [step, measureAll, List.map_map]
      apply List.map_congr_left
      intro c _
      exact (measureConn_addr _ c).1
    rw [this]; exact h
  | start => exact h
  | stop => exact List.nodup_nil

theorem run_single (es : List Ev) : ∀ (s : St), Single s → Single (run s es).1 := by
  induction es with
  | nil => intro s h; exact h
  | cons e es ih => intro s h; exact ih _ (step_single s e h)

/-- A second of a connection that stays. -/
theorem stays_at (es : List Ev) (a : Nat) : ∀ (s : St) (d u : Nat), At s a d u → (∀ e ∈ es, stays a e) →
    At (run s es).1 a (d + (es.map (gotFrom a)).sum) (u + (es.map (sentTo a)).sum) ∧ (run s es).1.last = s.last := by
  induction es with
  | nil => intro s d u h _; exact ⟨h, rfl⟩
  | cons e es ih =>
    intro s d u h hg
    have he := hg e List.mem_cons_self
    have hg' := fun x hx => hg x (List.mem_cons_of_mem e hx)
    have hstep : At (step s e) a (d + gotFrom a e) (u + sentTo a e) ∧ (step s e).last = s.last := by
      obtain ⟨c, c1, c2, c3, c4⟩ := h
      cases e with
      | opened b =>
        simp only [step]
        split
        · exact ⟨⟨c, c1, c2, c3, c4⟩, rfl⟩
        · exact ⟨⟨c, List.mem_append_left _ c1, c2, c3, c4⟩, rfl⟩
      | closed b =>
        have hb : ¬ c.addr = b := fun e => he.2.2 (by rw [← e, c2])
        exact ⟨⟨c, List.mem_filter.2 ⟨c1, by simpa using hb⟩, c2, c3, c4⟩, rfl⟩
      | received b n =>
        refine ⟨⟨_, List.mem_map.2 ⟨c, c1, rfl⟩, ?_⟩, rfl⟩
        simp only [gotFrom, sentTo]
        by_cases hb : b = a
        · rw [if_pos (by rw [c2, hb]), if_pos hb]
          exact ⟨c2, by simp only [c3], c4⟩
        · rw [if_neg (by rw [c2]; exact fun e => hb e.symm), if_neg hb]
          exact ⟨c2, c3, c4⟩
      | sent b n =>
        refine ⟨⟨_, List.mem_map.2 ⟨c, c1, rfl⟩, ?_⟩, rfl⟩
        simp only [gotFrom, sentTo]
        by_cases hb : b = a
        · rw [if_pos (by rw [c2, hb]), if_pos hb]
          exact ⟨c2, c3, by simp only [c4]⟩
        · rw [if_neg (by rw [c2]; exact fun e => hb e.symm), if_neg hb]
          exact ⟨c2, c3, c4⟩
      | gained n => exact ⟨⟨c, c1, c2, c3, c4⟩, rfl⟩
      | given n => exact ⟨⟨c, c1, c2, c3, c4⟩, rfl⟩
      | measure => exact absurd rfl he.1
      | start => exact ⟨⟨c, c1, c2, c3, c4⟩, rfl⟩
      | stop => exact absurd rfl he.2.1
    obtain ⟨h1, h2⟩ := ih (step s e) _ _ hstep.1 hg'
    rw [List.map_cons, List.sum_cons, List.map_cons, List.sum_cons, ← Nat.add_assoc, ← Nat.add_assoc]
    exact ⟨h1, h2.trans hstep.2⟩

theorem find_last {l : List Conn} (h : (l.map (·.addr)).Nodup) {c : Conn} (hc : c ∈ l) :
    (l.map fun c => (c.addr, c.down, c.up)).find? (fun e => e.1 = c.addr) = some (c.addr, c.down, c.up) := by
  induction l with
  | nil => cases hc
  | cons x l ih =>
    rw [List.map_cons, List.nodup_cons] at h
    rw [List.map_cons]
    rcases List.mem_cons.1 hc with rfl | hm
    · rw [List.find?_cons_of_pos (by simp)]
    · have : x.addr ≠ c.addr := fun e => h.1 (e ▸ List.mem_map.2 ⟨c, hm, rfl⟩)
      rw [List.find?_cons_of_neg (by simpa using this)]
      exact ih h.2 hm

end MeasuresProof
open MeasuresProof

/-- From a start on, the speeds of the torrent shown each second are the bytes counted in that second, in 32 bits, one for each measure.
Missing for the full property: seconds of 2^32 bytes (`C104_wrap_violated`) and starting a torrent that is running (`C104_start_violated`). -/
theorem C104_torrent_partial (s : St) (es : List Ev) (hg : ∀ e ∈ es, goesOn e) :
    (run (start s) es).2.map (·.1) = (perSecond gains 0 es).map (· % 4294967296) ∧
    (run (start s) es).2.map (·.2) = (perSecond gifts 0 es).map (· % 4294967296) := by
  have h1 := run_down es (start s) (Nat.le_refl _) hg
  have h2 := run_up es (start s) (Nat.le_refl _) hg
  simp only [start, Nat.sub_self] at h1 h2
  exact ⟨h1, h2⟩

/-- Without such seconds they are exact. -/
theorem C104_exact_partial (s : St) (es : List Ev) (hg : ∀ e ∈ es, goesOn e) (hd : ∀ n ∈ perSecond gains 0 es, n < 4294967296)
    (hu : ∀ n ∈ perSecond gifts 0 es, n < 4294967296) :
    (run (start s) es).2.map (·.1) = perSecond gains 0 es ∧ (run (start s) es).2.map (·.2) = perSecond gifts 0 es := by
  obtain ⟨h1, h2⟩ := C104_torrent_partial s es hg
  rw [h1, h2]
  constructor
  · exact (List.map_congr_left fun n hn => Nat.mod_eq_of_lt (hd n hn)).trans (List.map_id' _)
  · exact (List.map_congr_left fun n hn => Nat.mod_eq_of_lt (hu n hn)).trans (List.map_id' _)

example : (run (start { down := 7 }) [.gained 5, .measure, .measure, .opened 1, .gained 2, .gained 3, .given 9, .measure]).2 =
    [(5, 0), (0, 0), (5, 9)] ∧ perSecond gains 0 [.gained 5, .measure, .measure, .opened 1, .gained 2, .gained 3, .given 9, .measure] = [5, 0, 5] := by
  decide

/-- After any history: a connection that was there at a measure and stays until the next is then shown with the bytes it received and was sent in
between, in 32 bits.
Missing for the full property: the first second of a connection (`C104_first_violated`), and one at the address of a former one
(`C104_reused_violated`). -/
theorem C104_peer_partial (es1 es2 : List Ev) (a : Nat) (hin : ∃ c ∈ (run {} es1).1.conns, c.addr = a) (hs : ∀ e ∈ es2, stays a e) :
    ∃ c ∈ (run {} (es1 ++ .measure :: es2 ++ [.measure])).1.conns, c.addr = a ∧ c.downSpeed = (es2.map (gotFrom a)).sum % 4294967296 ∧
      c.upSpeed = (es2.map (sentTo a)).sum % 4294967296 := by
  have happ : ∀ (x y : List Ev) (s : St), (run s (x ++ y)).1 = (run (run s x).1 y).1 := by
    intro x
    induction x with
    | nil => intro y s; rfl
    | cons e x ih => intro y s; exact ih y (step s e)
  have hsing := run_single es1 {} List.nodup_nil
  obtain ⟨c, c1, c2⟩ := hin
  generalize hS : (run {} es1).1 = S at c1 hsing
  have hat : At (measureAll S) a c.down c.up :=
    ⟨measureConn S.last c, List.mem_map.2 ⟨c, c1, rfl⟩, (measureConn_addr _ c).1.trans c2, (measureConn_addr _ c).2.1, (measureConn_addr _ c).2.2⟩
  obtain ⟨⟨x, x1, x2, x3, x4⟩, h2⟩ := stays_at es2 a (measureAll S) _ _ hat hs
  have hrun : (run {} (es1 ++ .measure :: es2 ++ [.measure])).1 = measureAll (run (measureAll S) es2).1 := by
    rw [List.append_assoc, happ, hS, List.cons_append]
    show (run (measureAll S) (es2 ++ [.measure])).1 = _
    rw [happ]
    rfl
  rw [hrun]
  have hfind : (measureAll S).last.find? (fun e => e.1 = x.addr) = some (c.addr, c.down, c.up) := by
    rw [x2, ← c2]
    exact find_last hsing c1
  refine ⟨_, List.mem_map.2 ⟨x, x1, rfl⟩, (measureConn_addr _ x).1.trans x2, ?_, ?_⟩
  · unfold measureConn
    rw [h2, hfind]
    simp only [x3, since_eq (Nat.le_add_right _ _), Nat.add_sub_cancel_left]
  · unfold measureConn
    rw [h2, hfind]
    simp only [x4, since_eq (Nat.le_add_right _ _), Nat.add_sub_cancel_left]

example : ((run {} ([.opened 4, .received 4 10] ++ .measure :: [.received 4 3, .opened 5, .sent 4 2, .received 5 8] ++ [.measure])).1.conns.map
    fun c => (c.addr, c.downSpeed, c.upSpeed)) = [(4, 3, 2), (5, 0, 0)] := by decide

/-- A stopped torrent shows no speed. -/
theorem C104_stopped (s : St) (es : List Ev) : (run s (es ++ [.stop])).1.downSpeed = 0 ∧ (run s (es ++ [.stop])).1.upSpeed = 0 ∧
    (run s (es ++ [.stop])).1.conns = [] := by
  have happ : ∀ (x : List Ev) (s : St), (run s (x ++ [.stop])).1 = stop (run s x).1 := by
    intro x
    induction x with
    | nil => intro s; rfl
    | cons e x ih => intro s; exact ih (step s e)
  rw [happ]
  exact ⟨rfl, rfl, rfl⟩

example : (run {} [.gained 5, .measure]).1.downSpeed = 5 ∧ (run {} ([.gained 5, .measure] ++ [.stop])).1.downSpeed = 0 := by decide

/-- Connections made after a stop are not measured against those of before: until the second measure they show no speed, wherever they are in memory. -/
theorem C104_restart_partial (s : St) (es1 es2 : List Ev) (hm : ∀ e ∈ es2, e ≠ .measure) :
    ∀ c ∈ (run s (es1 ++ .stop :: es2 ++ [.measure])).1.conns, c.downSpeed = 0 ∧ c.upSpeed = 0 := by
  have happ : ∀ (x y : List Ev) (s : St), (run s (x ++ y)).1 = (run (run s x).1 y).1 := by
    intro x
    induction x with
    | nil => intro y s; rfl
    | cons e x ih => intro y s; exact ih y (step s e)
  have hlast : ∀ (es : List Ev) (s : St), s.last = [] → (∀ e ∈ es, e ≠ .measure) → (run s es).1.last = [] := by
    intro es
    induction es with
    | nil => intro s h _; exact h
    | cons e es ih =>
      intro s h hm
      refine ih (step s e) ?_ fun x hx => hm x (List.mem_cons_of_mem e hx)
      cases e with
      | opened a => simp only [step]; split <;> exact h
      | measure => exact absurd rfl (hm _ List.mem_cons_self)
      | stop => rfl
      | closed a => exact h
      | received a n => exact h
      | sent a n => exact h
      | gained n => exact h
      | given n => exact h
      | start => exact h
  rw [List.append_assoc, happ, List.cons_append]
  show ∀ c ∈ (run (stop (run s es1).1) (es2 ++ [.measure])).1.conns, _
  rw [happ]
  have hl := hlast es2 (stop (run s es1).1) rfl hm
  intro c hc
  obtain ⟨x, _, rfl⟩ := List.mem_map.1 hc
  unfold measureConn
  rw [hl]
  exact ⟨rfl, rfl⟩

example : (run {} ([.opened 1, .received 1 100, .measure] ++ .stop :: [.start, .opened 1, .received 1 150] ++ [.measure])).1.conns.map
    (fun c => (c.addr, c.down, c.downSpeed)) = [(1, 150, 0)] := by decide

/-- **Violated**: what a connection receives before it is first measured is never shown as its speed; the torrent shows it. -/
theorem C104_first_violated :
    let r := run {} [.start, .opened 1, .received 1 1000, .gained 1000, .measure]
    r.1.conns.map (·.downSpeed) = [0] ∧ r.1.downSpeed = 1000 ∧
    (run r.1 [.measure]).1.conns.map (·.downSpeed) = [0] := by decide

/-- **Violated**: a new connection at the address of one closed in the same second is measured against the bytes of the former. -/
theorem C104_reused_violated :
    (run {} [.start, .opened 1, .received 1 100, .measure, .closed 1, .opened 1, .received 1 150, .measure]).1.conns.map (·.downSpeed) = [50] := by decide

/-- **Violated**: starting a torrent that is running hides the bytes of that second. -/
theorem C104_start_violated : (run {} [.start, .gained 70000, .start, .measure]).2 = [(0, 0)] := by decide

/-- **Violated**: a second of 2^32 bytes is shown as none. -/
theorem C104_wrap_violated : (run {} [.start, .gained 4294967296, .measure]).2 = [(0, 0)] := by decide

end Verif
