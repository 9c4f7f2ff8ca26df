import Verif.Proof.Trackers
/-! Lemmas for C66: what is under way for each tracker, in orderly histories. -/

namespace Verif.Trackers
open Verif Spec

/-- The invariant; for the tracker at the place `x` nothing is under way. -/
structure Inv (ssl : Bool) (s : State) (x : Option Nat) : Prop where
  commLt : ∀ (k : Nat) t c, s.trackers[k]? = some t → t.comm = some c → c < s.comms
  distinct : ∀ (i j : Nat) t u c, s.trackers[i]? = some t → s.trackers[j]? = some u → t.comm = some c → u.comm = some c → i = j
  both : ∀ (k : Nat) t, s.trackers[k]? = some t → (t.comm = none ↔ t.timer = none)
  ptr : ∀ (k : Nat) t y, s.trackers[k]? = some t → t.timer = some y → y.ptr = ⟨s.mem, k⟩
  armed : ∀ a ∈ s.armed, ∃ t, s.trackers[a.1.ptr.idx]? = some t ∧ t.timer = some a.1
  known : ∀ c ∈ s.announcing, ∃ (k : Nat) (t : Info), s.trackers[k]? = some t ∧ t.comm = some c
  old : (∀ c i, Task.announced c i ∈ s.tasks → c < s.comms) ∧ (∀ c, Task.failed c ∈ s.tasks → c < s.comms)
  restart : ∀ p, Task.restart p ∈ s.tasks → p.mem = s.mem ∧ ∃ t c, s.trackers[p.idx]? = some t ∧ t.comm = some c ∧ supported ssl t.uri.protocol = true
  tokens : ∀ (k : Nat) t c, s.trackers[k]? = some t → t.comm = some c → underWay s k c = if x = some k then 0 else 1

variable {ssl : Bool}

theorem underWay_zero {s : State} {k c : Nat} (h : underWay s k c = 0) :
    c ∉ s.announcing ∧ (∀ t ∈ s.tasks, concerns ⟨s.mem, k⟩ c t = false) ∧ ∀ a ∈ s.armed, a.1.ptr ≠ ⟨s.mem, k⟩ := by
  unfold underWay at h
  refine ⟨?_, ?_, ?_⟩
  · exact List.count_eq_zero.mp (by omega)
  · have h2 : s.tasks.countP (concerns ⟨s.mem, k⟩ c) = 0 := by omega
    intro t ht
    simpa using List.countP_eq_zero.mp h2 t ht
  · have h3 : s.armed.countP (fun a => a.1.ptr == ⟨s.mem, k⟩) = 0 := by omega
    intro a ha
    simpa using List.countP_eq_zero.mp h3 a ha

/-- Nothing is under way for the place `k`. -/
def Quiet (s : State) (k : Nat) : Prop :=
  Task.restart ⟨s.mem, k⟩ ∉ s.tasks ∧ (∀ a ∈ s.armed, a.1.ptr ≠ ⟨s.mem, k⟩) ∧ ∀ t c, s.trackers[k]? = some t → t.comm = some c → c ∉ s.announcing

theorem Inv.quiet_hole {s : State} {k c : Nat} {t : Info} (h : Inv ssl s (some k)) (e : s.trackers[k]? = some t) (ec : t.comm = some c) : Quiet s k := by
  have h0 := h.tokens k t c e ec
  rw [if_pos rfl] at h0
  obtain ⟨h1, h2, h3⟩ := underWay_zero h0
  refine ⟨fun hr => ?_, h3, fun t' c' e' ec' => ?_⟩
  · have := h2 _ hr
    simp [concerns] at this
  · rw [e] at e'; cases e'; rw [ec] at ec'; cases ec'; exact h1

theorem Inv.quiet_none {s : State} {k : Nat} {t : Info} {x : Option Nat} (h : Inv ssl s x) (e : s.trackers[k]? = some t) (ec : t.comm = none) : Quiet s k := by
  refine ⟨fun hr => ?_, fun a ha hp => ?_, fun t' c' e' ec' => ?_⟩
  · obtain ⟨_, t', c', e', ec', _⟩ := h.restart _ hr
    rw [e] at e'; cases e'; rw [ec] at ec'; cases ec'
  · obtain ⟨t', e1, e2⟩ := h.armed a ha
    rw [hp] at e1
    rw [e] at e1; cases e1
    rw [(h.both k t e).mp ec] at e2; cases e2
  · rw [e] at e'; cases e'; rw [ec] at ec'; cases ec'

theorem get_set {l : List Info} {k j : Nat} {t t' : Info} (e : l[k]? = some t) : (l.set k t')[j]? = if j = k then some t' else l[j]? := by
  obtain ⟨hk, _⟩ := List.getElem?_eq_some_iff.mp e
  by_cases h : j = k
  · subst h; simp [hk]
  · rw [if_neg h, List.getElem?_set_ne (Ne.symm h)]

/-- A tracker about which nothing is under way gets a new object, which announces. -/
theorem Inv.begin {s : State} {k : Nat} {t t' : Info} {x : Option Nat} (h : Inv ssl s x) (hx : x = none ∨ x = some k) (q : Quiet s k) (e : s.trackers[k]? = some t)
    (hc : t'.comm = some s.comms) (ht : t'.timer = some ⟨s.timers, ⟨s.mem, k⟩⟩) :
    Inv ssl { s with trackers := s.trackers.set k t', comms := s.comms + 1, timers := s.timers + 1, announcing := s.announcing ++ [s.comms] } none := by
  obtain ⟨q1, q2, q3⟩ := q
  have hlt : ∀ c ∈ s.announcing, c < s.comms := by
    intro c hc'
    obtain ⟨j, u, e1, e2⟩ := h.known c hc'
    exact h.commLt j u c e1 e2
  constructor
  · intro j u c e1 e2
    simp only [get_set e] at e1
    show c < s.comms + 1
    split at e1
    · cases e1; rw [hc] at e2; cases e2; omega
    · have := h.commLt j u c e1 e2; omega
  · intro i j u v c e1 e2 e3 e4
    simp only [get_set e] at e1 e2
    split at e1 <;> split at e2
    · next h1 h2 => rw [h1, h2]
    · cases e1; rw [hc] at e3; cases e3
      have := h.commLt j v _ e2 e4; omega
    · cases e2; rw [hc] at e4; cases e4
      have := h.commLt i u _ e1 e3; omega
    · exact h.distinct i j u v c e1 e2 e3 e4
  · intro j u e1
    simp only [get_set e] at e1
    split at e1
    · cases e1; simp [hc, ht]
    · exact h.both j u e1
  · intro j u y e1 e2
    simp only [get_set e] at e1
    split at e1
    · next hj => cases e1; rw [ht] at e2; cases e2; rw [hj]
    · exact h.ptr j u y e1 e2
  · intro a ha
    obtain ⟨u, e1, e2⟩ := h.armed a ha
    refine ⟨u, ?_, e2⟩
    simp only [get_set e]
    rw [if_neg]
    · exact e1
    · intro hk
      refine q2 a ha ?_
      have := h.ptr _ _ _ e1 e2
      rw [hk] at this
      exact this
  · intro c hc'
    rcases List.mem_append.mp hc' with hm | hm
    · obtain ⟨j, u, e1, e2⟩ := h.known c hm
      refine ⟨j, u, ?_, e2⟩
      simp only [get_set e]
      rw [if_neg]
      · exact e1
      · intro hk; subst hk; exact q3 u c e1 e2 hm
    · rw [List.mem_singleton.mp hm]
      exact ⟨k, t', by simp only [get_set e]; simp, hc⟩
  · exact ⟨fun c i hi => Nat.lt_succ_of_lt (h.old.1 c i hi), fun c hi => Nat.lt_succ_of_lt (h.old.2 c hi)⟩
  · intro p hp
    obtain ⟨e0, u, c, e1, e2, e3⟩ := h.restart p hp
    refine ⟨e0, u, c, ?_, e2, e3⟩
    simp only [get_set e]
    rw [if_neg]
    · exact e1
    · intro hk; refine q1 ?_
      have : p = ⟨s.mem, k⟩ := by cases p; simp_all
      rw [← this]; exact hp
  · intro j u c e1 e2
    rw [if_neg (by simp)]
    simp only [get_set e] at e1
    split at e1
    · next hj =>
      subst hj
      cases e1; rw [hc] at e2; cases e2
      unfold underWay
      simp only
      have h1 : s.announcing.count s.comms = 0 := List.count_eq_zero.mpr (fun hm => Nat.lt_irrefl _ (hlt _ hm))
      have h2 : s.tasks.countP (concerns ⟨s.mem, j⟩ s.comms) = 0 := by
        rw [List.countP_eq_zero]
        intro z hz
        cases z with
        | startAll => simp [concerns]
        | announced c i => have := h.old.1 c i hz; simp [concerns]; omega
        | failed c => have := h.old.2 c hz; simp [concerns]; omega
        | restart p =>
          simp only [concerns, beq_iff_eq]
          intro hp; rw [hp] at hz; exact q1 hz
      have h3 : s.armed.countP (fun a => a.1.ptr == ⟨s.mem, j⟩) = 0 := by
        rw [List.countP_eq_zero]
        intro z hz
        simpa using q2 z hz
      rw [List.count_append, h1, h2, h3]; simp
    · next hj =>
      have h1 := h.tokens j u c e1 e2
      rw [if_neg (by rcases hx with rfl | rfl <;> simp [Ne.symm hj])] at h1
      rw [← h1]
      unfold underWay
      simp only
      rw [List.count_append, show List.count c [s.comms] = 0 from List.count_eq_zero.mpr (by have := h.commLt j u c e1 e2; simp; omega)]
      omega

theorem dropComm_quiet {s : State} {k : Nat} {t : Info} (q : Quiet s k) (e : s.trackers[k]? = some t) : dropComm s.announcing t.comm = s.announcing := by
  unfold dropComm
  split
  · rfl
  · next c ec =>
    rw [List.filter_eq_self]
    intro a ha
    have := q.2.2 t c e ec
    simp only [bne_iff_ne]
    intro hx; rw [hx] at ha; exact this ha

/-- Starting one tracker. -/
theorem startTracker_inv {s : State} {k : Nat} {t : Info} {x : Option Nat} (h : Inv ssl s x) (hx : x = none ∨ x = some k) (q : Quiet s k) (e : s.trackers[k]? = some t)
    (hs : supported ssl t.uri.protocol = true) :
    ∃ s' t', startTracker ssl s ⟨s.mem, k⟩ = .ok s' ∧ Inv ssl s' none ∧ s'.trackers = s.trackers.set k t' ∧ t'.comm.isSome = true ∧ t'.uri = t.uri ∧
      s'.tasks = s.tasks ∧ s'.callback = s.callback ∧ s'.mem = s.mem := by
  obtain ⟨hk, ek⟩ := List.getElem?_eq_some_iff.mp e
  unfold startTracker
  rw [if_neg (by simp), rd_eq_ok hk, ek]
  simp only [Res.bind_ok, hs, if_true, dropComm_quiet q e]
  exact ⟨_, _, rfl, h.begin hx q e rfl rfl, rfl, rfl, rfl, rfl, rfl, rfl⟩

/-- A step that takes away one thing under way for a tracker and adds another. -/
theorem Inv.move {s : State} {x : Option Nat} (h : Inv ssl s x) {ann : List Nat} {tasks : List Task} {armed : List (Timer × Nat)} {y : Option Nat}
    (h1 : ∀ a ∈ armed, ∃ t, s.trackers[a.1.ptr.idx]? = some t ∧ t.timer = some a.1)
    (h2 : ∀ c ∈ ann, ∃ (k : Nat) (t : Info), s.trackers[k]? = some t ∧ t.comm = some c)
    (h3 : (∀ c i, Task.announced c i ∈ tasks → c < s.comms) ∧ (∀ c, Task.failed c ∈ tasks → c < s.comms))
    (h4 : ∀ p, Task.restart p ∈ tasks → p.mem = s.mem ∧ ∃ t c, s.trackers[p.idx]? = some t ∧ t.comm = some c ∧ supported ssl t.uri.protocol = true)
    (h5 : ∀ (k : Nat) t c, s.trackers[k]? = some t → t.comm = some c →
      ann.count c + tasks.countP (concerns ⟨s.mem, k⟩ c) + armed.countP (fun a => a.1.ptr == ⟨s.mem, k⟩) = if y = some k then 0 else 1) :
    Inv ssl { s with announcing := ann, tasks := tasks, armed := armed } y :=
  ⟨h.commLt, h.distinct, h.both, h.ptr, h1, h2, h3, h4, h5⟩

/-- Changes of a tracker that matter for nothing here. -/
theorem Inv.change {s : State} {x : Option Nat} (h : Inv ssl s x) {k : Nat} {t t' : Info} (e : s.trackers[k]? = some t) (hc : t'.comm = t.comm) (ht : t'.timer = t.timer)
    (hs : supported ssl t.uri.protocol = true → supported ssl t'.uri.protocol = true) : Inv ssl { s with trackers := s.trackers.set k t' } x := by
  have key : ∀ (j : Nat) u, (s.trackers.set k t')[j]? = some u → ∃ v, s.trackers[j]? = some v ∧ u.comm = v.comm ∧ u.timer = v.timer := by
    intro j u hu
    rw [get_set e] at hu
    split at hu
    · next hj => cases hu; subst hj; exact ⟨t, e, hc, ht⟩
    · exact ⟨u, hu, rfl, rfl⟩
  have key' : ∀ (j : Nat) v, s.trackers[j]? = some v → ∃ u, (s.trackers.set k t')[j]? = some u ∧ u.comm = v.comm ∧ u.timer = v.timer ∧ (supported ssl v.uri.protocol = true → supported ssl u.uri.protocol = true) := by
    intro j v hv
    rw [get_set e]
    split
    · next hj => subst hj; rw [e] at hv; cases hv; exact ⟨t', rfl, hc, ht, hs⟩
    · exact ⟨v, hv, rfl, rfl, id⟩
  constructor
  · intro j u c e1 e2
    obtain ⟨v, f1, f2, _⟩ := key j u e1
    exact h.commLt j v c f1 (f2 ▸ e2)
  · intro i j u v c e1 e2 e3 e4
    obtain ⟨u', f1, f2, _⟩ := key i u e1
    obtain ⟨v', g1, g2, _⟩ := key j v e2
    exact h.distinct i j u' v' c f1 g1 (f2 ▸ e3) (g2 ▸ e4)
  · intro j u e1
    obtain ⟨v, f1, f2, f3⟩ := key j u e1
    rw [f2, f3]; exact h.both j v f1
  · intro j u y e1 e2
    obtain ⟨v, f1, f2, f3⟩ := key j u e1
    exact h.ptr j v y f1 (f3 ▸ e2)
  · intro a ha
    obtain ⟨v, f1, f2⟩ := h.armed a ha
    obtain ⟨u, g1, g2, g3, _⟩ := key' _ v f1
    exact ⟨u, g1, g3.trans f2⟩
  · intro c hc'
    obtain ⟨j, v, f1, f2⟩ := h.known c hc'
    obtain ⟨u, g1, g2, g3, _⟩ := key' _ v f1
    exact ⟨j, u, g1, g2.trans f2⟩
  · exact h.old
  · intro p hp
    obtain ⟨e0, v, c, f1, f2, f3⟩ := h.restart p hp
    obtain ⟨u, g1, g2, g3, g4⟩ := key' _ v f1
    exact ⟨e0, u, c, g1, g2.trans f2, g4 f3⟩
  · intro j u c e1 e2
    obtain ⟨v, f1, f2, _⟩ := key j u e1
    exact h.tokens j v c f1 (f2 ▸ e2)


/-! ### The whole invariant -/

structure Good (ssl : Bool) (s : State) : Prop where
  inv : Inv ssl s none
  off : s.callback = false → (∀ t ∈ s.trackers, t.comm = none) ∧ ¬ Starting s
  begun : Task.startAll ∈ s.tasks → s.callback = true ∧ (∀ t ∈ s.trackers, t.comm = none) ∧ s.tasks.count .startAll = 1
  on : s.callback = true → Task.startAll ∉ s.tasks → ∀ t ∈ s.trackers, supported ssl t.uri.protocol = true → t.comm ≠ none

theorem good_init : Good ssl {} := by
  refine ⟨⟨?_, ?_, ?_, ?_, ?_, ?_, ?_, ?_, ?_⟩, ?_, ?_, ?_⟩ <;> simp [Starting]

/-- What is under way with a posted task, or an announce, taken away. -/
theorem count_erase {α} [BEq α] [LawfulBEq α] {l : List α} {a : α} (h : a ∈ l) (p : α → Bool) : (l.erase a).countP p + (if p a then 1 else 0) = l.countP p := by
  have := List.perm_cons_erase h
  rw [this.countP_eq, List.countP_cons]

/-- A task is taken out to be run: the tracker it concerns has nothing else under way. -/
theorem Good.take {s : State} (h : Good ssl s) {t : Task} (ht : t ∈ s.tasks) {k c : Nat} {u : Info} (e : s.trackers[k]? = some u) (ec : u.comm = some c)
    (hc : concerns ⟨s.mem, k⟩ c t = true) : Inv ssl { s with tasks := s.tasks.erase t } (some k) := by
  have hmem : ∀ z, z ∈ s.tasks.erase t → z ∈ s.tasks := fun z hz => List.mem_of_mem_erase hz
  refine h.inv.move h.inv.armed h.inv.known ⟨fun c i hi => h.inv.old.1 c i (hmem _ hi), fun c hi => h.inv.old.2 c (hmem _ hi)⟩ (fun p hp => h.inv.restart p (hmem _ hp)) ?_
  intro j v d e1 e2
  have h1 := h.inv.tokens j v d e1 e2
  rw [if_neg (by simp)] at h1
  unfold underWay at h1
  have h2 := count_erase ht (concerns ⟨s.mem, j⟩ d)
  by_cases hj : k = j
  · subst hj
    rw [e] at e1; cases e1; rw [ec] at e2; cases e2
    rw [hc, if_pos rfl] at h2
    rw [if_pos rfl]
    omega
  · rw [if_neg (by simp [hj])]
    have hno : concerns ⟨s.mem, j⟩ d t = false := by
      cases t with
      | startAll => rfl
      | announced c' i =>
        simp only [concerns, beq_iff_eq] at hc ⊢
        subst hc
        simp only [beq_eq_false_iff_ne]
        intro hd; subst hd
        exact hj (h.inv.distinct _ _ _ _ _ e e1 ec e2)
      | failed c' =>
        simp only [concerns, beq_iff_eq] at hc ⊢
        subst hc
        simp only [beq_eq_false_iff_ne]
        intro hd; subst hd
        exact hj (h.inv.distinct _ _ _ _ _ e e1 ec e2)
      | restart p =>
        simp only [concerns, beq_iff_eq] at hc ⊢
        subst hc
        simp [hj]
    rw [hno] at h2
    simp only [Bool.false_eq_true, if_false] at h2
    omega

/-- A task that concerns no tracker is taken out. -/
theorem Good.take_stale {s : State} (h : Good ssl s) {t : Task} (ht : t ∈ s.tasks) (hc : ∀ (k : Nat) u c, s.trackers[k]? = some u → u.comm = some c → concerns ⟨s.mem, k⟩ c t = false) :
    Inv ssl { s with tasks := s.tasks.erase t } none := by
  have hmem : ∀ z, z ∈ s.tasks.erase t → z ∈ s.tasks := fun z hz => List.mem_of_mem_erase hz
  refine h.inv.move h.inv.armed h.inv.known ⟨fun c i hi => h.inv.old.1 c i (hmem _ hi), fun c hi => h.inv.old.2 c (hmem _ hi)⟩ (fun p hp => h.inv.restart p (hmem _ hp)) ?_
  intro j v d e1 e2
  have h1 := h.inv.tokens j v d e1 e2
  rw [if_neg (by simp)] at h1 ⊢
  unfold underWay at h1
  have h2 := count_erase ht (concerns ⟨s.mem, j⟩ d)
  rw [hc j v d e1 e2] at h2
  simp only [Bool.false_eq_true, if_false] at h2
  omega

theorem findComm_some {ts : List Info} {c k : Nat} (h : findComm ts c = some k) : ∃ t, ts[k]? = some t ∧ t.comm = some c := by
  unfold findComm at h
  obtain ⟨hk, h1, _⟩ := List.findIdx?_eq_some_iff_getElem.mp h
  exact ⟨ts[k], by simp [hk], by simpa using h1⟩

theorem findComm_none {ts : List Info} {c : Nat} (h : findComm ts c = none) : ∀ t ∈ ts, t.comm ≠ some c := by
  unfold findComm at h
  rw [List.findIdx?_eq_none_iff] at h
  intro t ht
  simpa using h t ht

/-- The timer of a tracker without anything under way is started. -/
theorem Inv.arm {s : State} {k c : Nat} {t : Info} {y : Timer} (h : Inv ssl s (some k)) (e : s.trackers[k]? = some t) (ec : t.comm = some c) (et : t.timer = some y) (n : Nat) :
    Inv ssl { s with armed := schedule s.armed y n } none := by
  have q := h.quiet_hole e ec
  have hp := h.ptr k t y e et
  have hf : s.armed.filter (fun a => a.1 != y) = s.armed := by
    rw [List.filter_eq_self]
    intro a ha
    simp only [bne_iff_ne]
    intro hx
    exact q.2.1 a ha (by rw [hx]; exact hp)
  unfold schedule
  rw [hf]
  refine h.move ?_ h.known h.old h.restart ?_
  · intro a ha
    rcases List.mem_append.mp ha with ha | ha
    · exact h.armed a ha
    · rw [List.mem_singleton.mp ha]
      exact ⟨t, by simp only; rw [hp]; exact e, et⟩
  · intro j v d e1 e2
    have h1 := h.tokens j v d e1 e2
    unfold underWay at h1
    rw [if_neg (by simp)]
    rw [List.countP_append]
    by_cases hj : k = j
    · subst hj
      rw [if_pos rfl] at h1
      simp [hp]
      omega
    · rw [if_neg (by simp [hj])] at h1
      simp [hp, hj]
      omega

theorem supported_udp : supported ssl (ascii "udp") = true := by cases ssl <;> decide
theorem supported_http : supported ssl (ascii "http") = true := by cases ssl <;> decide

/-- The parts of `Good` that steps of running trackers keep. -/
theorem Good.keep {s s' : State} (h : Good ssl s) (hinv : Inv ssl s' none) (hcb : s'.callback = s.callback) (hon : s.callback = true)
    (hst : Task.startAll ∈ s'.tasks → Task.startAll ∈ s.tasks) (hst' : Task.startAll ∈ s.tasks → Task.startAll ∉ s'.tasks → False)
    (hrun : Task.startAll ∉ s.tasks)
    (hcomm : ∀ t' ∈ s'.trackers, supported ssl t'.uri.protocol = true → t'.comm = none → ∃ t ∈ s.trackers, supported ssl t.uri.protocol = true ∧ t.comm = none) : Good ssl s' := by
  refine ⟨hinv, ?_, ?_, ?_⟩
  · intro hf; rw [hcb, hon] at hf; cases hf
  · intro hs; exact absurd (hst hs) hrun
  · intro _ _ t ht hsup hn
    obtain ⟨u, hu, h1, h2⟩ := hcomm t ht hsup hn
    exact h.on hon hrun u hu h1 h2

/-- Nothing runs. -/
theorem clean_inv {s : State} (h1 : ∀ t ∈ s.trackers, t.comm = none ∧ t.timer = none) (h2 : s.armed = []) (h3 : s.announcing = [])
    (h4 : (∀ c i, Task.announced c i ∈ s.tasks → c < s.comms) ∧ (∀ c, Task.failed c ∈ s.tasks → c < s.comms)) (h5 : ∀ p, Task.restart p ∉ s.tasks) : Inv ssl s none := by
  have hn : ∀ (k : Nat) t c, s.trackers[k]? = some t → t.comm = some c → False := by
    intro k t c e1 e2
    rw [(h1 t (List.mem_of_getElem? e1)).1] at e2; cases e2
  refine ⟨fun k t c e1 e2 => (hn k t c e1 e2).elim, fun i j t u c e1 e2 e3 e4 => (hn i t c e1 e3).elim, ?_, ?_, ?_, ?_, h4, fun p hp => absurd hp (h5 p),
    fun k t c e1 e2 => (hn k t c e1 e2).elim⟩
  · intro k t e
    obtain ⟨a, b⟩ := h1 t (List.mem_of_getElem? e)
    simp [a, b]
  · intro k t y e1 e2
    rw [(h1 t (List.mem_of_getElem? e1)).2] at e2; cases e2
  · rw [h2]; intro a ha; cases ha
  · rw [h3]; intro a ha; cases ha

theorem Inv.clean {s : State} {x : Option Nat} (h : Inv ssl s x) (hc : ∀ t ∈ s.trackers, t.comm = none) :
    (∀ t ∈ s.trackers, t.comm = none ∧ t.timer = none) ∧ s.armed = [] ∧ s.announcing = [] ∧ ∀ p, Task.restart p ∉ s.tasks := by
  have h1 : ∀ t ∈ s.trackers, t.comm = none ∧ t.timer = none := by
    intro t ht
    obtain ⟨k, e⟩ := List.getElem?_of_mem ht
    exact ⟨hc t ht, (h.both k t e).mp (hc t ht)⟩
  refine ⟨h1, ?_, ?_, ?_⟩
  · rw [List.eq_nil_iff_forall_not_mem]
    intro a ha
    obtain ⟨t, e1, e2⟩ := h.armed a ha
    rw [(h1 t (List.mem_of_getElem? e1)).2] at e2; cases e2
  · rw [List.eq_nil_iff_forall_not_mem]
    intro a ha
    obtain ⟨k, t, e1, e2⟩ := h.known a ha
    rw [(h1 t (List.mem_of_getElem? e1)).1] at e2; cases e2
  · intro p hp
    obtain ⟨_, t, c, e1, e2, _⟩ := h.restart p hp
    rw [(h1 t (List.mem_of_getElem? e1)).1] at e2; cases e2

theorem addTracker_comm {ts : List Info} (h : ∀ t ∈ ts, t.comm = none ∧ t.timer = none) (a : List UInt8) : ∀ t ∈ (addTracker ts a).1, t.comm = none ∧ t.timer = none := by
  have H := added ts a
  generalize addTracker ts a = r at H ⊢
  cases H with
  | fresh =>
    intro t ht
    rcases List.mem_append.mp ht with ht | ht
    · exact h t ht
    · rw [List.mem_singleton.mp ht]; exact ⟨rfl, rfl⟩
  | merged k i h1 h2 =>
    intro t ht
    rcases List.mem_or_eq_of_mem_set ht with ht | rfl
    · exact h t ht
    · exact h i (List.mem_of_getElem? h2)
  | «exists» => exact h
  | invalid => exact h

theorem add_good {s : State} (h : Good ssl s) (hf : s.callback = false) (ts : List Info) (m c : Nat) (hts : ∀ t ∈ ts, t.comm = none ∧ t.timer = none) :
    Good ssl { s with trackers := ts, mem := m, cap := c } := by
  obtain ⟨hc, hns⟩ := h.off hf
  obtain ⟨h1, h2, h3, h4⟩ := h.inv.clean hc
  refine ⟨clean_inv hts h2 h3 h.inv.old h4, fun _ => ⟨fun t ht => (hts t ht).1, hns⟩, fun hs => absurd (.inl hs) hns, ?_⟩
  intro hx
  rw [hf] at hx; cases hx

theorem stopTrackers_spec (ts : List Info) : ∀ s : State, (stopTrackers ts s).1.trackers = s.trackers ∧ (stopTrackers ts s).1.tasks = s.tasks ∧ (stopTrackers ts s).1.comms = s.comms ∧
    (∀ a ∈ (stopTrackers ts s).1.armed, a ∈ s.armed ∧ ∀ t ∈ ts, t.timer ≠ some a.1) ∧ (∀ c ∈ (stopTrackers ts s).1.announcing, c ∈ s.announcing ∧ ∀ t ∈ ts, t.comm ≠ some c) ∧
    ∀ t ∈ (stopTrackers ts s).2, t.comm = none ∧ t.timer = none := by
  induction ts with
  | nil => intro s; simp [stopTrackers]
  | cons t ts ih =>
    intro s
    simp only [stopTrackers]
    obtain ⟨h1, h2, h3, h4, h5, h6⟩ := ih (stopTracker s t).1
    refine ⟨?_, ?_, ?_, ?_, ?_, ?_⟩
    · rw [h1]; unfold stopTracker; cases t.timer <;> rfl
    · rw [h2]; unfold stopTracker; cases t.timer <;> rfl
    · rw [h3]; unfold stopTracker; cases t.timer <;> rfl
    · intro a ha
      obtain ⟨i1, i2⟩ := h4 a ha
      have : a ∈ s.armed ∧ t.timer ≠ some a.1 := by
        unfold stopTracker at i1
        cases e : t.timer with
        | none => rw [e] at i1; exact ⟨i1, by simp⟩
        | some y =>
          rw [e] at i1
          obtain ⟨j1, j2⟩ := List.mem_filter.mp i1
          exact ⟨j1, by simp only [bne_iff_ne, ne_eq] at j2; intro hx; cases hx; exact j2 rfl⟩
      exact ⟨this.1, fun u hu => by rcases List.mem_cons.mp hu with rfl | hu; exact this.2; exact i2 u hu⟩
    · intro c hc
      obtain ⟨i1, i2⟩ := h5 c hc
      have hann : (stopTracker s t).1.announcing = dropComm s.announcing t.comm := by unfold stopTracker; cases t.timer <;> rfl
      rw [hann] at i1
      have : c ∈ s.announcing ∧ t.comm ≠ some c := by
        unfold dropComm at i1
        split at i1
        · next e => exact ⟨i1, by rw [e]; simp⟩
        · next d e =>
          obtain ⟨j1, j2⟩ := List.mem_filter.mp i1
          exact ⟨j1, by rw [e]; simp only [bne_iff_ne, ne_eq] at j2; intro hx; cases hx; exact j2 rfl⟩
      exact ⟨this.1, fun u hu => by rcases List.mem_cons.mp hu with rfl | hu; exact this.2; exact i2 u hu⟩
    · intro u hu
      rcases List.mem_cons.mp hu with rfl | hu
      · unfold stopTracker; exact ⟨rfl, rfl⟩
      · exact h6 u hu

theorem stop_good {s : State} (h : Good ssl s) (hns : ¬ Starting s) : Good ssl (stop s) := by
  obtain ⟨h1, h2, h3, h4, h5, h6⟩ := stopTrackers_spec s.trackers s
  have hns' : ¬ Starting (stop s) := by
    intro hs
    apply hns
    unfold Starting at hs ⊢
    simp only [stop] at hs
    rw [h2] at hs
    exact hs
  refine ⟨clean_inv ?_ ?_ ?_ ?_ ?_, fun _ => ⟨fun t ht => (h6 t ht).1, hns'⟩, fun hs => absurd (.inl hs) hns', fun hx => by cases hx⟩
  · exact h6
  · rw [List.eq_nil_iff_forall_not_mem]
    intro a ha
    obtain ⟨i1, i2⟩ := h4 a ha
    obtain ⟨t, e1, e2⟩ := h.inv.armed a i1
    exact i2 t (List.mem_of_getElem? e1) e2
  · rw [List.eq_nil_iff_forall_not_mem]
    intro a ha
    obtain ⟨i1, i2⟩ := h5 a ha
    obtain ⟨k, t, e1, e2⟩ := h.inv.known a i1
    exact i2 t (List.mem_of_getElem? e1) e2
  · simp only [stop]; rw [h2, h3]; exact h.inv.old
  · intro p hp
    exact hns' (.inr ⟨p, hp⟩)

/-- All trackers are started, from the place `k` on. -/
theorem startFrom_inv (n : Nat) : ∀ {k : Nat} {s : State}, Inv ssl s none → k + n = s.trackers.length → (∀ j t, k ≤ j → s.trackers[j]? = some t → t.comm = none) →
    (∀ j t, j < k → s.trackers[j]? = some t → supported ssl t.uri.protocol = true → t.comm ≠ none) →
    ∃ s', startFrom ssl n k s = .ok s' ∧ Inv ssl s' none ∧ s'.callback = s.callback ∧ s'.tasks = s.tasks ∧ ∀ t ∈ s'.trackers, supported ssl t.uri.protocol = true → t.comm ≠ none := by
  induction n with
  | zero =>
    intro k s h hk h1 h2
    refine ⟨s, rfl, h, rfl, rfl, ?_⟩
    intro t ht
    obtain ⟨j, e⟩ := List.getElem?_of_mem ht
    exact h2 j t (by have := (List.getElem?_eq_some_iff.mp e).1; omega) e
  | succ n ih =>
    intro k s h hk h1 h2
    have hlt : k < s.trackers.length := by omega
    have e : s.trackers[k]? = some s.trackers[k] := by simp [hlt]
    have hc := h1 k _ (Nat.le_refl k) e
    unfold startFrom
    by_cases hs : supported ssl s.trackers[k].uri.protocol = true
    · obtain ⟨s1, t1, e1, i1, f1, f2, f3, f4, f5, f6⟩ := startTracker_inv h (.inl rfl) (h.quiet_none e hc) e hs
      rw [e1]
      simp only [Res.bind_ok]
      have hget : ∀ j, s1.trackers[j]? = if j = k then some t1 else s.trackers[j]? := by intro j; rw [f1, get_set e]
      obtain ⟨s', g1, g2, g3, g4, g5⟩ := ih (k := k + 1) i1 (by rw [f1, List.length_set]; omega)
        (fun j t hj et => by rw [hget, if_neg (by omega)] at et; exact h1 j t (by omega) et)
        (fun j t hj et hst => by
          rw [hget] at et
          split at et
          · cases et; intro hn; rw [hn] at f2; cases f2
          · exact h2 j t (by omega) et hst)
      exact ⟨s', g1, g2, g3.trans f5, g4.trans f4, g5⟩
    · have e1 : startTracker ssl s ⟨s.mem, k⟩ = .ok s := by
        unfold startTracker
        rw [if_neg (by simp), rd_eq_ok hlt]
        simp only [Res.bind_ok]
        rw [if_neg hs]; rfl
      rw [e1]
      simp only [Res.bind_ok]
      exact ih (k := k + 1) h (by omega) (fun j t hj et => h1 j t (by omega) et)
        (fun j t hj et hst => by
          by_cases hjk : j = k
          · subst hjk; rw [e] at et; cases et; exact absurd hst hs
          · exact h2 j t (by omega) et hst)

theorem erase_startAll {l : List Task} (h : l.count .startAll = 1) : Task.startAll ∉ l.erase .startAll := by
  intro hm
  have := List.count_pos_iff.mpr hm
  rw [List.count_erase_self] at this
  omega

theorem startAll_good {s : State} (h : Good ssl s) (ht : Task.startAll ∈ s.tasks) :
    ∃ s', startFrom ssl s.trackers.length 0 { s with tasks := s.tasks.erase .startAll } = .ok s' ∧ Good ssl s' := by
  obtain ⟨hcb, hc, h1⟩ := h.begun ht
  have hi := h.take_stale ht (fun k u c e1 e2 => by rw [hc u (List.mem_of_getElem? e1)] at e2; cases e2)
  obtain ⟨s', g1, g2, g3, g4, g5⟩ := startFrom_inv (ssl := ssl) s.trackers.length (k := 0) hi (by simp) (fun j t _ e => hc t (List.mem_of_getElem? e)) (fun j t hj => absurd hj (by omega))
  refine ⟨s', g1, g2, ?_, ?_, fun _ _ => g5⟩
  · intro hf; rw [g3] at hf; simp only at hf; rw [hcb] at hf; cases hf
  · intro hs; rw [g4] at hs; exact absurd hs (erase_startAll h1)

/-- A running tracker: its object exists, so everything has been started. -/
theorem Good.running {s : State} (h : Good ssl s) {t : Info} {c : Nat} (ht : t ∈ s.trackers) (ec : t.comm = some c) : s.callback = true ∧ Task.startAll ∉ s.tasks := by
  refine ⟨?_, ?_⟩
  · by_cases hf : s.callback = false
    · rw [(h.off hf).1 t ht] at ec; cases ec
    · simpa using hf
  · intro hs
    rw [(h.begun hs).2.1 t ht] at ec; cases ec

/-- The rest of `Good` when a step leaves what is started alone. -/
theorem Good.same {s s' : State} (h : Good ssl s) (hr : s.callback = true ∧ Task.startAll ∉ s.tasks) (hinv : Inv ssl s' none) (hcb : s'.callback = s.callback)
    (hst : Task.startAll ∉ s'.tasks)
    (hcomm : ∀ t' ∈ s'.trackers, t'.comm = none → supported ssl t'.uri.protocol = true → ∃ t ∈ s.trackers, supported ssl t.uri.protocol = true ∧ t.comm = none) : Good ssl s' := by
  refine ⟨hinv, ?_, ?_, ?_⟩
  · intro hf; rw [hcb, hr.1] at hf; cases hf
  · intro hs; exact absurd hs hst
  · intro _ _ t ht hsup hn
    obtain ⟨u, hu, h1, h2⟩ := hcomm t ht hn hsup
    exact h.on hr.1 hr.2 u hu h1 h2

/-- A tracker object has an answer or fails. -/
theorem answered_good {s : State} (h : Good ssl s) {c : Nat} (hc : c ∈ s.announcing) (t : Task) (hcon : ∀ k d, concerns ⟨s.mem, k⟩ d t = (c == d))
    (hne : t ≠ .startAll ∧ (∀ p, t ≠ .restart p) ∧ (∀ d i, t = .announced d i → d = c) ∧ (∀ d, t = .failed d → d = c)) :
    Good ssl { s with announcing := s.announcing.erase c, tasks := s.tasks ++ [t] } := by
  obtain ⟨k, u, e1, e2⟩ := h.inv.known c hc
  have hr := h.running (List.mem_of_getElem? e1) e2
  have hlt := h.inv.commLt k u c e1 e2
  refine h.same hr (h.inv.move h.inv.armed (fun d hd => h.inv.known d (List.mem_of_mem_erase hd)) ⟨?_, ?_⟩ ?_ ?_) rfl ?_ ?_
  · intro d i hd
    rcases List.mem_append.mp hd with hd | hd
    · exact h.inv.old.1 d i hd
    · rw [hne.2.2.1 d i (List.mem_singleton.mp hd).symm]; exact hlt
  · intro d hd
    rcases List.mem_append.mp hd with hd | hd
    · exact h.inv.old.2 d hd
    · rw [hne.2.2.2 d (List.mem_singleton.mp hd).symm]; exact hlt
  · intro p hp
    rcases List.mem_append.mp hp with hp | hp
    · exact h.inv.restart p hp
    · exact absurd (List.mem_singleton.mp hp).symm (hne.2.1 p)
  · intro j v d f1 f2
    have h1 := h.inv.tokens j v d f1 f2
    unfold underWay at h1
    rw [List.countP_append, List.countP_singleton, hcon]
    simp only [reduceCtorEq, if_false] at h1 ⊢
    have h2 := count_erase hc (· == d)
    simp only [List.count] at h1 ⊢
    omega
  · intro hs
    rcases List.mem_append.mp hs with hs | hs
    · exact hr.2 hs
    · exact hne.1 (List.mem_singleton.mp hs).symm
  · intro t' ht' hn hsup
    exact ⟨t', ht', hsup, hn⟩

/-- A timer expires. -/
theorem fires_good {s : State} (h : Good ssl s) {a : Timer × Nat} (ha : a ∈ s.armed) :
    ∃ s', fireTimer { s with armed := s.armed.erase a } a.1.ptr = .ok s' ∧ Good ssl s' := by
  obtain ⟨t, e1, e2⟩ := h.inv.armed a ha
  have hp := h.inv.ptr _ t a.1 e1 e2
  obtain ⟨hk, ek⟩ := List.getElem?_eq_some_iff.mp e1
  have hm : a.1.ptr.mem = s.mem := by rw [hp]
  cases hc : t.comm with
  | none => rw [(h.inv.both _ t e1).mp hc] at e2; cases e2
  | some c =>
    have hr := h.running (List.mem_of_getElem? e1) hc
    have hfire : fireTimer { s with armed := s.armed.erase a } a.1.ptr = .ok { s with armed := s.armed.erase a, announcing := s.announcing ++ [c] } := by
      unfold fireTimer
      rw [if_neg (by simpa using hm), rd_eq_ok hk]
      simp only [Res.bind_ok]
      rw [ek, hc]
      rfl
    refine ⟨_, hfire, h.same hr (h.inv.move (fun b hb => h.inv.armed b (List.mem_of_mem_erase hb)) ?_ h.inv.old h.inv.restart ?_) rfl hr.2 (fun t' ht' hn hsup => ⟨t', ht', hsup, hn⟩)⟩
    · intro d hd
      rcases List.mem_append.mp hd with hd | hd
      · exact h.inv.known d hd
      · rw [List.mem_singleton.mp hd]; exact ⟨_, t, e1, hc⟩
    · intro j v d f1 f2
      have h1 := h.inv.tokens j v d f1 f2
      unfold underWay at h1
      rw [if_neg (by simp)] at h1 ⊢
      have h2 := count_erase ha (fun a => a.1.ptr == ⟨s.mem, j⟩)
      rw [List.count_append, List.count_singleton]
      by_cases hj : a.1.ptr.idx = j
      · subst hj
        rw [e1] at f1; cases f1; rw [hc] at f2; cases f2
        have : (a.1.ptr == (⟨s.mem, a.1.ptr.idx⟩ : Ptr)) = true := by rw [beq_iff_eq]; exact hp
        rw [this, if_pos rfl] at h2
        simp
        omega
      · have h3 : (a.1.ptr == (⟨s.mem, j⟩ : Ptr)) = false := by
          rw [beq_eq_false_iff_ne, hp]; simp [hj]
        have h4 : (c == d) = false := by
          rw [beq_eq_false_iff_ne]; intro hx; subst hx
          exact hj (h.inv.distinct _ _ _ _ _ e1 f1 hc f2)
        rw [h3] at h2
        rw [h4]
        simp only [Bool.false_eq_true, if_false] at h2 ⊢
        omega

theorem not_mem_erase {l : List Task} {t : Task} (h : Task.startAll ∉ l) : Task.startAll ∉ l.erase t := fun hm => h (List.mem_of_mem_erase hm)

/-- A task of an object that belongs to no tracker, or when nothing is started, has no effect. -/
theorem stale_good {s : State} (h : Good ssl s) {t : Task} (ht : t ∈ s.tasks) (h1 : t ≠ .startAll) (h2 : ∀ p, t ≠ .restart p)
    (hc : ∀ (k : Nat) u c, s.trackers[k]? = some u → u.comm = some c → concerns ⟨s.mem, k⟩ c t = false) : Good ssl { s with tasks := s.tasks.erase t } := by
  refine ⟨h.take_stale ht hc, ?_, ?_, ?_⟩
  · intro hf
    obtain ⟨i1, i2⟩ := h.off hf
    refine ⟨i1, fun hs => i2 ?_⟩
    rcases hs with hs | ⟨p, hs⟩
    · exact .inl (List.mem_of_mem_erase hs)
    · exact .inr ⟨p, List.mem_of_mem_erase hs⟩
  · intro hs
    obtain ⟨i1, i2, i3⟩ := h.begun (List.mem_of_mem_erase hs)
    refine ⟨i1, i2, ?_⟩
    have := List.count_erase_of_ne (a := Task.startAll) (b := t) (l := s.tasks) (Ne.symm h1)
    simpa [this] using i3
  · intro hon hns
    refine h.on hon (fun hs => hns ?_)
    exact (List.mem_erase_of_ne (Ne.symm h1)).mpr hs

theorem announced_good {s : State} (h : Good ssl s) {c i : Nat} (ht : Task.announced c i ∈ s.tasks) :
    ∃ s', onAnnounce { s with tasks := s.tasks.erase (.announced c i) } c i = .ok s' ∧ Good ssl s' := by
  unfold onAnnounce
  by_cases hcb : s.callback = false
  · rw [if_pos (by simp [hcb])]
    exact ⟨_, rfl, stale_good h ht (by simp) (by simp) (fun k u d e1 e2 => by rw [(h.off hcb).1 u (List.mem_of_getElem? e1)] at e2; cases e2)⟩
  · have hcb : s.callback = true := by simpa using hcb
    rw [if_neg (by simp [hcb])]
    cases hf : findComm s.trackers c with
    | none =>
      refine ⟨_, rfl, stale_good h ht (by simp) (by simp) (fun k u d e1 e2 => ?_)⟩
      simp only [concerns, beq_eq_false_iff_ne]
      intro hx; subst hx
      exact findComm_none hf u (List.mem_of_getElem? e1) e2
    | some k =>
      obtain ⟨t, e1, e2⟩ := findComm_some hf
      obtain ⟨hk, ek⟩ := List.getElem?_eq_some_iff.mp e1
      have hr := h.running (List.mem_of_getElem? e1) e2
      have hi := h.take ht e1 e2 (by simp [concerns])
      simp only [rd_eq_ok hk, ek, Res.bind_ok]
      cases hy : t.timer with
      | none => rw [(h.inv.both k t e1).mpr hy] at e2; cases e2
      | some y =>
        simp only
        refine ⟨_, rfl, ?_⟩
        rw [← hy]
        have hi2 := hi.change (k := k) (t := t) (t' := { t with retryCount := 0 }) e1 rfl rfl id
        have hi3 := hi2.arm (k := k) (c := c) (t := { t with retryCount := 0 }) (y := y) (by simp [hk]) e2 hy i
        refine h.same hr hi3 rfl (not_mem_erase hr.2) ?_
        intro t' ht' hn hsup
        rcases List.mem_or_eq_of_mem_set ht' with ht' | rfl
        · exact ⟨t', ht', hsup, hn⟩
        · exact ⟨t, List.mem_of_getElem? e1, hsup, hn⟩

theorem failed_good {s : State} (h : Good ssl s) {c : Nat} (ht : Task.failed c ∈ s.tasks) :
    ∃ s', onTrackerFail ssl { s with tasks := s.tasks.erase (.failed c) } c = .ok s' ∧ Good ssl s' := by
  unfold onTrackerFail
  by_cases hcb : s.callback = false
  · rw [if_pos (by simp [hcb])]
    exact ⟨_, rfl, stale_good h ht (by simp) (by simp) (fun k u d e1 e2 => by rw [(h.off hcb).1 u (List.mem_of_getElem? e1)] at e2; cases e2)⟩
  · have hcb : s.callback = true := by simpa using hcb
    rw [if_neg (by simp [hcb])]
    cases hf : findComm s.trackers c with
    | none =>
      refine ⟨_, rfl, stale_good h ht (by simp) (by simp) (fun k u d e1 e2 => ?_)⟩
      simp only [concerns, beq_eq_false_iff_ne]
      intro hx; subst hx
      exact findComm_none hf u (List.mem_of_getElem? e1) e2
    | some k =>
      obtain ⟨t, e1, e2⟩ := findComm_some hf
      obtain ⟨hk, ek⟩ := List.getElem?_eq_some_iff.mp e1
      have hr := h.running (List.mem_of_getElem? e1) e2
      have hi := h.take ht e1 e2 (by simp [concerns])
      simp only [rd_eq_ok hk, ek, Res.bind_ok]
      split
      · -- the restart with http is posted
        refine ⟨_, rfl, ?_⟩
        have hi2 := hi.change (k := k) (t := t) (t' := { t with httpFallbackUsed := true, uri := { t.uri with protocol := ascii "http" } }) e1 rfl rfl (fun _ => supported_http)
        have q := hi2.quiet_hole (k := k) (c := c) (t := { t with httpFallbackUsed := true, uri := { t.uri with protocol := ascii "http" } }) (by simp [hk]) e2
        have hi3 : Inv ssl { s with trackers := s.trackers.set k { t with httpFallbackUsed := true, uri := { t.uri with protocol := ascii "http" } },
                                    tasks := s.tasks.erase (.failed c) ++ [.restart ⟨s.mem, k⟩] } none := by
          refine hi2.move hi2.armed hi2.known ⟨?_, ?_⟩ ?_ ?_
          · intro d i hd
            rcases List.mem_append.mp hd with hd | hd
            · exact hi2.old.1 d i hd
            · cases List.mem_singleton.mp hd
          · intro d hd
            rcases List.mem_append.mp hd with hd | hd
            · exact hi2.old.2 d hd
            · cases List.mem_singleton.mp hd
          · intro p hp
            rcases List.mem_append.mp hp with hp | hp
            · exact hi2.restart p hp
            · cases List.mem_singleton.mp hp
              exact ⟨rfl, { t with httpFallbackUsed := true, uri := { t.uri with protocol := ascii "http" } }, c, by simp [hk], e2, supported_http⟩
          · intro j v d f1 f2
            have h1 := hi2.tokens j v d f1 f2
            unfold underWay at h1
            rw [List.countP_append, List.countP_singleton]
            simp only [reduceCtorEq, if_false]
            by_cases hj : k = j
            · subst hj
              rw [if_pos rfl] at h1
              have h3 : concerns ⟨s.mem, k⟩ d (.restart ⟨s.mem, k⟩) = true := by simp [concerns]
              rw [h3]
              simp only [if_true] at h1 ⊢
              omega
            · rw [if_neg (by simp [hj])] at h1
              simp [concerns, hj]
              simp at h1
              omega
        refine h.same hr hi3 rfl ?_ ?_
        · intro hm
          rcases List.mem_append.mp hm with hm | hm
          · exact not_mem_erase hr.2 hm
          · cases List.mem_singleton.mp hm
        · intro t' ht' hn hsup
          rcases List.mem_or_eq_of_mem_set ht' with ht' | rfl
          · exact ⟨t', ht', hsup, hn⟩
          · rw [show ({ t with httpFallbackUsed := true, uri := { t.uri with protocol := ascii "http" } } : Info).comm = t.comm from rfl, e2] at hn; cases hn
      · split
        · -- back to udp
          have hi2 := hi.change (k := k) (t := t) (t' := { t with uri := { t.uri with protocol := ascii "udp" } }) e1 rfl rfl (fun _ => supported_udp)
          have e3 : (s.trackers.set k { t with uri := { t.uri with protocol := ascii "udp" } })[k]? = some { t with uri := { t.uri with protocol := ascii "udp" } } := by simp [hk]
          obtain ⟨s', t', g1, g2, g3, g4, g5, g6, g7, g8⟩ := startTracker_inv hi2 (.inr rfl) (hi2.quiet_hole e3 e2) e3 supported_udp
          refine ⟨s', g1, h.same hr g2 g7 (by rw [g6]; exact not_mem_erase hr.2) ?_⟩
          intro u hu hn hsup
          rw [g3] at hu
          rcases List.mem_or_eq_of_mem_set hu with hu | rfl
          · rcases List.mem_or_eq_of_mem_set hu with hu | rfl
            · exact ⟨u, hu, hsup, hn⟩
            · rw [show ({ t with uri := { t.uri with protocol := ascii "udp" } } : Info).comm = t.comm from rfl, e2] at hn; cases hn
          · rw [hn] at g4; cases g4
        · -- the timer
          cases hy : t.timer with
          | none => rw [(h.inv.both k t e1).mpr hy] at e2; cases e2
          | some y =>
            simp only
            refine ⟨_, rfl, ?_⟩
            rw [← hy]
            have hi2 := hi.change (k := k) (t := t) (t' := { t with retryCount := t.retryCount + 1 }) e1 rfl rfl id
            have hi3 := hi2.arm (k := k) (c := c) (t := { t with retryCount := t.retryCount + 1 }) (y := y) (by simp [hk]) e2 hy (30 * (t.retryCount + 1))
            refine h.same hr hi3 rfl (not_mem_erase hr.2) ?_
            intro t' ht' hn hsup
            rcases List.mem_or_eq_of_mem_set ht' with ht' | rfl
            · exact ⟨t', ht', hsup, hn⟩
            · exact ⟨t, List.mem_of_getElem? e1, hsup, hn⟩

theorem restart_good {s : State} (h : Good ssl s) {p : Ptr} (ht : Task.restart p ∈ s.tasks) :
    ∃ s', restart ssl { s with tasks := s.tasks.erase (.restart p) } p = .ok s' ∧ Good ssl s' := by
  obtain ⟨hm, t, c, e1, e2, hs⟩ := h.inv.restart p ht
  obtain ⟨hk, ek⟩ := List.getElem?_eq_some_iff.mp e1
  have hp : p = ⟨s.mem, p.idx⟩ := by cases p; simp_all
  have hr := h.running (List.mem_of_getElem? e1) e2
  have hi := h.take ht e1 e2 (by simp only [concerns, beq_iff_eq]; exact hp)
  have q := hi.quiet_hole e1 e2
  have hd := dropComm_quiet (t := t) q e1
  simp only at hd
  unfold restart startTracker
  rw [if_neg (by simpa using hm)]
  simp only [rd_eq_ok hk, ek, Res.bind_ok, hd]
  rw [if_neg (by simpa using hm), rd_eq_ok (by simpa using hk)]
  simp only [Res.bind_ok, List.getElem_set_self, hs, if_true, List.set_set, dropComm]
  refine ⟨_, rfl, ?_⟩
  have hb := hi.begin (k := p.idx) (t := t) (t' := { t with comm := some s.comms, timer := some ⟨s.timers, p⟩, retryCount := 0 }) (.inr rfl) q e1 rfl (by simp only; rw [← hp])
  refine h.same hr hb rfl (not_mem_erase hr.2) ?_
  intro u hu hn hsup
  rcases List.mem_or_eq_of_mem_set hu with hu | rfl
  · exact ⟨u, hu, hsup, hn⟩
  · cases hn

/-- Every orderly step that can be taken ends well and keeps the invariant. -/
theorem step_good {s : State} (h : Good ssl s) {e : Ev} (ho : OrderlyEv s e) {r : Res State} (hr : step ssl s e = some r) : ∃ s', r = .ok s' ∧ Good ssl s' := by
  cases e with
  | add addr =>
    have hts := addTracker_comm (h.inv.clean (h.off ho).1).1 addr
    simp only [step] at hr
    split at hr
    · cases hr; exact ⟨_, rfl, add_good h ho _ _ _ hts⟩
    · cases hr; exact ⟨_, rfl, add_good h ho _ _ _ hts⟩
  | start =>
    simp only [step] at hr
    cases hr
    refine ⟨_, rfl, ?_⟩
    obtain ⟨hc, hns⟩ := h.off ho
    obtain ⟨h1, h2, h3, h4⟩ := h.inv.clean hc
    refine ⟨clean_inv h1 h2 h3 ⟨?_, ?_⟩ ?_, fun hx => (by cases hx), fun _ => ⟨rfl, hc, ?_⟩, fun _ hx => absurd (List.mem_append_right _ (List.mem_singleton.mpr rfl)) hx⟩
    · intro d i hd
      rcases List.mem_append.mp hd with hd | hd
      · exact h.inv.old.1 d i hd
      · cases List.mem_singleton.mp hd
    · intro d hd
      rcases List.mem_append.mp hd with hd | hd
      · exact h.inv.old.2 d hd
      · cases List.mem_singleton.mp hd
    · intro p hd
      rcases List.mem_append.mp hd with hd | hd
      · exact h4 p hd
      · cases List.mem_singleton.mp hd
    · rw [List.count_append, List.count_eq_zero.mpr (fun hm => hns (.inl hm))]; rfl
  | stop =>
    simp only [step] at hr
    cases hr
    exact ⟨_, rfl, stop_good h ho⟩
  | refresh addr => exact ho.elim
  | succeeds c i =>
    simp only [step] at hr
    split at hr
    · next hc =>
      cases hr
      exact ⟨_, rfl, answered_good h hc _ (fun k d => rfl) ⟨by simp, by simp, by simp, by simp⟩⟩
    · cases hr
  | fails c =>
    simp only [step] at hr
    split at hr
    · next hc =>
      cases hr
      exact ⟨_, rfl, answered_good h hc _ (fun k d => rfl) ⟨by simp, by simp, by simp, by simp⟩⟩
    · cases hr
  | fires a =>
    simp only [step] at hr
    split at hr
    · next ha =>
      cases hr
      obtain ⟨s', e1, e2⟩ := fires_good h ha
      exact ⟨s', e1, e2⟩
    · cases hr
  | runs t =>
    simp only [step] at hr
    split at hr
    · next ht =>
      cases hr
      cases t with
      | startAll => exact startAll_good h ht
      | announced c i => exact announced_good h ht
      | failed c => exact failed_good h ht
      | restart p => exact restart_good h ht
    · cases hr

theorem run_good (es : List Ev) : ∀ {s : State}, Good ssl s → OrderlyRun ssl s es → ∀ {r}, run ssl s es = some r → ∃ s', r = .ok s' ∧ Good ssl s' := by
  induction es with
  | nil => intro s h _ r hr; cases hr; exact ⟨s, rfl, h⟩
  | cons e es ih =>
    intro s h ho r hr
    unfold run at hr
    cases hs : step ssl s e with
    | none => rw [hs] at hr; cases hr
    | some q =>
      obtain ⟨s', rfl, hg⟩ := step_good h ho.1 hs
      rw [hs] at hr
      exact ih hg (ho.2 s' hs) hr

end Verif.Trackers
