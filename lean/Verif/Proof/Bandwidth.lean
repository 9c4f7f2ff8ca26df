import Mathlib.Tactic.Ring
import Mathlib.Tactic.Linarith
import Mathlib.Data.List.Forall2
import Verif.Spec.Bandwidth
/-! Lemmas for C39: what each part of a tick does to one channel. -/

namespace Verif.Bandwidth
open Verif Spec

theorem toInt32_of {x : Int} (h0 : 0 ≤ x) (h1 : x < 2147483648) : toInt32 x = x := by
  unfold toInt32
  rw [Int.bmod_def]
  omega

@[simp] theorem set_same (f : Channels) (k : Nat) (c : Channel) : f.set k c k = c := by simp [Channels.set]

theorem set_other (f : Channels) {k i : Nat} (c : Channel) (h : i ≠ k) : f.set k c i = f i := by simp [Channels.set, h]

/-- A channel apart from its quota. -/
def SameBut (a b : Channel) : Prop := a.limit = b.limit ∧ a.prioritySum = b.prioritySum ∧ a.distribute = b.distribute

theorem SameBut.refl (a : Channel) : SameBut a a := ⟨rfl, rfl, rfl⟩

theorem SameBut.trans {a b c : Channel} (h : SameBut a b) (g : SameBut b c) : SameBut a c :=
  ⟨h.1.trans g.1, h.2.1.trans g.2.1, h.2.2.trans g.2.2⟩

/-! ### Folds over the channels of a request -/

theorem useAll_same (ks : List Nat) (a : Int) : ∀ (f : Channels) (c : Nat), SameBut (useAll f ks a c) (f c) := by
  induction ks with
  | nil => intro f c; exact SameBut.refl _
  | cons k ks ih =>
    intro f c
    refine (ih (f.set k ((f k).use a)) c).trans ?_
    by_cases h : c = k
    · subst h
      rw [set_same]
      unfold Channel.use
      split <;> exact ⟨rfl, rfl, rfl⟩
    · rw [set_other f _ h]; exact SameBut.refl _

theorem useAll_quota (ks : List Nat) (a : Int) : ∀ (f : Channels) (c : Nat), (f c).limit ≠ 0 → (useAll f ks a c).quota = (f c).quota - ks.count c * a := by
  induction ks with
  | nil => intro f c h; simp [useAll]
  | cons k ks ih =>
    intro f c h
    have h' := ih (f.set k ((f k).use a)) c
    have e : useAll f (k :: ks) a = useAll (f.set k ((f k).use a)) ks a := rfl
    rw [e]
    by_cases hk : c = k
    · subst hk
      rw [set_same] at h'
      have hu : (f c).use a = { f c with quota := (f c).quota - a } := by unfold Channel.use; rw [if_neg h]
      rw [hu] at h' ⊢
      rw [h' h, List.count_cons_self]
      push_cast
      ring
    · rw [set_other f _ hk] at h'
      rw [h' h, List.count_cons_of_ne (Ne.symm hk)]

theorem useAll_zero (ks : List Nat) (a : Int) : ∀ (f : Channels) (c : Nat), (f c).limit = 0 → useAll f ks a c = f c := by
  induction ks with
  | nil => intro f c h; rfl
  | cons k ks ih =>
    intro f c h
    have e : useAll f (k :: ks) a = useAll (f.set k ((f k).use a)) ks a := rfl
    rw [e]
    by_cases hk : c = k
    · subst hk
      have hu : (f c).use a = f c := by unfold Channel.use; rw [if_pos h]
      rw [ih _ c (by rw [set_same, hu]; exact h), set_same, hu]
    · rw [ih _ c (by rw [set_other f _ hk]; exact h), set_other f _ hk]

theorem giveBackAll_eq (f : Channels) (ks : List Nat) (a : Int) : giveBackAll f ks a = useAll f ks (-a) := by
  unfold giveBackAll useAll
  congr 1
  funext f k
  congr 1
  unfold Channel.giveBack Channel.use
  split
  · rfl
  · rw [Int.sub_neg]

theorem resetAll_spec (ks : List Nat) : ∀ (f : Channels) (c : Nat), resetAll f ks c = if c ∈ ks then { f c with prioritySum := 0 } else f c := by
  induction ks with
  | nil => intro f c; simp [resetAll]
  | cons k ks ih =>
    intro f c
    have e : resetAll f (k :: ks) = resetAll (f.set k { f k with prioritySum := 0 }) ks := rfl
    rw [e, ih]
    by_cases hk : c = k
    · subst hk; simp
    · rw [set_other f _ hk]; simp [hk]

theorem updateAll_none (dt : Int) (ks : List Nat) : ∀ (f : Channels) (c : Nat), ks.count c = 0 → updateAll f dt ks c = f c := by
  induction ks with
  | nil => intro f c _; rfl
  | cons k ks ih =>
    intro f c h
    have hk : c ≠ k := by rintro rfl; simp at h
    have e : updateAll f dt (k :: ks) = updateAll (f.set k ((f k).update dt)) dt ks := rfl
    rw [e, ih _ c (by rwa [List.count_cons_of_ne (Ne.symm hk)] at h), set_other f _ hk]

theorem updateAll_one (dt : Int) (ks : List Nat) : ∀ (f : Channels) (c : Nat), ks.count c = 1 → updateAll f dt ks c = (f c).update dt := by
  induction ks with
  | nil => intro f c h; simp at h
  | cons k ks ih =>
    intro f c h
    have e : updateAll f dt (k :: ks) = updateAll (f.set k ((f k).update dt)) dt ks := rfl
    rw [e]
    by_cases hk : c = k
    · subst hk
      rw [updateAll_none dt ks _ c (by rw [List.count_cons_self] at h; omega), set_same]
    · rw [ih _ c (by rwa [List.count_cons_of_ne (Ne.symm hk)] at h), set_other f _ hk]

/-! ### Priorities -/

/-- The weight of a request on a channel, and of many. -/
def weightOne (c : Nat) (r : Request) : Int := r.channels.count c * r.priority

def weight (c : Nat) (rs : List Request) : Int := (rs.map (weightOne c)).sum

theorem weightOne_nonneg {c : Nat} {r : Request} (h : 1 ≤ r.priority) : 0 ≤ weightOne c r := by
  unfold weightOne
  exact Int.mul_nonneg (by omega) (by omega)

theorem weightOne_pos {c : Nat} {r : Request} (h : 1 ≤ r.priority) (hc : c ∈ r.channels) : r.priority ≤ weightOne c r := by
  unfold weightOne
  have : 1 ≤ r.channels.count c := List.count_pos_iff.mpr hc
  nlinarith

theorem weight_nonneg {c : Nat} {rs : List Request} (h : ∀ r ∈ rs, 1 ≤ r.priority) : 0 ≤ weight c rs := by
  induction rs with
  | nil => simp [weight]
  | cons r rs ih =>
    have h1 := weightOne_nonneg (c := c) (h r (by simp))
    have h2 := ih (fun x hx => h x (by simp [hx]))
    simp only [weight, List.map_cons, List.sum_cons] at h2 ⊢
    omega

theorem weight_mem {c : Nat} {rs : List Request} (h : ∀ r ∈ rs, 1 ≤ r.priority) {r : Request} (hr : r ∈ rs) (hc : c ∈ r.channels) : r.priority ≤ weight c rs := by
  induction rs with
  | nil => cases hr
  | cons x rs ih =>
    have h2 := weight_nonneg (c := c) (fun x hx => h x (List.mem_cons_of_mem _ hx))
    have h3 := weightOne_nonneg (c := c) (h x (by simp))
    have e : weight c (x :: rs) = weightOne c x + weight c rs := by simp [weight]
    rcases List.mem_cons.mp hr with rfl | hr
    · have := weightOne_pos (h r (by simp)) hc; omega
    · have := ih (fun x hx => h x (List.mem_cons_of_mem _ hx)) hr; omega

theorem weight_zero {c : Nat} {rs : List Request} (h : ∀ r ∈ rs, c ∉ r.channels) : weight c rs = 0 := by
  induction rs with
  | nil => rfl
  | cons x rs ih =>
    have e : weight c (x :: rs) = weightOne c x + weight c rs := by simp [weight]
    rw [e, ih (fun r hr => h r (by simp [hr]))]
    unfold weightOne
    rw [List.count_eq_zero.mpr (h x (by simp))]
    simp

/-- A channel apart from its sum of priorities. -/
def SameQuota (a b : Channel) : Prop := a.limit = b.limit ∧ a.quota = b.quota ∧ a.distribute = b.distribute

theorem SameQuota.trans {a b c : Channel} (h : SameQuota a b) (g : SameQuota b c) : SameQuota a c :=
  ⟨h.1.trans g.1, h.2.1.trans g.2.1, h.2.2.trans g.2.2⟩

theorem weighOne_spec {p : Int} (hp : 1 ≤ p) (ks : List Nat) : ∀ (f : Channels) (c : Nat), 0 ≤ (f c).prioritySum →
    SameQuota ((weighOne p f ks).1 c) (f c) ∧ ((weighOne p f ks).1 c).prioritySum = (f c).prioritySum + ks.count c * p ∧
    (weighOne p f ks).2.count c = if (f c).prioritySum = 0 ∧ c ∈ ks then 1 else 0 := by
  induction ks with
  | nil => intro f c h; simp [weighOne, SameQuota]
  | cons k ks ih =>
    intro f c h
    simp only [weighOne]
    by_cases hk : c = k
    · subst hk
      obtain ⟨h1, h2, h3⟩ := ih (f.set c { f c with prioritySum := (f c).prioritySum + p }) c (by rw [set_same]; simp only; omega)
      rw [set_same] at h1 h2 h3
      simp only at h1 h2 h3
      refine ⟨h1, ?_, ?_⟩
      · rw [h2, List.count_cons_self]; push_cast; ring
      · rw [if_neg (by omega)] at h3
        by_cases h0 : (f c).prioritySum = 0
        · rw [if_pos h0, List.count_cons_self, h3, if_pos ⟨h0, List.mem_cons_self⟩]
        · rw [if_neg h0, h3, if_neg (fun hx => h0 hx.1)]
    · obtain ⟨h1, h2, h3⟩ := ih (f.set k { f k with prioritySum := (f k).prioritySum + p }) c (by rw [set_other f _ hk]; exact h)
      rw [set_other f _ hk] at h1 h2 h3
      refine ⟨h1, ?_, ?_⟩
      · rw [h2, List.count_cons_of_ne (Ne.symm hk)]
      · have : ∀ l : List Nat, (if (f k).prioritySum = 0 then k :: l else l).count c = l.count c := by
          intro l
          split
          · rw [List.count_cons_of_ne (Ne.symm hk)]
          · rfl
        rw [this, h3]
        simp [hk]

theorem weigh_spec (rs : List Request) : ∀ (f : Channels) (c : Nat), (∀ r ∈ rs, 1 ≤ r.priority) → 0 ≤ (f c).prioritySum →
    SameQuota ((weigh f rs).1 c) (f c) ∧ ((weigh f rs).1 c).prioritySum = (f c).prioritySum + weight c rs ∧
    (weigh f rs).2.count c = if (f c).prioritySum = 0 ∧ weight c rs ≠ 0 then 1 else 0 := by
  induction rs with
  | nil => intro f c _ _; simp [weigh, weight, SameQuota]
  | cons r rs ih =>
    intro f c hp h
    have hr := hp r (by simp)
    obtain ⟨h1, h2, h3⟩ := weighOne_spec hr r.channels f c h
    have hw : ((weighOne r.priority f r.channels).1 c).prioritySum = (f c).prioritySum + weightOne c r := h2
    have hn := weightOne_nonneg (c := c) hr
    obtain ⟨i1, i2, i3⟩ := ih (weighOne r.priority f r.channels).1 c (fun x hx => hp x (by simp [hx])) (by rw [hw]; omega)
    have e : weight c (r :: rs) = weightOne c r + weight c rs := by simp [weight]
    have hn2 := weight_nonneg (c := c) (fun x hx => hp x (List.mem_cons_of_mem _ hx))
    simp only [weigh]
    refine ⟨i1.trans h1, by rw [i2, hw, e]; omega, ?_⟩
    rw [List.count_append, h3, i3, hw, e]
    by_cases hc : c ∈ r.channels
    · have := weightOne_pos hr hc
      by_cases h0 : (f c).prioritySum = 0
      · rw [if_pos ⟨h0, hc⟩, if_neg (by omega), if_pos (by omega)]
      · rw [if_neg (by simp [h0]), if_neg (by omega), if_neg (by simp [h0])]
    · have hz : weightOne c r = 0 := by unfold weightOne; rw [List.count_eq_zero.mpr hc]; simp
      rw [if_neg (by simp [hc]), hz]
      simp

/-! ### One update of the quota -/

/-- What a tick adds to the quota. -/
theorem update_spec {c : Channel} {dt : Int} (hl : 0 < c.limit) (hl2 : c.limit < 2147483648) (hq : 0 ≤ c.quota) (h0 : 0 ≤ dt) :
    0 ≤ (c.update dt).quota ∧ (c.update dt).quota ≤ inf ∧ 1000 * (c.update dt).quota ≤ 1000 * c.quota + c.limit * dt + 500 ∧
    (c.update dt).distribute = (c.update dt).quota ∧ (c.update dt).limit = c.limit ∧ (c.update dt).prioritySum = c.prioritySum := by
  have hm : 0 ≤ c.limit * dt := Int.mul_nonneg (by omega) h0
  have hd : (c.limit * dt + 500).tdiv 1000 = (c.limit * dt + 500) / 1000 := Int.tdiv_eq_ediv_of_nonneg (by omega)
  have key : ∀ q : Int, 0 ≤ q → q ≤ inf → toInt32 (max q 0) = q := by
    intro q h1 h2
    unfold inf at h2
    rw [show max q 0 = q by omega, toInt32_of h1 (by omega)]
  unfold Channel.update
  rw [if_neg (by omega), hd]
  have hb : 0 ≤ (c.limit * dt + 500) / 1000 ∧ 1000 * ((c.limit * dt + 500) / 1000) ≤ c.limit * dt + 500 := by omega
  generalize (c.limit * dt + 500) / 1000 = x at hb
  generalize c.limit * dt = m at hb hm
  simp only
  have hinf : inf = 2147483647 := rfl
  split
  · next h => exact ⟨by omega, by omega, by omega, key _ (by omega) (by omega), by simp, by simp⟩
  · next h =>
    have ht : (c.quota + x).tdiv 3 = (c.quota + x) / 3 := Int.tdiv_eq_ediv_of_nonneg (by omega)
    rw [ht]
    split
    · have : min (c.limit * 3) inf ≤ c.limit * 3 := Int.min_le_left _ _
      refine ⟨by omega, by omega, by omega, key _ (by omega) (by omega), by simp, by simp⟩
    · refine ⟨by omega, by omega, by omega, key _ (by omega) (by omega), by simp, by simp⟩

end Verif.Bandwidth
