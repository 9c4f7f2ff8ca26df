import Verif.Proof.Bandwidth
/-! Lemmas for C39: requests and ticks keep the accounts. -/

namespace Verif.Bandwidth
open Verif Spec

/-- A request in the queue. -/
structure Fine (r : Request) : Prop where
  priority : 1 ≤ r.priority
  assigned : 0 ≤ r.assigned
  size : r.assigned ≤ r.size
  waits : ∀ k ∈ r.channels, k ∈ r.asked

def open_ (rs : List Request) : Int := (rs.map fun r => r.size - r.assigned).sum

def aside (c : Nat) (rs : List Request) : Int := (rs.map (setAside c)).sum

def key (r : Request) : Nat × List Nat × Int := (r.user, r.asked, r.size)

@[simp] theorem open_nil : open_ [] = 0 := rfl
@[simp] theorem open_cons (r : Request) (rs : List Request) : open_ (r :: rs) = r.size - r.assigned + open_ rs := by simp [open_]
@[simp] theorem aside_nil (c : Nat) : aside c [] = 0 := rfl
@[simp] theorem aside_cons (c : Nat) (r : Request) (rs : List Request) : aside c (r :: rs) = setAside c r + aside c rs := by simp [aside]
@[simp] theorem weight_nil (c : Nat) : weight c [] = 0 := rfl
@[simp] theorem weight_cons (c : Nat) (r : Request) (rs : List Request) : weight c (r :: rs) = weightOne c r + weight c rs := by simp [weight]

theorem setAside_nonneg {c : Nat} {r : Request} (h : Fine r) : 0 ≤ setAside c r := by
  unfold setAside
  split
  · exact Int.mul_nonneg (by omega) h.assigned
  · split
    · have := h.assigned; have := h.size; omega
    · omega

theorem aside_nonneg {c : Nat} {rs : List Request} (h : ∀ r ∈ rs, Fine r) : 0 ≤ aside c rs := by
  induction rs with
  | nil => simp
  | cons r rs ih =>
    have h1 := setAside_nonneg (c := c) (h r (by simp))
    have h2 := ih (fun x hx => h x (by simp [hx]))
    simp; omega

/-- What is set aside covers what is assigned. -/
theorem setAside_covers {c : Nat} {r : Request} (h : Fine r) : (if c ∈ r.asked then r.assigned else 0) ≤ setAside c r := by
  unfold setAside
  by_cases hc : c ∈ r.channels
  · rw [if_pos (h.waits c hc), if_pos hc]
    have h1 : 1 ≤ r.channels.count c := List.count_pos_iff.mpr hc
    have h2 := h.assigned
    nlinarith
  · rw [if_neg hc]
    have := h.size
    split <;> omega

theorem setAside_unused {c : Nat} {r : Request} (h : Fine r) : r.channels.count c * r.assigned ≤ setAside c r := by
  unfold setAside
  by_cases hc : c ∈ r.channels
  · rw [if_pos hc]
  · rw [if_neg hc, List.count_eq_zero.mpr hc]
    have h1 := h.assigned; have h2 := h.size
    split <;> simp <;> omega

/-! ### Taking out inactive users -/

structure Sifted (inactive : List Nat) (f : Channels) (n : Int) (rs : List Request) (o : Channels × Int × List Request × List Request) : Prop where
  limit : ∀ c, (o.1 c).limit = (f c).limit
  quota : ∀ c, 0 ≤ (f c).quota → 0 ≤ (o.1 c).quota
  sums : ∀ c, (o.1 c).prioritySum = (f c).prioritySum ∨ (o.1 c).prioritySum = 0
  used : ∀ r ∈ o.2.2.1, ∀ c ∈ r.channels, (o.1 c).prioritySum = 0
  total : ∀ c, (f c).limit ≠ 0 → (o.1 c).quota + aside c o.2.2.1 ≤ (f c).quota + aside c rs
  count : o.2.1 - open_ o.2.2.1 = n - open_ rs
  fine : ∀ r ∈ o.2.2.1, Fine r
  out : ∀ r ∈ o.2.2.2, r.assigned = 0 ∧ 0 ≤ r.size
  perm : (rs.map key).Perm ((o.2.2.2 ++ o.2.2.1).map key)

theorem sift_spec (inactive : List Nat) (rs : List Request) : ∀ (f : Channels) (n : Int), (∀ r ∈ rs, Fine r) → Sifted inactive f n rs (sift inactive f n rs) := by
  induction rs with
  | nil =>
    intro f n _
    exact ⟨fun _ => rfl, fun _ h => h, fun _ => .inl rfl, by simp [sift], by simp [sift], rfl, by simp [sift], by simp [sift], List.Perm.refl _⟩
  | cons r rs ih =>
    intro f n hf
    have hr := hf r (by simp)
    have hrs : ∀ x ∈ rs, Fine x := fun x hx => hf x (by simp [hx])
    unfold sift
    split
    · have H := ih (giveBackAll f r.channels r.assigned) (n - (r.size - r.assigned)) hrs
      have hs := useAll_same r.channels (-r.assigned) f
      rw [giveBackAll_eq] at H ⊢
      generalize hg : sift inactive (useAll f r.channels (-r.assigned)) (n - (r.size - r.assigned)) rs = o at H ⊢
      obtain ⟨f', n', kept, out⟩ := o
      simp only at H ⊢
      refine ⟨fun c => (H.limit c).trans (hs c).1, ?_, ?_, H.used, ?_, ?_, H.fine, ?_, ?_⟩
      · intro c hq
        refine H.quota c ?_
        by_cases hl : (f c).limit = 0
        · rw [useAll_zero _ _ _ _ hl]; exact hq
        · rw [useAll_quota _ _ _ _ hl]
          have h1 := hr.assigned
          have : 0 ≤ (r.channels.count c : Int) * r.assigned := Int.mul_nonneg (by omega) h1
          rw [Int.mul_neg]; omega
      · intro c
        rcases H.sums c with h | h
        · exact .inl (h.trans (hs c).2.1)
        · exact .inr h
      · intro c hl
        have h1 := H.total c (by rw [(hs c).1]; exact hl)
        rw [useAll_quota _ _ _ _ hl, Int.mul_neg] at h1
        have h2 := setAside_unused (c := c) hr
        simp at h1 ⊢
        omega
      · have h1 := H.count
        simp at h1 ⊢
        omega
      · intro x hx
        rcases List.mem_cons.mp hx with rfl | hx
        · have h1 := hr.assigned; have h2 := hr.size
          exact ⟨rfl, by simp only; omega⟩
        · exact H.out x hx
      · simpa [key] using H.perm
    · have H := ih (resetAll f r.channels) n hrs
      have hs : ∀ c, (resetAll f r.channels c).limit = (f c).limit ∧ (resetAll f r.channels c).quota = (f c).quota ∧
          ((resetAll f r.channels c).prioritySum = (f c).prioritySum ∨ (resetAll f r.channels c).prioritySum = 0) ∧
          (c ∈ r.channels → (resetAll f r.channels c).prioritySum = 0) := by
        intro c
        rw [resetAll_spec]
        split <;> simp_all
      generalize hg : sift inactive (resetAll f r.channels) n rs = o at H ⊢
      obtain ⟨f', n', kept, out⟩ := o
      simp only at H ⊢
      refine ⟨fun c => (H.limit c).trans (hs c).1, fun c hq => H.quota c (by rw [(hs c).2.1]; exact hq), ?_, ?_, ?_, ?_, ?_, H.out, ?_⟩
      · intro c
        rcases H.sums c with h | h
        · rw [h]; exact (hs c).2.2.1
        · exact .inr h
      · intro x hx c hc
        rcases List.mem_cons.mp hx with rfl | hx
        · rcases H.sums c with h | h
          · rw [h]; exact (hs c).2.2.2 hc
          · exact h
        · exact H.used x hx c hc
      · intro c hl
        have h1 := H.total c (by rw [(hs c).1]; exact hl)
        rw [(hs c).2.1] at h1
        simp at h1 ⊢
        omega
      · have h1 := H.count
        simp at h1 ⊢
        omega
      · intro x hx
        rcases List.mem_cons.mp hx with rfl | hx
        · exact hr
        · exact H.fine x hx
      · simp only [List.map_append, List.map_cons]
        refine List.Perm.trans (List.Perm.cons _ H.perm) ?_
        rw [List.map_append]
        exact List.perm_middle.symm

/-! ### Distributing -/

/-- The channels of waiting requests are ready for distribution. -/
def Ready (f : Channels) (rs : List Request) : Prop :=
  ∀ c, (∃ r ∈ rs, c ∈ r.channels) → (f c).limit = 0 ∨ (0 ≤ (f c).distribute ∧ (f c).distribute ≤ inf ∧ weight c rs ≤ (f c).prioritySum)

theorem share_spec {f : Channels} {p : Int} (hp : 1 ≤ p) (ks : List Nat) :
    ∀ q, 0 ≤ q → (∀ c ∈ ks, (f c).limit = 0 ∨ (0 ≤ (f c).distribute ∧ (f c).distribute ≤ inf ∧ p ≤ (f c).prioritySum)) →
    0 ≤ share f p ks q ∧ share f p ks q ≤ q ∧ ∀ c ∈ ks, (f c).limit ≠ 0 → (f c).prioritySum * share f p ks q ≤ (f c).distribute * p := by
  induction ks with
  | nil => intro q h _; simp [share, h]
  | cons k ks ih =>
    intro q h0 hk
    have e : share f p (k :: ks) q = share f p ks
      (if (f k).limit = 0 ∨ (f k).prioritySum = 0 then q else min (toInt32 (((f k).distribute * p).tdiv (f k).prioritySum)) q) := rfl
    rw [e]
    by_cases hl : (f k).limit = 0
    · rw [if_pos (.inl hl)]
      obtain ⟨h1, h2, h3⟩ := ih q h0 (fun c hc => hk c (by simp [hc]))
      refine ⟨h1, h2, fun c hc hn => ?_⟩
      rcases List.mem_cons.mp hc with rfl | hc
      · exact absurd hl hn
      · exact h3 c hc hn
    · obtain ⟨d0, d1, d2⟩ := (hk k (by simp)).resolve_left hl
      rw [if_neg (by omega)]
      have hm : 0 ≤ (f k).distribute * p := Int.mul_nonneg d0 (by omega)
      have ht : ((f k).distribute * p).tdiv (f k).prioritySum = ((f k).distribute * p) / (f k).prioritySum := Int.tdiv_eq_ediv_of_nonneg hm
      have hx0 : 0 ≤ ((f k).distribute * p) / (f k).prioritySum := Int.ediv_nonneg hm (by omega)
      have hx1 : (f k).prioritySum * (((f k).distribute * p) / (f k).prioritySum) ≤ (f k).distribute * p := Int.mul_ediv_self_le (by omega)
      have hx2 : ((f k).distribute * p) / (f k).prioritySum ≤ (f k).distribute := by
        refine Int.ediv_le_of_le_mul (by omega) ?_
        nlinarith
      unfold inf at d1
      rw [ht, toInt32_of hx0 (by omega)]
      generalize ((f k).distribute * p) / (f k).prioritySum = x at hx0 hx1
      obtain ⟨h1, h2, h3⟩ := ih (min x q) (by omega) (fun c hc => hk c (by simp [hc]))
      refine ⟨h1, by omega, fun c hc hn => ?_⟩
      rcases List.mem_cons.mp hc with rfl | hc
      · have : share f p ks (min x q) ≤ x := by omega
        have hps : 0 ≤ (f c).prioritySum := by omega
        nlinarith
      · exact h3 c hc hn

theorem assign_spec {f : Channels} {r : Request} (hr : Fine r)
    (hk : ∀ c ∈ r.channels, (f c).limit = 0 ∨ (0 ≤ (f c).distribute ∧ (f c).distribute ≤ inf ∧ r.priority ≤ (f c).prioritySum)) :
    ∃ f' a, assign f r = (f', { r with assigned := r.assigned + a }, a) ∧ 0 ≤ a ∧ a ≤ r.size - r.assigned ∧ (∀ c, SameBut (f' c) (f c)) ∧
      (∀ c, (f c).limit = 0 → f' c = f c) ∧ (∀ c, (f c).limit ≠ 0 → (f' c).quota = (f c).quota - r.channels.count c * a) ∧
      ∀ c ∈ r.channels, (f c).limit ≠ 0 → (f c).prioritySum * a ≤ (f c).distribute * r.priority := by
  have h1 := hr.size
  have h2 := hr.priority
  unfold assign
  by_cases h0 : r.size - r.assigned = 0
  · simp only [h0, if_true]
    refine ⟨f, 0, by simp, by omega, by omega, fun c => SameBut.refl _, fun c _ => rfl, fun c _ => by simp, ?_⟩
    intro c hc hn
    obtain ⟨d0, _, _⟩ := (hk c hc).resolve_left hn
    rw [Int.mul_zero]
    exact Int.mul_nonneg d0 (by omega)
  · simp only [h0, if_false]
    obtain ⟨s1, s2, s3⟩ := share_spec h2 r.channels (r.size - r.assigned) (by omega) hk
    exact ⟨_, _, rfl, s1, s2, useAll_same _ _ _, useAll_zero _ _ _, useAll_quota _ _ _, s3⟩

structure Shared (f : Channels) (n : Int) (rs : List Request) (o : Channels × Int × List Request × List Request) : Prop where
  same : ∀ c, SameBut (o.1 c) (f c)
  quota : ∀ c, 0 ≤ (f c).quota → (weight c rs ≠ 0 → 0 ≤ (f c).distribute ∧ (f c).distribute * weight c rs ≤ (f c).prioritySum * (f c).quota) → 0 ≤ (o.1 c).quota
  zero : ∀ c, (f c).limit = 0 → o.1 c = f c
  total : ∀ c, (f c).limit ≠ 0 → (o.1 c).quota + aside c o.2.2.1 + granted c (o.2.2.2.map toGrant) ≤ (f c).quota + aside c rs
  count : o.2.1 - open_ o.2.2.1 = n - open_ rs
  fine : ∀ r ∈ o.2.2.1, Fine r
  out : ∀ r ∈ o.2.2.2, 0 ≤ r.assigned ∧ r.assigned ≤ r.size
  perm : (rs.map key).Perm ((o.2.2.2 ++ o.2.2.1).map key)

theorem distributeAll_spec (dt : Int) (rs : List Request) : ∀ (f : Channels) (n : Int), (∀ r ∈ rs, Fine r) → Ready f rs → Shared f n rs (distributeAll dt f n rs) := by
  induction rs with
  | nil =>
    intro f n _ _
    exact ⟨fun _ => SameBut.refl _, fun _ h _ => h, fun _ _ => rfl, by simp [distributeAll, granted], rfl, by simp [distributeAll], by simp [distributeAll], List.Perm.refl _⟩
  | cons r rs ih =>
    intro f n hf hready
    have hr := hf r (by simp)
    have hrs : ∀ x ∈ rs, Fine x := fun x hx => hf x (by simp [hx])
    have hprio : ∀ x ∈ r :: rs, 1 ≤ x.priority := fun x hx => (hf x hx).priority
    have hr' : Fine { r with ttl := r.ttl - dt } := ⟨hr.priority, hr.assigned, hr.size, hr.waits⟩
    obtain ⟨f1, a, e, a0, a1, hsame, hzero, hquota, hshare⟩ := assign_spec (f := f) hr' (by
      intro c hc
      rcases hready c ⟨r, by simp, hc⟩ with h | ⟨h1, h2, h3⟩
      · exact .inl h
      · exact .inr ⟨h1, h2, Int.le_trans (weight_mem hprio (r := r) (by simp) hc) h3⟩)
    simp only at hquota hshare a1
    have hready1 : Ready f1 rs := by
      intro c ⟨x, hx, hc⟩
      obtain ⟨e1, e2, e3⟩ := hsame c
      rw [e1, e2, e3]
      rcases hready c ⟨x, by simp [hx], hc⟩ with h | ⟨h1, h2, h3⟩
      · exact .inl h
      · refine .inr ⟨h1, h2, ?_⟩
        have := weightOne_nonneg (c := c) hr.priority
        simp at h3
        omega
    -- the quota and the part to be shared by the rest
    have hq1 : ∀ c, 0 ≤ (f c).quota → (weight c (r :: rs) ≠ 0 → 0 ≤ (f c).distribute ∧ (f c).distribute * weight c (r :: rs) ≤ (f c).prioritySum * (f c).quota) →
        0 ≤ (f1 c).quota ∧ (weight c rs ≠ 0 → 0 ≤ (f1 c).distribute ∧ (f1 c).distribute * weight c rs ≤ (f1 c).prioritySum * (f1 c).quota) := by
      intro c hq hw
      obtain ⟨e1, e2, e3⟩ := hsame c
      have hw0 := weight_nonneg (c := c) (fun x hx => (hrs x hx).priority)
      have hw1 := weightOne_nonneg (c := c) hr.priority
      by_cases hl : (f c).limit = 0
      · rw [hzero c hl]
        refine ⟨hq, fun hx => ?_⟩
        obtain ⟨i1, i2⟩ := hw (by simp; omega)
        refine ⟨i1, ?_⟩
        simp at i2
        have := Int.mul_nonneg i1 hw1
        nlinarith
      · rw [hquota c hl, e2, e3]
        by_cases hc : c ∈ r.channels
        · have hpos := weightOne_pos hr.priority hc
          have hp := hr.priority
          obtain ⟨i1, i2⟩ := hw (by simp; omega)
          have hs := hshare c hc hl
          obtain ⟨_, _, hS⟩ := (hready c ⟨r, by simp, hc⟩).resolve_left hl
          simp at i2 hS
          have hcnt : (f c).prioritySum * (r.channels.count c * a) ≤ (f c).distribute * weightOne c r := by
            unfold weightOne
            have : (0 : Int) ≤ r.channels.count c := by omega
            nlinarith
          have key2 : (f c).distribute * weight c rs ≤ (f c).prioritySum * ((f c).quota - r.channels.count c * a) := by
            nlinarith
          refine ⟨?_, fun _ => ⟨i1, key2⟩⟩
          have h3 : 0 ≤ (f c).prioritySum * ((f c).quota - r.channels.count c * a) := Int.le_trans (Int.mul_nonneg i1 hw0) key2
          by_contra hneg
          have hS0 : 0 < (f c).prioritySum := by omega
          nlinarith
        · have hz : r.channels.count c = 0 := List.count_eq_zero.mpr hc
          have hwz : weightOne c r = 0 := by unfold weightOne; rw [hz]; simp
          rw [hz]
          simp only [weight_cons, hwz, Int.zero_add] at hw
          simpa using ⟨hq, hw⟩
    -- what is set aside for this request
    have hfine1 : Fine { r with ttl := r.ttl - dt, assigned := r.assigned + a } :=
      ⟨hr.priority, by have := hr.assigned; simp only; omega, by simp only; omega, hr.waits⟩
    have haside : ∀ c, (f c).limit ≠ 0 → (f1 c).quota + setAside c { r with ttl := r.ttl - dt, assigned := r.assigned + a } ≤ (f c).quota + setAside c r := by
      intro c hl
      rw [hquota c hl]
      unfold setAside
      by_cases hc : c ∈ r.channels
      · simp only [hc, if_true]
        have : (r.channels.count c : Int) * (r.assigned + a) = r.channels.count c * r.assigned + r.channels.count c * a := by ring
        omega
      · simp only [hc, if_false]
        rw [List.count_eq_zero.mpr hc]
        simp
    unfold distributeAll
    rw [e]
    simp only
    split
    · have H := ih f1 (n - (a + (r.size - (r.assigned + a)))) hrs hready1
      generalize distributeAll dt f1 (n - (a + (r.size - (r.assigned + a)))) rs = o at H ⊢
      obtain ⟨f', n', kept, out⟩ := o
      simp only at H ⊢
      refine ⟨fun c => (H.same c).trans (hsame c), fun c h1 h2 => H.quota c (hq1 c h1 h2).1 (hq1 c h1 h2).2, fun c h => (H.zero c (by rw [hzero c h]; exact h)).trans (hzero c h), ?_, ?_, H.fine, ?_, ?_⟩
      · intro c hl
        have h1 := H.total c (by rw [(hsame c).1]; exact hl)
        have h2 := haside c hl
        have h3 := setAside_covers (c := c) hfine1
        simp only [List.map_cons, granted, toGrant, aside_cons] at h1 h3 ⊢
        omega
      · have h1 := H.count
        simp at h1 ⊢
        omega
      · intro x hx
        rcases List.mem_cons.mp hx with rfl | hx
        · exact ⟨hfine1.assigned, hfine1.size⟩
        · exact H.out x hx
      · simpa [key] using H.perm
    · have H := ih f1 (n - a) hrs hready1
      generalize distributeAll dt f1 (n - a) rs = o at H ⊢
      obtain ⟨f', n', kept, out⟩ := o
      simp only at H ⊢
      refine ⟨fun c => (H.same c).trans (hsame c), fun c h1 h2 => H.quota c (hq1 c h1 h2).1 (hq1 c h1 h2).2, fun c h => (H.zero c (by rw [hzero c h]; exact h)).trans (hzero c h), ?_, ?_, ?_, H.out, ?_⟩
      · intro c hl
        have h1 := H.total c (by rw [(hsame c).1]; exact hl)
        have h2 := haside c hl
        simp only [aside_cons] at h1 ⊢
        omega
      · have h1 := H.count
        simp at h1 ⊢
        omega
      · intro x hx
        rcases List.mem_cons.mp hx with rfl | hx
        · exact hfine1
        · exact H.fine x hx
      · simp only [List.map_append, List.map_cons]
        refine List.Perm.trans (List.Perm.cons _ H.perm) ?_
        rw [List.map_append]
        exact List.perm_middle.symm

/-! ### Requests -/

structure Collected (f : Channels) (amount : Int) (ks : List Nat) (o : Channels × List Nat) : Prop where
  same : ∀ c, SameBut (o.1 c) (f c)
  quota : ∀ c, 0 ≤ (f c).quota → 0 ≤ (o.1 c).quota
  less : ∀ c, (o.1 c).quota ≤ (f c).quota
  paid : ∀ c ∈ ks, c ∉ o.2 → (f c).limit ≠ 0 → (o.1 c).quota + amount ≤ (f c).quota
  sub : ∀ c ∈ o.2, c ∈ ks
  len : o.2.length ≤ ks.length

theorem collect_spec {amount : Int} (ha : 0 ≤ amount) (ks : List Nat) : ∀ (f : Channels), (∀ c, 0 ≤ (f c).limit) → Collected f amount ks (collect f ks amount) := by
  induction ks with
  | nil => intro f _; exact ⟨fun _ => SameBut.refl _, fun _ h => h, fun _ => Int.le_refl _, by simp, by simp [collect], by simp [collect]⟩
  | cons k ks ih =>
    intro f hl
    have hn : ∃ w ch, (f k).needQueueing amount = (w, ch) ∧ SameBut ch (f k) ∧ (0 ≤ (f k).quota → 0 ≤ ch.quota) ∧ ch.quota ≤ (f k).quota ∧
        (w = false → (f k).limit ≠ 0 → ch.quota + amount ≤ (f k).quota) := by
      have := hl k
      unfold Channel.needQueueing
      split
      · exact ⟨_, _, rfl, SameBut.refl _, id, Int.le_refl _, fun _ h => by omega⟩
      · split
        · exact ⟨_, _, rfl, SameBut.refl _, id, Int.le_refl _, fun h => by cases h⟩
        · exact ⟨_, _, rfl, ⟨rfl, rfl, rfl⟩, fun _ => by simp only; omega, by simp only; omega, fun _ _ => by simp only; omega⟩
    obtain ⟨w, ch, e, h1, h2, h3, h4⟩ := hn
    have hset : ∀ c, SameBut (f.set k ch c) (f c) ∧ (0 ≤ (f c).quota → 0 ≤ (f.set k ch c).quota) ∧ (f.set k ch c).quota ≤ (f c).quota := by
      intro c
      by_cases hc : c = k
      · subst hc; rw [set_same]; exact ⟨h1, h2, h3⟩
      · rw [set_other f _ hc]; exact ⟨SameBut.refl _, id, Int.le_refl _⟩
    have H := ih (f.set k ch) (fun c => by rw [(hset c).1.1]; exact hl c)
    unfold collect
    rw [e]
    simp only
    generalize collect (f.set k ch) ks amount = o at H ⊢
    obtain ⟨f', ws⟩ := o
    simp only at H ⊢
    refine ⟨fun c => (H.same c).trans (hset c).1, fun c h => H.quota c ((hset c).2.1 h), fun c => Int.le_trans (H.less c) (hset c).2.2, ?_, ?_, ?_⟩
    · intro c hc hw hlc
      by_cases hck : c = k
      · subst hck
        cases w with
        | true => simp at hw
        | false =>
          have := h4 rfl hlc
          have h5 := H.less c
          rw [set_same] at h5
          simp only at h5 ⊢
          omega
      · have hc' : c ∈ ks := by simpa [hck] using hc
        have hw' : c ∉ ws := by cases w <;> simp_all
        have := H.paid c hc' hw' (by rw [(hset c).1.1]; exact hlc)
        rw [set_other f _ hck] at this
        exact this
    · intro c hc
      have : c = k ∨ c ∈ ws := by cases w <;> simp_all
      rcases this with rfl | h
      · simp
      · simp [H.sub c h]
    · have := H.len
      cases w <;> simp at this ⊢ <;> omega

/-! ### The whole -/

structure Inv (s : State) : Prop where
  fine : ∀ r ∈ s.queue, Fine r
  limit : ∀ c, 0 ≤ (s.channels c).limit ∧ (s.channels c).limit < 2147483648
  quota : ∀ c, 0 ≤ (s.channels c).quota
  sums : ∀ c, 0 ≤ (s.channels c).prioritySum
  queued : s.queued = open_ s.queue

theorem inv_init : Inv {} := ⟨by simp, by simp, by simp, by simp, rfl⟩

theorem granted_append (c : Nat) (a b : List Grant) : granted c (a ++ b) = granted c a + granted c b := by
  induction a with
  | nil => simp [granted]
  | cons g a ih => simp only [List.cons_append, granted, ih]; omega

theorem granted_reverse (c : Nat) (a : List Grant) : granted c a.reverse = granted c a := by
  induction a with
  | nil => rfl
  | cons g a ih => rw [List.reverse_cons, granted_append, ih]; simp only [granted]; omega

theorem granted_none (c : Nat) (rs : List Request) (h : ∀ r ∈ rs, r.assigned = 0 ∧ 0 ≤ r.size) : granted c (rs.map toGrant) = 0 := by
  induction rs with
  | nil => rfl
  | cons r rs ih =>
    simp only [List.map_cons, granted, ih (fun x hx => h x (by simp [hx]))]
    simp [toGrant, (h r (by simp)).1]

theorem answers_all (rs : List Request) (h : ∀ r ∈ rs, 0 ≤ r.assigned ∧ r.assigned ≤ r.size) : List.Forall₂ Answers (rs.map toGrant) (rs.map key) := by
  induction rs with
  | nil => exact .nil
  | cons r rs ih => exact .cons ⟨rfl, rfl, (h r (by simp)).1, (h r (by simp)).2⟩ (ih (fun x hx => h x (by simp [hx])))

theorem forall2_reverse {α β} {R : α → β → Prop} {a : List α} {b : List β} (h : List.Forall₂ R a b) : List.Forall₂ R a.reverse b.reverse := List.rel_reverse h

/-- What a step does to the invariant, to one limited channel and to the requests. -/
structure Stepped (s : State) (e : Ev) (s' : State) (gs : List Grant) : Prop where
  inv : Inv s'
  limit : ∀ c, (s'.channels c).limit = (s.channels c).limit ∨ ∃ l : Nat, e = .setLimit c l ∧ (s'.channels c).limit = l
  total : ∀ c, 0 < (s.channels c).limit → 1000 * (burst c s' + granted c gs) ≤ 1000 * burst c s + (s.channels c).limit * elapsed [e] + 500 * ticks [e]
  answered : s.aborted = false → ∃ qs, List.Forall₂ Answers gs qs ∧ (pending s ++ requests [e]).Perm (qs ++ pending s')

theorem tick_spec {s : State} (h : Inv s) (dt : Nat) (off : List Nat) : Stepped s (.tick dt off) (tick s dt off).1 (tick s dt off).2 := by
  have hmul : ∀ c, 0 < (s.channels c).limit → 0 ≤ (s.channels c).limit * (dt : Int) := fun c hc => Int.mul_nonneg (by omega) (by omega)
  unfold tick
  split
  · refine ⟨h, fun _ => .inl rfl, fun c hc => ?_, fun ha => ?_⟩
    · have := hmul c hc
      simp only [granted, elapsed, ticks, Int.add_zero]; omega
    · next h0 => rw [ha] at h0; cases h0
  split
  · refine ⟨h, fun _ => .inl rfl, fun c hc => ?_, fun _ => ⟨[], .nil, by simp [requests]⟩⟩
    have := hmul c hc
    simp only [granted, elapsed, ticks, Int.add_zero]; omega
  · generalize hd : (if dt > 3000 then (3000 : Int) else (dt : Int)) = d
    have hd0 : 0 ≤ d := by split at hd <;> omega
    have hd1 : d ≤ dt := by split at hd <;> omega
    have S := sift_spec off s.queue s.channels s.queued h.fine
    generalize sift off s.channels s.queued s.queue = o at S ⊢
    obtain ⟨f1, n1, q1, out1⟩ := o
    simp only at S ⊢
    have hprio : ∀ r ∈ q1, 1 ≤ r.priority := fun r hr => (S.fine r hr).priority
    have hs1 : ∀ c, 0 ≤ (f1 c).prioritySum := fun c => by
      rcases S.sums c with e | e
      · rw [e]; exact h.sums c
      · exact Int.le_of_eq e.symm
    have W := fun c => weigh_spec q1 f1 c hprio (hs1 c)
    generalize weigh f1 q1 = o at W ⊢
    obtain ⟨f2, ks⟩ := o
    simp only at W ⊢
    -- channels in use, and the others
    have hused : ∀ c, weight c q1 ≠ 0 → (f1 c).prioritySum = 0 := by
      intro c hc
      by_contra hx
      apply hc
      refine weight_zero (fun r hr hm => hx (S.used r hr c hm))
    have hin : ∀ c, weight c q1 ≠ 0 → updateAll f2 d ks c = (f2 c).update d := by
      intro c hc
      refine updateAll_one d ks f2 c ?_
      rw [(W c).2.2, if_pos ⟨hused c hc, hc⟩]
    have hout : ∀ c, weight c q1 = 0 → updateAll f2 d ks c = f2 c := by
      intro c hc
      refine updateAll_none d ks f2 c ?_
      rw [(W c).2.2, if_neg (by simp [hc])]
    have hlim : ∀ c, (f2 c).limit = (s.channels c).limit := fun c => (W c).1.1.trans (S.limit c)
    have hquo : ∀ c, 0 ≤ (f2 c).quota := fun c => by rw [(W c).1.2.1]; exact S.quota c (h.quota c)
    -- after the update
    have hupd : ∀ c, (updateAll f2 d ks c).limit = (s.channels c).limit ∧ 0 ≤ (updateAll f2 d ks c).quota ∧
        (updateAll f2 d ks c).prioritySum = (f1 c).prioritySum + weight c q1 ∧
        (weight c q1 ≠ 0 → 0 < (s.channels c).limit → (updateAll f2 d ks c).distribute = (updateAll f2 d ks c).quota ∧ (updateAll f2 d ks c).quota ≤ inf) ∧
        (0 < (s.channels c).limit → 1000 * (updateAll f2 d ks c).quota ≤ 1000 * (f1 c).quota + (s.channels c).limit * d + 500) := by
      intro c
      have hl := h.limit c
      by_cases hc : weight c q1 = 0
      · rw [hout c hc]
        refine ⟨hlim c, hquo c, (W c).2.1, fun hx => absurd hc hx, fun hp => ?_⟩
        have : 0 ≤ (s.channels c).limit * d := Int.mul_nonneg (by omega) hd0
        rw [(W c).1.2.1]; omega
      · rw [hin c hc]
        by_cases hz : (f2 c).limit = 0
        · have e : (f2 c).update d = f2 c := by unfold Channel.update; rw [if_pos hz]
          rw [e]
          have hz2 := hlim c
          refine ⟨hlim c, hquo c, (W c).2.1, fun _ hp => by omega, fun hp => by omega⟩
        · have hz2 := hlim c
          obtain ⟨u1, u2, u3, u4, u5, u6⟩ := update_spec (c := f2 c) (dt := d) (by omega) (by omega) (hquo c) hd0
          refine ⟨u5.trans (hlim c), u1, u6.trans (W c).2.1, fun _ _ => ⟨u4, u2⟩, fun _ => ?_⟩
          rw [← hz2, ← (W c).1.2.1]
          exact u3
    generalize updateAll f2 d ks = f3 at hupd ⊢
    have hready : Ready f3 q1 := by
      intro c ⟨r, hr, hc⟩
      have hw : weight c q1 ≠ 0 := by
        have h1 := weight_mem hprio hr hc
        have h2 := hprio r hr
        omega
      obtain ⟨u1, u2, u3, u4, _⟩ := hupd c
      by_cases hz : (f3 c).limit = 0
      · exact .inl hz
      · have hl := h.limit c
        obtain ⟨v1, v2⟩ := u4 hw (by omega)
        refine .inr ⟨by omega, by omega, ?_⟩
        have := hs1 c
        omega
    have D := distributeAll_spec d q1 f3 n1 S.fine hready
    generalize distributeAll d f3 n1 q1 = o at D ⊢
    obtain ⟨f4, n4, q4, out2⟩ := o
    simp only at D ⊢
    refine ⟨⟨D.fine, ?_, ?_, ?_, ?_⟩, fun c => .inl ((D.same c).1.trans (hupd c).1), ?_, ?_⟩
    · intro c
      simp only
      rw [(D.same c).1, (hupd c).1]
      exact h.limit c
    · intro c
      obtain ⟨u1, u2, u3, u4, _⟩ := hupd c
      simp only
      by_cases hz : (s.channels c).limit = 0
      · have e := D.zero c (by rw [u1]; exact hz)
        simp only at e
        rw [e]
        exact u2
      · refine D.quota c u2 (fun hw => ?_)
        have hl := h.limit c
        obtain ⟨v1, v2⟩ := u4 hw (by omega)
        refine ⟨by omega, ?_⟩
        rw [v1, u3, hused c hw, Int.zero_add, Int.mul_comm]
    · intro c
      simp only
      rw [(D.same c).2.1, (hupd c).2.2.1]
      have := weight_nonneg (c := c) hprio
      have := hs1 c
      omega
    · have h1 := S.count
      have h2 := D.count
      have h3 := h.queued
      simp only at h1 h2 ⊢
      omega
    · intro c hc
      have h1 := S.total c (by omega)
      have h2 := D.total c (by rw [(hupd c).1]; omega)
      have h3 := (hupd c).2.2.2.2 hc
      have hm : (s.channels c).limit * d ≤ (s.channels c).limit * (dt : Int) := Int.mul_le_mul_of_nonneg_left hd1 (by omega)
      rw [granted_reverse, List.map_append, granted_append, granted_none c out1 S.out]
      simp only [burst, elapsed, ticks, Int.add_zero]
      unfold aside at h1 h2
      simp only at h1 h2
      omega
    · intro _
      refine ⟨((out1 ++ out2).map key).reverse, ?_, ?_⟩
      · refine forall2_reverse (answers_all _ ?_)
        intro r hr
        rcases List.mem_append.mp hr with hr | hr
        · have := S.out r hr; omega
        · exact D.out r hr
      · have e : pending s ++ requests [Ev.tick dt off] = s.queue.map key := by simp [pending, requests, key]
        rw [e]
        refine S.perm.trans ?_
        rw [List.map_append, List.map_append]
        have p2 := D.perm
        rw [List.map_append] at p2
        refine (List.Perm.append_left _ p2).trans ?_
        rw [← List.append_assoc]
        exact List.Perm.append_right _ (List.reverse_perm _).symm

theorem request_spec {s : State} (h : Inv s) {u a p : Nat} {ks : List Nat} (hs : SaneEv (.request u a p ks)) :
    ∃ s' gs, request s u a p ks = .ok (s', gs) ∧ Stepped s (.request u a p ks) s' gs := by
  obtain ⟨a0, a1, p0, p1, hk⟩ := hs
  have ea : toInt32 (a : Int) = a := toInt32_of (by omega) (by omega)
  have ep : toInt32 (p : Int) = p := toInt32_of (by omega) (by omega)
  unfold request
  split
  · next ha =>
    refine ⟨_, _, rfl, h, fun _ => .inl rfl, fun c hc => ?_, fun hx => by rw [ha] at hx; cases hx⟩
    simp [granted, elapsed, ticks]
  · rw [ea, ep]
    have C := collect_spec (amount := (a : Int)) (by omega) ks s.channels (fun c => (h.limit c).1)
    generalize collect s.channels ks (a : Int) = o at C ⊢
    obtain ⟨f, ws⟩ := o
    simp only at C ⊢
    have hlen := C.len
    simp only at hlen
    rw [if_neg (by omega)]
    have hinv : ∀ c, (0 ≤ (f c).limit ∧ (f c).limit < 2147483648) ∧ 0 ≤ (f c).quota ∧ 0 ≤ (f c).prioritySum := by
      intro c
      obtain ⟨e1, e2, e3⟩ := C.same c
      simp only at e1 e2 e3
      rw [e1, e2]
      exact ⟨h.limit c, C.quota c (h.quota c), h.sums c⟩
    split
    · next hw =>
      refine ⟨_, _, rfl, ⟨h.fine, fun c => (hinv c).1, fun c => (hinv c).2.1, fun c => (hinv c).2.2, h.queued⟩, fun c => .inl (C.same c).1, fun c hc => ?_, fun _ => ⟨[(u, ks, (a : Int))], ?_, ?_⟩⟩
      · have h1 := C.less c
        have h2 := C.paid c
        subst hw
        simp only [burst, granted, elapsed, ticks, Int.mul_zero, Int.add_zero, List.not_mem_nil, not_false_eq_true, forall_const] at h1 h2 ⊢
        split
        · next hm => have := h2 hm (by omega); omega
        · omega
      · exact .cons ⟨rfl, rfl, by simp only; omega, by simp only; omega⟩ .nil
      · simp only [pending, requests, List.singleton_append]
        exact List.perm_append_comm
    · next hw =>
      refine ⟨_, _, rfl, ⟨?_, fun c => (hinv c).1, fun c => (hinv c).2.1, fun c => (hinv c).2.2, ?_⟩, fun c => .inl (C.same c).1, fun c hc => ?_, fun _ => ⟨[], .nil, ?_⟩⟩
      · intro r hr
        rcases List.mem_append.mp hr with hr | hr
        · exact h.fine r hr
        · rw [List.mem_singleton.mp hr]
          exact ⟨by simp only; omega, by simp only; omega, by simp only; omega, fun c hc => C.sub c hc⟩
      · have := h.queued
        simp [open_] at this ⊢; omega
      · have h1 := C.less c
        have h2 := C.paid c
        simp only [burst, granted, elapsed, ticks, Int.mul_zero, Int.add_zero, List.map_append, List.sum_append, List.map_cons, List.map_nil, List.sum_cons, List.sum_nil, setAside] at h1 h2 ⊢
        split
        · omega
        · next hn =>
          split
          · next hm => have := h2 hm hn (by omega); omega
          · omega
      · simp [pending, requests]

theorem close_spec {s : State} (h : Inv s) : Stepped s .close (close s).1 (close s).2 ∧ (close s).1.queue = [] := by
  unfold close
  refine ⟨⟨⟨by simp, h.limit, h.quota, h.sums, rfl⟩, fun _ => .inl rfl, fun c hc => ?_, fun _ => ⟨(s.queue.map key).reverse, ?_, ?_⟩⟩, rfl⟩
  · have : ∀ rs : List Request, (∀ r ∈ rs, Fine r) → granted c (rs.map toGrant) ≤ (rs.map (setAside c)).sum := by
      intro rs
      induction rs with
      | nil => intro _; simp [granted]
      | cons r rs ih =>
        intro hf
        have h1 := ih (fun x hx => hf x (by simp [hx]))
        have h2 := setAside_covers (c := c) (hf r (by simp))
        simp only [List.map_cons, granted, List.sum_cons, toGrant] at h1 h2 ⊢
        omega
    have := this s.queue h.fine
    rw [granted_reverse]
    simp only [burst, elapsed, ticks, List.map_nil, List.sum_nil]
    omega
  · refine forall2_reverse (answers_all _ (fun r hr => ⟨(h.fine r hr).assigned, (h.fine r hr).size⟩))
  · simp only [pending, requests, List.append_nil, List.map_nil]
    exact (List.reverse_perm _).symm

theorem step_spec {s : State} (h : Inv s) {e : Ev} (he : SaneEv e) : ∃ s' gs, step s e = .ok (s', gs) ∧ Stepped s e s' gs := by
  cases e with
  | setLimit k l =>
    have hl : (l : Int) < 2147483648 := by have : l < 2147483648 := he; omega
    have e : toInt32 (l : Int) = l := toInt32_of (by omega) hl
    have hf : ∀ c, ((s.channels.set k { s.channels k with limit := toInt32 l } c).quota = (s.channels c).quota) ∧
        ((s.channels.set k { s.channels k with limit := toInt32 l } c).prioritySum = (s.channels c).prioritySum) ∧
        (0 ≤ (s.channels.set k { s.channels k with limit := toInt32 l } c).limit ∧ (s.channels.set k { s.channels k with limit := toInt32 l } c).limit < 2147483648) := by
      intro c
      by_cases hc : c = k
      · subst hc
        rw [set_same, e]
        exact ⟨rfl, rfl, by simp only; omega, hl⟩
      · rw [set_other _ _ hc]
        exact ⟨rfl, rfl, h.limit c⟩
    refine ⟨_, _, rfl, ⟨h.fine, fun c => (hf c).2.2, fun c => by simp only; rw [(hf c).1]; exact h.quota c, fun c => by simp only; rw [(hf c).2.1]; exact h.sums c, h.queued⟩,
      fun c => ?_, fun c hc => ?_, fun _ => ⟨[], .nil, by simp [pending, requests]⟩⟩
    · by_cases hc : c = k
      · subst hc
        exact .inr ⟨l, rfl, by simp only [set_same, e]⟩
      · exact .inl (by simp only [set_other _ _ hc])
    simp only [burst, granted, elapsed, ticks]
    rw [(hf c).1]
    omega
  | request u a p ks => exact request_spec h he
  | tick dt off => exact ⟨_, _, rfl, tick_spec h dt off⟩
  | close => exact ⟨_, _, rfl, (close_spec h).1⟩

/-! ### Histories -/

structure Ran (s : State) (es : List Ev) (s' : State) (gs : List Grant) : Prop where
  inv : Inv s'
  total : ∀ c l, Keeps c l es → 0 < l → (s.channels c).limit = l → 1000 * (burst c s' + granted c gs) ≤ 1000 * burst c s + l * elapsed es + 500 * ticks es
  answered : s.aborted = false → .close ∉ es → s'.aborted = false ∧ ∃ qs, List.Forall₂ Answers gs qs ∧ (pending s ++ requests es).Perm (qs ++ pending s')

theorem elapsed_cons (e : Ev) (es : List Ev) : elapsed (e :: es) = elapsed [e] + elapsed es := by cases e <;> simp [elapsed]
theorem ticks_cons (e : Ev) (es : List Ev) : ticks (e :: es) = ticks [e] + ticks es := by cases e <;> simp [ticks]
theorem requests_cons (e : Ev) (es : List Ev) : requests (e :: es) = requests [e] ++ requests es := by cases e <;> simp [requests]

theorem step_aborted {s s' : State} {gs : List Grant} {e : Ev} (h : step s e = .ok (s', gs)) (he : e ≠ .close) : s'.aborted = s.aborted := by
  cases e with
  | setLimit k l => cases h; rfl
  | request u a p ks =>
    simp only [step, request] at h
    repeat' split at h
    all_goals cases h
    all_goals rfl
  | tick dt off =>
    have h : tick s dt off = (s', gs) := by simpa [step, pure, Res.ok.injEq] using h
    have e : s' = (tick s dt off).1 := by rw [h]
    rw [e]
    unfold tick
    repeat' split
    all_goals rfl
  | close => exact absurd rfl he

theorem run_spec (es : List Ev) : ∀ s, Inv s → Sane es → ∃ s' gs, run s es = .ok (s', gs) ∧ Ran s es s' gs := by
  induction es with
  | nil =>
    intro s h _
    refine ⟨s, [], rfl, h, fun c l _ _ _ => by simp [granted, elapsed, ticks], fun ha _ => ⟨ha, [], .nil, by simp [requests]⟩⟩
  | cons e es ih =>
    intro s h hs
    obtain ⟨s1, g1, e1, S⟩ := step_spec h (hs e (by simp))
    obtain ⟨s2, g2, e2, R⟩ := ih s1 S.inv (fun x hx => hs x (by simp [hx]))
    refine ⟨s2, g1 ++ g2, by simp [run, e1, e2, Res.bind_ok], R.inv, ?_, ?_⟩
    · intro c l hk hl hlim
      have h1 := S.total c (by omega)
      have hl1 : (s1.channels c).limit = l := by
        rcases S.limit c with h2 | ⟨m, rfl, h2⟩
        · rw [h2, hlim]
        · rw [h2, hk c m (by simp) rfl]
      have h2 := R.total c l (fun k m hm => hk k m (by simp [hm])) hl hl1
      rw [granted_append, elapsed_cons, ticks_cons, Int.mul_add (l : Int)]
      rw [hlim] at h1
      omega
    · intro ha hc
      have hne : e ≠ .close := fun hx => hc (by simp [hx])
      have ha1 := (step_aborted e1 hne).trans ha
      obtain ⟨q1, f1, p1⟩ := S.answered ha
      obtain ⟨ha2, q2, f2, p2⟩ := R.answered ha1 (fun hx => hc (by simp [hx]))
      refine ⟨ha2, q1 ++ q2, List.rel_append f1 f2, ?_⟩
      rw [requests_cons, ← List.append_assoc, List.append_assoc q1]
      refine (List.Perm.append_right _ p1).trans ?_
      rw [List.append_assoc]
      exact List.Perm.append_left _ p2

theorem burst_nonneg {s : State} (h : Inv s) (c : Nat) : 0 ≤ burst c s := by
  have h1 := h.quota c
  have h2 : ∀ rs : List Request, (∀ r ∈ rs, Fine r) → 0 ≤ (rs.map (setAside c)).sum := by
    intro rs
    induction rs with
    | nil => intro _; simp
    | cons r rs ih =>
      intro hf
      have h3 := ih (fun x hx => hf x (by simp [hx]))
      have h4 := setAside_nonneg (c := c) (hf r (by simp))
      simp only [List.map_cons, List.sum_cons]
      omega
  have := h2 s.queue h.fine
  unfold burst
  omega

theorem run_append {a b : List Ev} {s s1 s2 : State} {g1 g2 : List Grant} (h1 : run s a = .ok (s1, g1)) (h2 : run s1 b = .ok (s2, g2)) :
    run s (a ++ b) = .ok (s2, g1 ++ g2) := by
  induction a generalizing s g1 with
  | nil => cases h1; simpa using h2
  | cons e es ih =>
    simp only [run, List.cons_append] at h1 ⊢
    cases hs : step s e with
    | ok x =>
      obtain ⟨s', g⟩ := x
      rw [hs] at h1
      simp only [Res.bind_ok] at h1 ⊢
      cases hr : run s' es with
      | ok y =>
        obtain ⟨s'', g'⟩ := y
        rw [hr] at h1
        cases h1
        rw [ih hr]
        simp [Res.bind_ok, pure]
      | ub => rw [hr] at h1; cases h1
      | diverge => rw [hr] at h1; cases h1
    | ub => rw [hs] at h1; cases h1
    | diverge => rw [hs] at h1; cases h1

end Verif.Bandwidth
