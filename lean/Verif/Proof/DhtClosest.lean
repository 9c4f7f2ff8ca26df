import Verif.Proof.DhtTable

namespace Verif.Dht
open Verif Net Spec

theorem mem_order {s i : Nat} : i ∈ order s ↔ (1 ≤ i ∧ i ≤ s) ∨ (s < i ∧ i < 160) := by
  unfold order
  rw [List.mem_append, List.mem_map, List.mem_range'_1]
  constructor
  · rintro (⟨a, ha, rfl⟩ | h)
    · rw [List.mem_reverse, List.mem_range] at ha; omega
    · omega
  · rintro (h | h)
    · exact .inl ⟨i - 1, by rw [List.mem_reverse, List.mem_range]; omega, by omega⟩
    · exact .inr (by omega)

/-- The order visits no bucket twice and goes from near to far (seen from the target). -/
theorem order_pairwise (s : Nat) : (order s).Pairwise fun i j => i ≠ j ∧ max i s ≤ max j s ∧ j ≠ s := by
  unfold order
  rw [List.pairwise_append]
  refine ⟨?_, ?_, ?_⟩
  · rw [List.pairwise_map, List.pairwise_reverse]
    have : (List.range s).Pairwise fun a b => a < b ∧ b < s := by
      refine (List.pairwise_lt_range).imp_of_mem ?_
      intro a b _ hb h
      exact ⟨h, List.mem_range.mp hb⟩
    exact this.imp (by omega)
  · refine (List.pairwise_lt_range' (s := s + 1)).imp_of_mem ?_
    intro a b ha hb h
    rw [List.mem_range'_1] at ha hb
    omega
  · intro i hi j hj
    rw [List.mem_map] at hi
    obtain ⟨a, ha, rfl⟩ := hi
    rw [List.mem_reverse, List.mem_range] at ha
    rw [List.mem_range'_1] at hj
    omega

theorem mem_live {t : Table} {i : Nat} {n : TNode} : n ∈ live t i ↔ ∃ b, t[i]? = some b ∧ n ∈ b.nodes := by
  unfold live
  cases h : t[i]? <;> simp

theorem live_bucket {me : Id} {t : Table} (h : GoodTable me t) {i : Nat} {n : TNode} (hn : n ∈ live t i) : bucketId me n.info.id = i := by
  obtain ⟨b, hb, hnb⟩ := mem_live.mp hn
  exact (h.2 i b hb).2.2.2 _ (by simp only [bucketIds, List.map_append, List.mem_append, List.mem_map]; exact .inl ⟨n, hnb, rfl⟩)

/-- All visited nodes in order. -/
def visited (me : Id) (t : Table) (id : Id) : List TNode := (order (bucketId me id)).flatMap (live t)

theorem visited_nodup {me : Id} {t : Table} (h : GoodTable me t) (id : Id) : ((visited me t id).map (·.info.id)).Nodup := by
  unfold visited List.Nodup
  rw [List.pairwise_map, List.pairwise_flatMap]
  refine ⟨?_, ?_⟩
  · intro i _
    unfold live
    cases hb : t[i]? with
    | none => simp
    | some b =>
      have := (h.2 i b hb).2.2.1
      unfold bucketIds at this
      rw [List.map_append] at this
      have := (List.nodup_append.mp this).1
      unfold List.Nodup at this
      rw [List.pairwise_map] at this
      exact this
  · refine (order_pairwise _).imp ?_
    intro i j hij x hx y hy he
    have h1 := live_bucket h hx
    have h2 := live_bucket h hy
    rw [he] at h1
    exact hij.1 (h1.symm.trans h2)

theorem family_sublist (v : Bool) (ns : List TNode) : (family v ns).Sublist (ns.map (·.info)) := List.filter_sublist.map _

theorem family_filter (me : Id) (t : Table) (id : Id) (v : Bool) :
    (getClosestNodes me t id).filter (·.addr.ipv6 == v) = (family v (visited me t id)).take 8 := by
  rw [getClosestNodes_eq, collect_family _ _ (by intro v; cases v <;> rfl)]
  cases v <;> rfl

/-- From near to far, except that the nodes of the target's own bucket come in any order. -/
theorem visited_sorted {me : Id} {t : Table} (h : GoodTable me t) (id : Id) (hm : me.length = 20) (hid : id.length = 20)
    (hl : ∀ b ∈ t, ∀ n ∈ b.nodes, n.info.id.length = 20) :
    (visited me t id).Pairwise fun x y => lg x.info.id id ≤ lg y.info.id id ∨ bucketId me y.info.id = bucketId me id := by
  unfold visited
  rw [List.pairwise_flatMap]
  have len : ∀ {i : Nat} {x : TNode}, x ∈ live t i → x.info.id.length = 20 := by
    intro i x hx
    obtain ⟨b, hb, hxb⟩ := mem_live.mp hx
    exact hl b (List.mem_of_getElem? hb) x hxb
  have far : ∀ {i : Nat} {x : TNode}, x ∈ live t i → i ≠ bucketId me id → lg x.info.id id = max i (bucketId me id) := by
    intro i x hx hi
    have hb := live_bucket h hx
    rw [bucketId_lg me _ hm (len hx)] at hb
    rw [bucketId_lg me id hm hid] at hi ⊢
    rw [lg_ne me _ id (by rw [hb]; exact hi), hb]
  refine ⟨?_, ?_⟩
  · intro i _
    refine List.pairwise_of_forall_mem_list ?_
    intro x hx y hy
    by_cases hi : i = bucketId me id
    · right; rw [live_bucket h hy, hi]
    · left; rw [far hx hi, far hy hi]; exact Nat.le_refl _
  · refine (order_pairwise _).imp ?_
    intro i j hij x hx y hy
    left
    rw [far hy hij.2.2]
    by_cases hi : i = bucketId me id
    · have hb := live_bucket h hx
      rw [hi, bucketId_lg me _ hm (len hx), bucketId_lg me id hm hid] at hb
      have := lg_eq me x.info.id id hb
      rw [bucketId_lg me id hm hid]
      exact Nat.le_trans this (Nat.le_max_right _ _)
    · rw [far hx hi]; exact hij.2.1

/-- The nodes of the target's own bucket come first. -/
theorem visited_split {me : Id} {t : Table} (h : GoodTable me t) (id : Id) :
    ∃ near far, visited me t id = near ++ far ∧ near.length ≤ 8 ∧ ∀ n ∈ far, bucketId me n.info.id ≠ bucketId me id := by
  by_cases h0 : bucketId me id = 0
  · refine ⟨[], visited me t id, rfl, by simp, ?_⟩
    intro n hn
    unfold visited at hn
    obtain ⟨i, hi, hn⟩ := List.mem_flatMap.mp hn
    rw [live_bucket h hn]
    have := mem_order.mp hi
    omega
  · obtain ⟨k, hk⟩ : ∃ k, bucketId me id = k + 1 := ⟨bucketId me id - 1, by omega⟩
    have ho : ∃ r, order (k + 1) = (k + 1) :: r := by
      unfold order
      rw [List.range_succ, List.reverse_append, List.reverse_singleton, List.singleton_append, List.map_cons]
      exact ⟨_, rfl⟩
    obtain ⟨r, hr⟩ := ho
    refine ⟨live t (k + 1), r.flatMap (live t), by unfold visited; rw [hk, hr, List.flatMap_cons], ?_, ?_⟩
    · unfold live
      cases hb : t[k + 1]? with
      | none => simp
      | some b => exact (h.2 _ b hb).1
    · intro n hn
      obtain ⟨i, hi, hn⟩ := List.mem_flatMap.mp hn
      rw [live_bucket h hn, hk]
      have := order_pairwise (k + 1)
      rw [hr, List.pairwise_cons] at this
      exact (this.1 i hi).2.2

/-- A list cut after eight: pairs across the cut are in order. -/
theorem pairwise_cut {α : Type} {R : α → α → Prop} {l : List α} (h : l.Pairwise R) (k : Nat) :
    ∀ x ∈ l.take k, ∀ y ∈ l.drop k, R x y := by
  rw [← List.take_append_drop k l, List.pairwise_append] at h
  exact h.2.2

theorem closest_best {me : Id} {t : Table} (h : GoodTable me t) (id : Id) (hm : me.length = 20) (hid : id.length = 20)
    (hl : ∀ b ∈ t, ∀ n ∈ b.nodes, n.info.id.length = 20) (n : TNode) (hn : n ∈ visited me t id) (ha : n.active = true)
    (hout : n.info ∉ getClosestNodes me t id) :
    ((getClosestNodes me t id).filter (·.addr.ipv6 == n.info.addr.ipv6)).length = 8 ∧
    ∀ x ∈ getClosestNodes me t id, x.addr.ipv6 = n.info.addr.ipv6 → lg x.id id ≤ lg n.info.id id := by
  have hf := family_filter me t id n.info.addr.ipv6
  have hmem : n.info ∈ family n.info.addr.ipv6 (visited me t id) := by
    unfold family
    exact List.mem_map.mpr ⟨n, List.mem_filter.mpr ⟨hn, by simp [ha]⟩, rfl⟩
  have hnt : n.info ∉ (family n.info.addr.ipv6 (visited me t id)).take 8 := by
    rw [← hf, List.mem_filter]; intro hc; exact hout hc.1
  have hnd : n.info ∈ (family n.info.addr.ipv6 (visited me t id)).drop 8 := by
    rw [← List.take_append_drop 8 (family _ _), List.mem_append] at hmem
    exact hmem.resolve_left hnt
  have hlen : 8 < (family n.info.addr.ipv6 (visited me t id)).length := by
    have := List.length_pos_of_mem hnd
    rw [List.length_drop] at this; omega
  refine ⟨by rw [hf, List.length_take]; omega, ?_⟩
  intro x hx hv
  have hxt : x ∈ (family n.info.addr.ipv6 (visited me t id)).take 8 := by
    rw [← hf, List.mem_filter]; exact ⟨hx, by simp [hv]⟩
  have hs : (family n.info.addr.ipv6 (visited me t id)).Pairwise fun x y => lg x.id id ≤ lg y.id id ∨ bucketId me y.id = bucketId me id := by
    have := visited_sorted h id hm hid hl
    have h2 : ((visited me t id).map (·.info)).Pairwise fun x y => lg x.id id ≤ lg y.id id ∨ bucketId me y.id = bucketId me id := by
      rw [List.pairwise_map]; exact this
    exact h2.sublist (family_sublist _ _)
  rcases pairwise_cut hs 8 x hxt n.info hnd with hr | hr
  · exact hr
  · exfalso
    obtain ⟨near, far, he, hn8, hfar⟩ := visited_split h id
    have : family n.info.addr.ipv6 (visited me t id) = family n.info.addr.ipv6 near ++ family n.info.addr.ipv6 far := by
      rw [he]; unfold family; rw [List.filter_append, List.map_append]
    rw [this, List.drop_append] at hnd
    have hfl : (family n.info.addr.ipv6 near).length ≤ 8 := by
      have := (family_sublist n.info.addr.ipv6 near).length_le
      rw [List.length_map] at this; omega
    rw [List.drop_eq_nil_of_le hfl, List.nil_append] at hnd
    have := List.mem_of_mem_drop hnd
    have := (family_sublist _ _).subset this
    obtain ⟨m, hmf, hmi⟩ := List.mem_map.mp this
    exact hfar m hmf (by rw [hmi]; exact hr)

end Verif.Dht
