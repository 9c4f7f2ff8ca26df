import Verif.Spec.DhtTable
import Verif.Proof.Addr
import Verif.Proof.Bencode

namespace Verif.Dht
open Verif Net Spec

theorem updateFirst_some {id : Id} {f : TNode → TNode} (hf : ∀ n, (f n).info = n.info) :
    ∀ {l l' : List TNode}, updateFirst id f l = some l' → l'.map (·.info) = l.map (·.info) ∧ ∃ n ∈ l', n.info.id = id
  | [], l', h => by simp [updateFirst] at h
  | n :: ns, l', h => by
    unfold updateFirst at h
    split at h
    · rename_i hn
      injection h with h; subst h
      exact ⟨by simp [hf], f n, by simp, by rw [hf, hn]⟩
    · cases hu : updateFirst id f ns with
      | none => simp [hu] at h
      | some r =>
        simp only [hu, Option.map_some, Option.some.injEq] at h
        subst h
        obtain ⟨h1, m, hm, hi⟩ := updateFirst_some hf hu
        exact ⟨by simp [h1], m, by simp [hm], hi⟩

theorem updateFirst_none {id : Id} {f : TNode → TNode} :
    ∀ {l : List TNode}, updateFirst id f l = none → ∀ n ∈ l, n.info.id ≠ id
  | [], _ => by simp
  | n :: ns, h => by
    unfold updateFirst at h
    split at h
    · simp at h
    · rename_i hn
      have : updateFirst id f ns = none := by simpa using h
      intro m hm
      rcases List.mem_cons.mp hm with rfl | hm
      · exact hn
      · exact updateFirst_none this m hm

theorem map_id_of_info {l l' : List TNode} (h : l'.map (·.info) = l.map (·.info)) : l'.map (·.info.id) = l.map (·.info.id) := by
  have := congrArg (List.map NodeInfo.id) h
  rw [List.map_map, List.map_map] at this
  exact this

theorem ids_eq {b b' : Bucket} (h1 : b'.nodes.map (·.info) = b.nodes.map (·.info)) (h2 : b'.cache.map (·.info) = b.cache.map (·.info)) :
    bucketIds b' = bucketIds b := by
  unfold bucketIds
  rw [List.map_append, List.map_append, map_id_of_info h1, map_id_of_info h2]

theorem nodup_snoc {l : List Id} {a : Id} (h : l.Nodup) (ha : a ∉ l) : (l ++ [a]).Nodup := by
  rw [List.nodup_append]
  refine ⟨h, by simp, ?_⟩
  intro x hx y hy
  rw [List.mem_singleton.mp hy]
  rintro rfl
  exact ha hx

theorem bucketResponded_spec (me : Id) (time : Nat) (node : NodeInfo) (b : Bucket) (h : GoodBucket me (bucketId me node.id) b) :
    GoodBucket me (bucketId me node.id) (bucketResponded time node b) ∧ node.id ∈ bucketIds (bucketResponded time node b) := by
  obtain ⟨h1, h2, h3, h4⟩ := h
  unfold bucketResponded
  split
  · rename_i ns hu
    obtain ⟨e, n, hn, hi⟩ := updateFirst_some (by simp) hu
    have el : ns.length = b.nodes.length := by simpa using congrArg List.length e
    have := ids_eq (b := b) (b' := { b with nodes := ns, lastupdate := time }) e rfl
    refine ⟨⟨by simp only; omega, h2, by rw [this]; exact h3, by rw [this]; exact h4⟩, ?_⟩
    simp only [bucketIds, List.map_append, List.mem_append, List.mem_map]
    exact .inl ⟨n, hn, hi⟩
  · rename_i hu1
    split
    · rename_i ns hu
      obtain ⟨e, n, hn, hi⟩ := updateFirst_some (by simp) hu
      have el : ns.length = b.cache.length := by simpa using congrArg List.length e
      have := ids_eq (b := b) (b' := { b with cache := ns, lastcacheupdate := time }) rfl e
      refine ⟨⟨h1, by simp only; omega, by rw [this]; exact h3, by rw [this]; exact h4⟩, ?_⟩
      simp only [bucketIds, List.map_append, List.mem_append, List.mem_map]
      exact .inr ⟨n, hn, hi⟩
    · rename_i hu2
      have k1 := updateFirst_none hu1
      have k2 := updateFirst_none hu2
      have hnew : node.id ∉ bucketIds b := by
        simp only [bucketIds, List.map_append, List.mem_append, List.mem_map]
        rintro (⟨n, hn, hi⟩ | ⟨n, hn, hi⟩)
        · exact k1 n hn hi
        · exact k2 n hn hi
      simp only
      split
      · have hp : (bucketIds { b with nodes := b.nodes ++ [{ info := node, lastupdate := time }], lastupdate := time }).Perm
            (bucketIds b ++ [node.id]) := by
          simp only [bucketIds, List.map_append, List.map_cons, List.map_nil, List.append_assoc]
          exact List.Perm.append_left _ List.perm_append_comm
        refine ⟨⟨by simp only [List.length_append, List.length_singleton]; omega, h2, ?_, ?_⟩, ?_⟩
        · exact hp.nodup_iff.mpr (nodup_snoc h3 hnew)
        · intro id hid
          rcases List.mem_append.mp (hp.mem_iff.mp hid) with hi | hi
          · exact h4 id hi
          · rw [List.mem_singleton.mp hi]
        · exact hp.mem_iff.mpr (by simp)
      · split
        · have hp : bucketIds { b with cache := b.cache ++ [{ info := node, lastupdate := time, active := false }], lastcacheupdate := time } =
              bucketIds b ++ [node.id] := by simp [bucketIds]
          refine ⟨⟨h1, by simp only [List.length_append, List.length_singleton]; omega, ?_, ?_⟩, ?_⟩
          · rw [hp]; exact nodup_snoc h3 hnew
          · rw [hp]; intro id hid
            rcases List.mem_append.mp hid with hi | hi
            · exact h4 id hi
            · rw [List.mem_singleton.mp hi]
          · rw [hp]; simp
        · have hp : bucketIds { b with cache := b.cache.dropLast ++ [{ info := node, lastupdate := time, active := false }], lastcacheupdate := time } =
              ((b.nodes ++ b.cache.dropLast).map (·.info.id)) ++ [node.id] := by simp [bucketIds]
          have hs : ((b.nodes ++ b.cache.dropLast).map (·.info.id)).Sublist (bucketIds b) :=
            (List.Sublist.append_left (List.dropLast_sublist _) _).map _
          refine ⟨⟨h1, by simp only [List.length_append, List.length_singleton, List.length_dropLast]; omega, ?_, ?_⟩, ?_⟩
          · rw [hp]; exact nodup_snoc (h3.sublist hs) (fun hc => hnew (hs.subset hc))
          · rw [hp]; intro id hid
            rcases List.mem_append.mp hid with hi | hi
            · exact h4 id (hs.subset hi)
            · rw [List.mem_singleton.mp hi]
          · rw [hp]; simp

theorem notResponded_spec (time : Nat) (id : Id) (b : Bucket) : ∀ (before rest : List TNode) (i : Nat), b.nodes = before ++ rest →
    ∃ gone, (bucketIds b).Perm (gone ++ bucketIds (notRespondedLoop time id b before rest i)) ∧
      (notRespondedLoop time id b before rest i).nodes.length ≤ b.nodes.length ∧
      (notRespondedLoop time id b before rest i).cache.length ≤ b.cache.length
  | before, [], i, _ => ⟨[], by unfold notRespondedLoop; simp⟩
  | before, n :: ns, i, hb => by
    unfold notRespondedLoop
    split
    · obtain ⟨m, hm, hi⟩ : ∃ m : TNode, (if n.active then { n with active := false, lastupdate := time } else n) = m ∧ m.info = n.info :=
        ⟨_, rfl, by split <;> rfl⟩
      simp only [hm]
      generalize (if i > 5 then 0 else 15 * 60) = off
      by_cases hl : b.lastupdate > m.lastupdate + off
      · rw [if_pos hl]
        cases hc : b.cache with
        | nil =>
          refine ⟨[n.info.id], ?_, ?_, ?_⟩
          · simp only [bucketIds, hb, hc, List.append_nil, List.map_append, List.map_cons, List.singleton_append]
            exact List.perm_middle
          · simp only [hb, List.length_append, List.length_cons]; omega
          · simp [hc]
        | cons c cs =>
          refine ⟨[n.info.id], ?_, ?_, ?_⟩
          · simp only [bucketIds, hb, hc, List.map_append, List.map_cons, List.map_nil, List.singleton_append, List.append_assoc,
              List.cons_append, List.nil_append]
            exact List.perm_middle
          · simp only [hb, List.length_append, List.length_cons, List.length_nil]; omega
          · simp
      · rw [if_neg hl]
        refine ⟨[], ?_, ?_, ?_⟩
        · rw [List.nil_append]
          simp only [bucketIds, hb, List.map_append, List.map_cons, hi]
          exact List.Perm.refl _
        · simp only [hb, List.length_append, List.length_cons]; omega
        · simp
    · exact notResponded_spec time id b (before ++ [n]) ns (i + 1) (by simp [hb])

theorem notResponded_inactive (time : Nat) (id : Id) (b : Bucket) : ∀ (before rest : List TNode) (i : Nat),
    (∀ n ∈ before, n.info.id ≠ id) → (((before ++ rest) ++ b.cache).map (·.info.id)).Nodup → b.nodes = before ++ rest →
    ∀ n ∈ (notRespondedLoop time id b before rest i).nodes, n.info.id = id → n.active = false := by
  intro before rest
  induction rest generalizing before with
  | nil =>
    intro i hb _ hn n hm hid
    unfold notRespondedLoop at hm
    rw [hn, List.append_nil] at hm
    exact absurd hid (hb n hm)
  | cons a as ih =>
    intro i hb hnd hn n hm hid
    unfold notRespondedLoop at hm
    by_cases ha : a.info.id = id
    · rw [if_pos ha] at hm
      have hrest : ∀ m ∈ as ++ b.cache, m.info.id ≠ id := by
        rw [List.append_assoc, List.map_append, List.cons_append, List.map_cons, List.nodup_append, List.nodup_cons] at hnd
        intro m hm hc
        exact hnd.2.1.1 (List.mem_map.mpr ⟨m, hm, hc.trans ha.symm⟩)
      have has : ∀ m ∈ as, m.info.id ≠ id := fun m hm => hrest m (by simp [hm])
      obtain ⟨m, hme, hmi⟩ : ∃ m : TNode, (if a.active then { a with active := false, lastupdate := time } else a) = m ∧ m.active = false :=
        ⟨_, rfl, by split <;> simp_all⟩
      simp only [hme] at hm
      generalize (if i > 5 then 0 else 15 * 60) = off at hm
      by_cases hl : b.lastupdate > m.lastupdate + off
      · rw [if_pos hl] at hm
        cases hc : b.cache with
        | nil =>
          rw [hc] at hm
          rcases List.mem_append.mp hm with h' | h'
          · exact absurd hid (hb n h')
          · exact absurd hid (has n h')
        | cons c cs =>
          rw [hc] at hm
          rcases List.mem_append.mp hm with h' | h'
          · rcases List.mem_append.mp h' with h' | h'
            · exact absurd hid (hb n h')
            · exact absurd hid (has n h')
          · rw [List.mem_singleton.mp h'] at hid
            exact absurd hid (hrest c (by simp [hc]))
      · rw [if_neg hl] at hm
        rcases List.mem_append.mp hm with h' | h'
        · exact absurd hid (hb n h')
        · rcases List.mem_cons.mp h' with h' | h'
          · rw [h']; exact hmi
          · exact absurd hid (has n h')
    · rw [if_neg ha] at hm
      refine ih (before ++ [a]) (i + 1) ?_ (by simpa using hnd) (by simp [hn]) n hm hid
      intro x hx
      rcases List.mem_append.mp hx with hx | hx
      · exact hb x hx
      · rw [List.mem_singleton.mp hx]; exact ha

theorem good_modify {me : Id} {t : Table} {k : Nat} {f : Bucket → Bucket} (h : GoodTable me t)
    (hf : ∀ b, GoodBucket me k b → GoodBucket me k (f b)) : GoodTable me (t.modify k f) := by
  refine ⟨by rw [List.length_modify]; exact h.1, ?_⟩
  intro j b hj
  rw [List.getElem?_modify] at hj
  by_cases e : k = j
  · subst e
    simp only [if_true] at hj
    cases hb : t[k]? with
    | none => simp [hb] at hj
    | some b0 =>
      simp [hb] at hj
      subst hj
      exact hf b0 (h.2 k b0 hb)
  · simp only [if_neg e, Option.map_id_fun', id] at hj
    exact h.2 j b (by simpa using hj)

theorem good_responded {me : Id} {t : Table} (time : Nat) (node : NodeInfo) (h : GoodTable me t) :
    GoodTable me (nodeResponded me time node t) :=
  good_modify h fun b hb => (bucketResponded_spec me time node b hb).1

theorem good_notResponded {me : Id} {t : Table} (time : Nat) (node : NodeInfo) (h : GoodTable me t) :
    GoodTable me (nodeNotResponded me time node t) := by
  refine good_modify h fun b ⟨h1, h2, h3, h4⟩ => ?_
  obtain ⟨gone, hp, hn, hc⟩ := notResponded_spec time node.id b [] b.nodes 0 rfl
  have hs := List.sublist_append_right gone (bucketIds (notRespondedLoop time node.id b [] b.nodes 0))
  exact ⟨Nat.le_trans hn h1, Nat.le_trans hc h2, (hp.nodup_iff.mp h3).sublist hs,
    fun id hid => h4 id (hp.mem_iff.mpr (hs.subset hid))⟩

theorem good_run {me : Id} : ∀ (ops : List TOp) {t : Table}, GoodTable me t → GoodTable me (runTable me t ops)
  | [], _, h => h
  | .responded n time :: ops, _, h => good_run ops (good_responded time n h)
  | .notResponded n time :: ops, _, h => good_run ops (good_notResponded time n h)

theorem good_empty (me : Id) : GoodTable me Table.empty := by
  refine ⟨by simp [Table.empty], ?_⟩
  intro k b hb
  have : b = {} := List.eq_of_mem_replicate (List.mem_of_getElem? hb)
  subst this
  exact ⟨by simp, by simp, by simp [bucketIds], by simp [bucketIds]⟩

theorem bucketId_lt (me id : Id) (hm : me.length = 20) (hi : id.length = 20) : bucketId me id < 160 := by
  unfold bucketId
  rw [length_log2]
  have := beVal_lt (distance me id)
  rw [distance_length me id hm hi] at this
  by_cases h0 : beVal (distance me id) = 0
  · rw [h0]; decide
  · exact (Nat.log2_lt h0).mpr (Nat.lt_of_lt_of_le this (by decide))

/-! ### Closest nodes -/

theorem collect_append (c : Closest) (a b : List TNode) : collect c (a ++ b) = collect (collect c a) b := by
  induction a generalizing c with
  | nil => rfl
  | cons n a ih =>
    simp only [List.cons_append, collect]
    split
    · split <;> exact ih _
    · exact ih _

theorem collect_full (c : Closest) (a : List TNode) (h : ¬ c.out.length < 16) : collect c a = c := by
  induction a with
  | nil => rfl
  | cons n a ih => simp [collect, h, ih]

/-- The nodes of bucket `i`. -/
def live (t : Table) (i : Nat) : List TNode := (t[i]?).elim [] (·.nodes)

/-- The bucket order of `getClosestNodes`. -/
def order (s : Nat) : List Nat := ((List.range s).reverse.map (· + 1)) ++ List.range' (s + 1) (160 - (s + 1))

theorem closestDown_eq (t : Table) (s : Nat) (c : Closest) :
    closestDown t s c = collect c (((List.range s).reverse.map (· + 1)).flatMap (live t)) := by
  induction s generalizing c with
  | zero => rfl
  | succ s ih =>
    rw [List.range_succ, List.reverse_append, List.reverse_singleton, List.singleton_append, List.map_cons, List.flatMap_cons,
      collect_append]
    unfold closestDown
    split
    · rw [ih]; rfl
    · rename_i h; rw [collect_full _ _ h, collect_full _ _ h]

theorem closestUp_eq (t : Table) (n i : Nat) (c : Closest) : closestUp t n i c = collect c ((List.range' i n).flatMap (live t)) := by
  induction n generalizing i c with
  | zero => rfl
  | succ n ih =>
    rw [List.range'_succ, List.flatMap_cons, collect_append]
    unfold closestUp
    split
    · rw [ih]; rfl
    · rename_i h; rw [collect_full _ _ h, collect_full _ _ h]

theorem getClosestNodes_eq (me : Id) (t : Table) (id : Id) :
    getClosestNodes me t id = (collect {} ((order (bucketId me id)).flatMap (live t))).out := by
  unfold getClosestNodes order
  simp only
  rw [List.flatMap_append, collect_append, closestUp_eq, closestDown_eq]

/-- The active nodes of one family, in order. -/
def family (v6 : Bool) (ns : List TNode) : List NodeInfo := (ns.filter fun n => n.active && n.info.addr.ipv6 == v6).map (·.info)

def cnt (c : Closest) (v6 : Bool) : Nat := if v6 then c.v6 else c.v4

theorem collect_family (c : Closest) (ns : List TNode)
    (h : ∀ v6, (c.out.filter (·.addr.ipv6 == v6)).length = min (cnt c v6) 8) (v6 : Bool) :
    (collect c ns).out.filter (·.addr.ipv6 == v6) = c.out.filter (·.addr.ipv6 == v6) ++ (family v6 ns).take (8 - cnt c v6) := by
  have hlen : ∀ l : List NodeInfo, l.length = (l.filter (·.addr.ipv6 == true)).length + (l.filter (·.addr.ipv6 == false)).length := by
    intro l
    induction l with
    | nil => rfl
    | cons a l ih => cases hb : a.addr.ipv6 <;> simp_all <;> omega
  induction ns generalizing c with
  | nil => simp [collect, family]
  | cons n ns ih =>
    have ht := h true
    have hf := h false
    have hl := hlen c.out
    simp only [cnt, if_true, Bool.false_eq_true, if_false] at ht hf
    unfold collect
    by_cases ha : n.active = true
    · by_cases hfull : c.out.length < 16
      · rw [if_pos (by simp [ha, hfull])]
        by_cases h6 : n.info.addr.ipv6 = true
        · rw [if_pos h6]
          by_cases h8 : c.v6 < 8
          · rw [if_pos h8, ih]
            · cases v6
              · simp [List.filter_append, h6, cnt, family, ha]
              · obtain ⟨k, hk⟩ : ∃ k, 8 - c.v6 = k + 1 := ⟨7 - c.v6, by omega⟩
                have hk' : 8 - (c.v6 + 1) = k := by omega
                simp [List.filter_append, h6, cnt, family, ha, hk, hk']
            · intro v; cases v
              · simp only [cnt, Bool.false_eq_true, if_false]
                rw [← hf]; simp [List.filter_append, h6]
              · simp only [cnt, if_true]
                rw [List.filter_append, List.length_append, ht]; simp [h6]; omega
          · rw [if_neg h8, ih]
            · cases v6
              · simp [h6, cnt, family, ha]
              · have e1 : 8 - c.v6 = 0 := by omega
                have e2 : 8 - (c.v6 + 1) = 0 := by omega
                simp [cnt, e1, e2]
            · intro v; cases v
              · simp only [cnt, Bool.false_eq_true, if_false]; exact hf
              · simp only [cnt, if_true]; rw [ht]; omega
        · rw [if_neg h6]
          have h6 : n.info.addr.ipv6 = false := by simpa using h6
          by_cases h8 : c.v4 < 8
          · rw [if_pos h8, ih]
            · cases v6
              · obtain ⟨k, hk⟩ : ∃ k, 8 - c.v4 = k + 1 := ⟨7 - c.v4, by omega⟩
                have hk' : 8 - (c.v4 + 1) = k := by omega
                simp [List.filter_append, h6, cnt, family, ha, hk, hk']
              · simp [List.filter_append, h6, cnt, family, ha]
            · intro v; cases v
              · simp only [cnt, Bool.false_eq_true, if_false]
                rw [List.filter_append, List.length_append, hf]; simp [h6]; omega
              · simp only [cnt, if_true]
                rw [← ht]; simp [List.filter_append, h6]
          · rw [if_neg h8, ih]
            · cases v6
              · have e1 : 8 - c.v4 = 0 := by omega
                have e2 : 8 - (c.v4 + 1) = 0 := by omega
                simp [cnt, e1, e2]
              · simp [h6, cnt, family, ha]
            · intro v; cases v
              · simp only [cnt, Bool.false_eq_true, if_false]; rw [hf]; omega
              · simp only [cnt, if_true]; exact ht
      · rw [if_neg (by simp [hfull]), collect_full _ _ hfull]
        have : 8 - cnt c v6 = 0 := by cases v6 <;> simp [cnt] <;> omega
        simp [this]
    · have ha : n.active = false := by simpa using ha
      rw [if_neg (by simp [ha]), ih c h]
      simp [family, ha]

theorem collect_sublist (c : Closest) (ns : List TNode) :
    ∃ r, (collect c ns).out = c.out ++ r ∧ r.Sublist ((ns.filter (·.active)).map (·.info)) := by
  induction ns generalizing c with
  | nil => exact ⟨[], by simp [collect], by simp⟩
  | cons n ns ih =>
    unfold collect
    split
    · rename_i ha
      have ha : n.active = true := by simp_all
      have drop : ∀ (c' : Closest), c'.out = c.out → ∃ r, (collect c' ns).out = c.out ++ r ∧ r.Sublist (((n :: ns).filter (·.active)).map (·.info)) := by
        intro c' hc
        obtain ⟨r, h1, h2⟩ := ih c'
        exact ⟨r, by rw [h1, hc], by simpa [ha] using h2.trans (List.sublist_cons_self n.info _)⟩
      have push : ∀ (c' : Closest), c'.out = c.out ++ [n.info] → ∃ r, (collect c' ns).out = c.out ++ r ∧ r.Sublist (((n :: ns).filter (·.active)).map (·.info)) := by
        intro c' hc
        obtain ⟨r, h1, h2⟩ := ih c'
        exact ⟨n.info :: r, by rw [h1, hc]; simp, by simpa [ha] using h2⟩
      split
      · by_cases h : c.v6 < 8
        · rw [if_pos h]; exact push _ rfl
        · rw [if_neg h]; exact drop _ rfl
      · by_cases h : c.v4 < 8
        · rw [if_pos h]; exact push _ rfl
        · rw [if_neg h]; exact drop _ rfl
    · obtain ⟨r, h1, h2⟩ := ih c
      refine ⟨r, h1, h2.trans ?_⟩
      exact (List.Sublist.filter _ (List.sublist_cons_self n ns)).map _

/-! ### Logarithms of exclusive ors -/

theorem log2_xor_lt {a b : Nat} (h : a.log2 < b.log2) : (a ^^^ b).log2 = b.log2 := by
  have hb : b ≠ 0 := by rintro rfl; simp at h
  have h1 : a < 2 ^ b.log2 := by
    by_cases ha : a = 0
    · rw [ha]; exact Nat.two_pow_pos _
    · exact (Nat.log2_lt ha).mp h
  have h2 := Nat.log2_self_le hb
  have h3 : b < 2 ^ (b.log2 + 1) := Nat.lt_log2_self
  have hlow : 2 ^ b.log2 ≤ a ^^^ b := by
    rcases Nat.lt_or_ge (a ^^^ b) (2 ^ b.log2) with hc | hc
    · have := Nat.xor_lt_two_pow h1 hc
      rw [← Nat.xor_assoc, Nat.xor_self, Nat.zero_xor] at this
      omega
    · exact hc
  rw [Nat.log2_eq_iff (by have := Nat.two_pow_pos b.log2; omega)]
  exact ⟨hlow, Nat.xor_lt_two_pow (Nat.lt_trans h1 (Nat.pow_lt_pow_right (by omega) (by omega))) h3⟩

theorem log2_xor_le (a b : Nat) : (a ^^^ b).log2 ≤ max a.log2 b.log2 := by
  have h : ∀ x k, x.log2 ≤ k → x < 2 ^ (k + 1) := fun x k hx =>
    Nat.lt_of_lt_of_le Nat.lt_log2_self (Nat.pow_le_pow_right (by omega) (by omega))
  have := Nat.xor_lt_two_pow (h a _ (Nat.le_max_left a.log2 b.log2)) (h b _ (Nat.le_max_right a.log2 b.log2))
  by_cases h0 : a ^^^ b = 0
  · rw [h0]; simp
  · have := (Nat.log2_lt h0).mpr this; omega

/-- Logarithmic distance of two ids. -/
def lg (a b : Id) : Nat := (xorDistance a b).log2

theorem bucketId_lg (me id : Id) (hm : me.length = 20) (hi : id.length = 20) : bucketId me id = lg me id := by
  unfold bucketId lg; rw [length_log2, distance_xor me id (hm.trans hi.symm)]

theorem xor_via (me x t : Id) : xorDistance x t = xorDistance me x ^^^ xorDistance me t := by
  unfold xorDistance
  rw [Nat.xor_comm (beVal me) (beVal x), Nat.xor_assoc, ← Nat.xor_assoc (beVal me), Nat.xor_self, Nat.zero_xor]

theorem lg_ne (me x t : Id) (h : lg me x ≠ lg me t) : lg x t = max (lg me x) (lg me t) := by
  unfold lg at *
  rw [xor_via me x t]
  rcases Nat.lt_or_gt_of_ne h with h | h
  · rw [log2_xor_lt h]; omega
  · rw [Nat.xor_comm, log2_xor_lt h]; omega

theorem lg_eq (me x t : Id) (h : lg me x = lg me t) : lg x t ≤ lg me t := by
  unfold lg at *
  rw [xor_via me x t]
  have := log2_xor_le (xorDistance me x) (xorDistance me t)
  omega

end Verif.Dht
