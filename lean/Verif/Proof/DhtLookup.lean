import Verif.Spec.DhtLookup
import Verif.Proof.Addr
namespace Verif.Dht
open Verif Net Spec

theorem replaceIdx_spec (nd target : Id) : ∀ (xs : List NodeInfo) (i worst : Nat) (idx : Option Nat),
    (replaceIdx nd target xs i worst idx = idx ∧
      ∀ x ∈ xs, closerToNodeThan x.id nd target = false → length (distance x.id target) ≤ worst) ∨
    ∃ (k : Nat) (r : NodeInfo), xs[k]? = some r ∧ replaceIdx nd target xs i worst idx = some (i + k) ∧
      closerToNodeThan r.id nd target = false ∧ worst < length (distance r.id target) ∧
      ∀ x ∈ xs, closerToNodeThan x.id nd target = false → length (distance x.id target) ≤ length (distance r.id target)
  | [], _, _, _ => by left; exact ⟨rfl, fun x h => by cases h⟩
  | x :: xs, i, worst, idx => by
    unfold replaceIdx
    by_cases hc : closerToNodeThan x.id nd target = false ∧ length (distance x.id target) > worst
    · rw [if_pos hc]
      right
      rcases replaceIdx_spec nd target xs (i + 1) (length (distance x.id target)) (some i) with ⟨h1, h2⟩ | ⟨k, r, h1, h2, h3, h4, h5⟩
      · refine ⟨0, x, rfl, by simpa using h1, hc.1, hc.2, ?_⟩
        intro y hy hyc
        rcases List.mem_cons.mp hy with rfl | hy
        · exact Nat.le_refl _
        · exact h2 y hy hyc
      · refine ⟨k + 1, r, by simpa using h1, by rw [h2]; congr 1; omega, h3, by have := hc.2; omega, ?_⟩
        intro y hy hyc
        rcases List.mem_cons.mp hy with rfl | hy
        · omega
        · exact h5 y hy hyc
    · rw [if_neg hc]
      rcases replaceIdx_spec nd target xs (i + 1) worst idx with ⟨h1, h2⟩ | ⟨k, r, h1, h2, h3, h4, h5⟩
      · left
        refine ⟨h1, ?_⟩
        intro y hy hyc
        rcases List.mem_cons.mp hy with rfl | hy
        · by_cases h : length (distance y.id target) > worst
          · exact absurd ⟨hyc, h⟩ hc
          · omega
        · exact h2 y hy hyc
      · right
        refine ⟨k + 1, r, by simpa using h1, by rw [h2]; congr 1; omega, h3, h4, ?_⟩
        intro y hy hyc
        rcases List.mem_cons.mp hy with rfl | hy
        · by_cases h : length (distance y.id target) > worst
          · exact absurd ⟨hyc, h⟩ hc
          · omega
        · exact h5 y hy hyc

theorem any_same {l : List NodeInfo} {n : NodeInfo} : l.any (·.same n) = true ↔ n.id ∈ l.map (·.id) := by
  simp only [List.any_eq_true, NodeInfo.same, beq_iff_eq, List.mem_map]

theorem valid_usable {me : Id} {n : NodeInfo} : isValidNode me n.id = true ↔ Usable me n := by
  simp [isValidNode, Usable]

theorem length_logDistance {target : Id} {n : NodeInfo} (h : n.id.length = target.length) :
    length (distance n.id target) = logDistance target n := by
  rw [length_log2, distance_xor _ _ h]; rfl

theorem log2_mono {a b : Nat} (h : a ≤ b) : Nat.log2 a ≤ Nat.log2 b := by
  by_cases ha : a = 0
  · subst ha; simp
  · exact (Nat.le_log2 (by omega)).mpr (Nat.le_trans (Nat.log2_self_le ha) h)

theorem log2_pos {a : Nat} (h : 0 < Nat.log2 a) : 2 ≤ a := by
  by_cases ha : a = 0
  · subst ha; simp at h
  · have := Nat.log2_self_le ha
    have h2 : 2 ^ 1 ≤ 2 ^ Nat.log2 a := Nat.pow_le_pow_right (by omega) h
    omega

/-- What `mergeOne` does with a node, in terms of the list before. -/
inductive Merged (me target : Id) (used : List NodeInfo) (minDistance : Nat) (to : List NodeInfo) (n : NodeInfo) : List NodeInfo → Prop
  | known (h : n.id ∈ to.map (·.id)) : Merged me target used minDistance to n to
  | unfit (h : n.id ∈ used.map (·.id) ∨ ¬ Usable me n ∨ (32 ≤ used.length ∧ minDistance < logDistance target n)) :
      Merged me target used minDistance to n to
  | pushed (h1 : n.id ∉ to.map (·.id)) (h2 : n.id ∉ used.map (·.id)) (h3 : Usable me n) (h4 : to.length < 32) :
      Merged me target used minDistance to n (to ++ [n])
  | replaced (h1 : n.id ∉ to.map (·.id)) (h2 : n.id ∉ used.map (·.id)) (h3 : Usable me n) (h4 : 32 ≤ to.length) (k : Nat) (r : NodeInfo)
      (hr : to[k]? = some r) (hn : logDistance target n ≤ logDistance target r)
      (hy : ∀ y ∈ to, logDistance target y ≤ logDistance target r) : Merged me target used minDistance to n (to.set k n)
  | full (h4 : 32 ≤ to.length) (hy : ∀ y ∈ to, logDistance target y ≤ logDistance target n) : Merged me target used minDistance to n to

theorem mergeOne_cases (me target : Id) (ht : target.length = 20) (used to : List NodeInfo) (minDistance : Nat) (n : NodeInfo)
    (hn : n.id.length = 20) (hto : ∀ y ∈ to, y.id.length = 20) :
    Merged me target used minDistance to n (mergeOne me target used 32 minDistance to n) := by
  have hl : ∀ y : NodeInfo, y.id.length = 20 → length (distance y.id target) = logDistance target y :=
    fun y h => length_logDistance (by omega)
  have hx : ∀ y : NodeInfo, y.id.length = 20 → beVal (distance y.id target) = xorDistance y.id target :=
    fun y h => distance_xor _ _ (by omega)
  have hnd : (distance n.id target).length = 20 := distance_length _ _ hn ht
  -- what "not closer" and "closer" mean
  have hcl : ∀ y : NodeInfo, y.id.length = 20 → (closerToNodeThan y.id (distance n.id target) target = true ↔
      2 ≤ xorDistance y.id target ∧ xorDistance y.id target < xorDistance n.id target) := by
    intro y h
    rw [closerTo_iff _ _ _ h hnd ht, hx y h, hx n hn]
  unfold mergeOne
  by_cases h1 : to.any (·.same n) = true
  · rw [if_pos h1]; exact .known (any_same.mp h1)
  rw [if_neg h1]
  by_cases h2 : used.any (·.same n) = true
  · rw [if_pos h2]; exact .unfit (.inl (any_same.mp h2))
  rw [if_neg h2]
  by_cases h3 : isValidNode me n.id = false
  · rw [if_pos h3]
    exact .unfit (.inr (.inl fun h => by rw [valid_usable.mpr h] at h3; cases h3))
  rw [if_neg h3]
  have h3' : Usable me n := valid_usable.mp (by simpa using h3)
  have h1' := fun h => h1 (any_same.mpr h)
  have h2' := fun h => h2 (any_same.mpr h)
  by_cases h5 : length (distance n.id target) ≤ minDistance ∨ used.length < 32
  · rw [if_pos h5]
    by_cases h4 : to.length < 32
    · rw [if_pos h4]; exact .pushed h1' h2' h3' h4
    rw [if_neg h4]
    rcases replaceIdx_spec (distance n.id target) target to 0 0 none with ⟨e, h6⟩ | ⟨k, r, e1, e2, h6, h7, h8⟩
    · rw [e]
      refine .full (by omega) ?_
      intro y hy
      by_cases hc : closerToNodeThan y.id (distance n.id target) target = true
      · exact log2_mono (Nat.le_of_lt ((hcl y (hto y hy)).mp hc).2)
      · have := h6 y hy (by simpa using hc)
        rw [hl y (hto y hy)] at this
        omega
    · rw [e2]
      simp only [Nat.zero_add]
      have hrm : r ∈ to := List.mem_of_getElem? e1
      have hr20 := hto r hrm
      have hr2 : 2 ≤ xorDistance r.id target := by
        rw [hl r hr20] at h7; exact log2_pos h7
      have hge : xorDistance n.id target ≤ xorDistance r.id target := by
        by_cases hlt : xorDistance r.id target < xorDistance n.id target
        · have := (hcl r hr20).mpr ⟨hr2, hlt⟩
          rw [this] at h6; cases h6
        · omega
      refine .replaced h1' h2' h3' (by omega) k r e1 (log2_mono hge) ?_
      intro y hy
      by_cases hc : closerToNodeThan y.id (distance n.id target) target = true
      · have := ((hcl y (hto y hy)).mp hc).2
        exact log2_mono (by omega)
      · have := h8 y hy (by simpa using hc)
        rwa [hl y (hto y hy), hl r hr20] at this
  · rw [if_neg h5]
    rw [hl n hn] at h5
    exact .unfit (.inr (.inr ⟨by omega, by omega⟩))

/-- The list is full and everything in it is at most as far as `d`. -/
def Beaten (target : Id) (d : NodeInfo) (to : List NodeInfo) : Prop := to.length = 32 ∧ ∀ y ∈ to, logDistance target y ≤ logDistance target d

/-- `d` is in the list or was beaten. -/
def Settled (target : Id) (d : NodeInfo) (to : List NodeInfo) : Prop := d.id ∈ to.map (·.id) ∨ Beaten target d to

theorem log_id {target : Id} {a b : NodeInfo} (h : a.id = b.id) : logDistance target a = logDistance target b := by
  unfold logDistance; rw [h]

/-- What holds of the list of candidates. -/
structure GoodList (me : Id) (used to : List NodeInfo) : Prop where
  bounded : to.length ≤ 32
  distinct : (to.map (·.id)).Nodup
  fresh : ∀ n ∈ to, n.id ∉ used.map (·.id)
  usable : ∀ n ∈ to, Usable me n
  ids : ∀ n ∈ to, n.id.length = 20

theorem mem_set {to : List NodeInfo} {k : Nat} {n y : NodeInfo} (h : y ∈ to.set k n) : y ∈ to ∨ y = n :=
  List.mem_or_eq_of_mem_set h

theorem nodup_set (a : Id) : ∀ (l : List Id) (k : Nat), l.Nodup → a ∉ l → (l.set k a).Nodup
  | [], _, h, _ => h
  | x :: xs, 0, h, ha => by
    rw [List.set_cons_zero, List.nodup_cons]
    exact ⟨fun hm => ha (List.mem_cons_of_mem _ hm), (List.nodup_cons.mp h).2⟩
  | x :: xs, k + 1, h, ha => by
    rw [List.set_cons_succ, List.nodup_cons]
    refine ⟨?_, nodup_set a xs k (List.nodup_cons.mp h).2 fun hm => ha (List.mem_cons_of_mem _ hm)⟩
    intro hm
    rcases List.mem_or_eq_of_mem_set hm with hm | hm
    · exact (List.nodup_cons.mp h).1 hm
    · exact ha (hm ▸ List.mem_cons_self)

theorem merged_good {me target : Id} {used to to' : List NodeInfo} {minDistance : Nat} {n : NodeInfo}
    (hm : Merged me target used minDistance to n to') (hg : GoodList me used to) (hn : n.id.length = 20) : GoodList me used to' := by
  cases hm with
  | known | unfit | full => exact hg
  | pushed h1 h2 h3 h4 =>
    refine ⟨by simp; omega, ?_, ?_, ?_, ?_⟩
    · rw [List.map_append, List.nodup_append]
      refine ⟨hg.distinct, by simp, ?_⟩
      intro a ha b hb hab
      simp only [List.map_cons, List.map_nil, List.mem_singleton] at hb
      rw [hab, hb] at ha
      exact h1 ha
    all_goals
      intro y hy
      rcases List.mem_append.mp hy with hy | hy
    · exact hg.fresh y hy
    · rw [List.mem_singleton.mp hy]; exact h2
    · exact hg.usable y hy
    · rw [List.mem_singleton.mp hy]; exact h3
    · exact hg.ids y hy
    · rw [List.mem_singleton.mp hy]; exact hn
  | replaced h1 h2 h3 h4 k r hr _ _ =>
    refine ⟨by rw [List.length_set]; exact hg.bounded, ?_, ?_, ?_, ?_⟩
    · rw [List.map_set]
      exact nodup_set _ _ _ hg.distinct h1
    all_goals
      intro y hy
      rcases mem_set hy with hy | rfl
    · exact hg.fresh y hy
    · exact h2
    · exact hg.usable y hy
    · exact h3
    · exact hg.ids y hy
    · exact hn

theorem merged_settled {me target : Id} {used to to' : List NodeInfo} {minDistance : Nat} {n d : NodeInfo}
    (hm : Merged me target used minDistance to n to') (hg : GoodList me used to) (hd : Settled target d to) : Settled target d to' := by
  cases hm with
  | known | unfit | full => exact hd
  | pushed h1 h2 h3 h4 =>
    rcases hd with hd | ⟨hd, _⟩
    · left; rw [List.map_append]; exact List.mem_append_left _ hd
    · omega
  | replaced h1 h2 h3 h4 k r hr hn hy =>
    have hb := hg.bounded
    -- whatever is beaten by the old list or is the replaced node is beaten by the new one
    have key : (∀ y ∈ to, logDistance target y ≤ logDistance target d) → Beaten target d (to.set k n) := by
      intro h
      refine ⟨by rw [List.length_set]; omega, ?_⟩
      intro y hy'
      rcases mem_set hy' with hy' | rfl
      · exact h y hy'
      · exact Nat.le_trans hn (h r (List.mem_of_getElem? hr))
    rcases hd with hd | ⟨_, hd⟩
    · obtain ⟨x, hx, hxd⟩ := List.mem_map.mp hd
      obtain ⟨i, hi⟩ := List.getElem?_of_mem hx
      by_cases hik : i = k
      · subst hik
        rw [hr] at hi
        cases hi
        right
        exact key fun y h => by rw [← log_id hxd]; exact hy y h
      · left
        refine List.mem_map.mpr ⟨x, ?_, hxd⟩
        refine List.mem_of_getElem? (i := i) ?_
        rw [List.getElem?_set, if_neg (by omega), hi]
    · right; exact key hd

theorem merged_new {me target : Id} {used to to' : List NodeInfo} {minDistance : Nat} {n : NodeInfo}
    (hm : Merged me target used minDistance to n to') (hg : GoodList me used to) (hn : n.id ∉ used.map (·.id)) (hu : Usable me n)
    (hr : used.length < 32 ∨ logDistance target n ≤ minDistance) : Settled target n to' := by
  cases hm with
  | known h => exact .inl h
  | unfit h =>
    rcases h with h | h | h
    · exact absurd h hn
    · exact absurd hu h
    · omega
  | pushed => left; simp
  | replaced h1 h2 h3 h4 k r hr hn hy =>
    left
    refine List.mem_map.mpr ⟨n, ?_, rfl⟩
    have hk : k < to.length := by
      rcases Nat.lt_or_ge k to.length with h | h
      · exact h
      · rw [List.getElem?_eq_none h] at hr; cases hr
    exact List.mem_of_getElem? (i := k) (by rw [List.getElem?_set, if_pos rfl, if_pos hk])
  | full h4 hy =>
    right
    have := hg.bounded
    exact ⟨by omega, hy⟩

theorem merge_good (me target : Id) (ht : target.length = 20) (used : List NodeInfo) (minDistance : Nat) :
    ∀ («from» to : List NodeInfo), (∀ n ∈ «from», n.id.length = 20) → GoodList me used to →
    GoodList me used (mergeClosestNodes me target used 32 minDistance to «from») ∧
    (∀ d, Settled target d to → Settled target d (mergeClosestNodes me target used 32 minDistance to «from»)) ∧
    ∀ d ∈ «from», d.id ∉ used.map (·.id) → Usable me d → (used.length < 32 ∨ logDistance target d ≤ minDistance) →
      Settled target d (mergeClosestNodes me target used 32 minDistance to «from»)
  | [], to, _, hg => ⟨hg, fun _ h => h, fun d h => by cases h⟩
  | n :: ns, to, hf, hg => by
    have hn := hf n List.mem_cons_self
    have hm := mergeOne_cases me target ht used to minDistance n hn hg.ids
    obtain ⟨i1, i2, i3⟩ := merge_good me target ht used minDistance ns _ (fun x h => hf x (List.mem_cons_of_mem _ h)) (merged_good hm hg hn)
    refine ⟨i1, fun d h => i2 d (merged_settled hm hg h), ?_⟩
    intro d hd h1 h2 h3
    rcases List.mem_cons.mp hd with rfl | hd
    · exact i2 d (merged_new hm hg h1 h2 h3)
    · exact i3 d hd h1 h2 h3

/-! ### Histories -/

/-- `GoodLookup` and the lengths of the ids of the candidates. -/
def Inv (me : Id) (nodes : List NodeInfo) (l : Lookup) : Prop := GoodLookup me nodes l ∧ ∀ n ∈ l.received, n.id.length = 20

theorem inv_list {me : Id} {nodes : List NodeInfo} {l : Lookup} (h : Inv me nodes l) : GoodList me l.used l.received := by
  have hd := h.1.distinct
  rw [List.map_append, List.nodup_append] at hd
  refine ⟨h.1.bounded, hd.1, ?_, fun n hn => h.1.usable n (List.mem_append_left _ hn), h.2⟩
  intro n hn hu
  exact hd.2.2 _ (List.mem_map.mpr ⟨n, hn, rfl⟩) _ hu rfl

theorem inv_pumpLoop (me target : Id) (nodes : List NodeInfo) : ∀ (k : Nat) (l : Lookup), Inv me nodes l → Inv me nodes (pumpLoop target k l)
  | 0, l, h => h
  | k + 1, l, h => by
    unfold pumpLoop
    cases hr : l.received with
    | nil => exact h
    | cons next rest =>
      by_cases hq : l.requests.length < 5
      · simp only [hq, if_true]
        apply inv_pumpLoop me target nodes k
        have hb := h.1.bounded
        have hd := h.1.distinct
        have hu := h.1.usable
        rw [hr] at hb hd hu
        refine ⟨⟨?_, ?_, ?_, ?_, ?_⟩, ?_⟩
        · simp only [Lookup.send, List.length_cons] at hb ⊢; omega
        · simp only [Lookup.send]
          rw [← List.append_assoc, List.map_append]
          simp only [List.cons_append, List.map_cons, List.nodup_cons, List.map_nil] at hd ⊢
          rw [List.nodup_append]
          refine ⟨hd.2, by simp, ?_⟩
          intro a ha b hb' hab
          rw [List.mem_singleton.mp hb'] at hab
          exact hd.1 (hab ▸ ha)
        · intro n hn
          simp only [Lookup.send, List.mem_append, List.mem_singleton] at hn
          refine hu n ?_
          simp only [List.cons_append, List.mem_cons, List.mem_append]
          rcases hn with hn | hn | hn <;> simp [hn]
        · simp only [Lookup.send]
          rw [h.1.sent, List.append_assoc]
        · simp only [Lookup.send, List.length_append, List.length_singleton]
          omega
        · intro n hn
          exact h.2 n (by rw [hr]; exact List.mem_cons_of_mem _ hn)
      · simp only [hq, if_false]; exact h

theorem inv_pump (k : Kind) (me target : Id) (nodes : List NodeInfo) (l : Lookup) (h : Inv me nodes l) : Inv me nodes (l.pump k target) := by
  cases k with
  | findNode => exact inv_pumpLoop me target nodes _ l h
  | getPeers =>
    have h2 : Inv me nodes (if l.found < 50 then pumpLoop target l.received.length l else l) := by
      split
      · exact inv_pumpLoop me target nodes _ l h
      · exact h
    unfold Lookup.pump
    simp only
    generalize (if l.found < 50 then pumpLoop target l.received.length l else l) = m at h2 ⊢
    split
    · exact ⟨⟨h2.1.1, h2.1.2, h2.1.3, h2.1.4, h2.1.5⟩, h2.2⟩
    · exact h2

theorem drop_length (k : Kind) (r : Request) (rs : List Request) : (dropRequest k r rs).length ≤ rs.length := by
  cases k <;> exact List.length_eraseP_le

theorem inv_step (k : Kind) (me target : Id) (ht : target.length = 20) (nodes : List NodeInfo) (l : Lookup) (h : Inv me nodes l) (e : LEv)
    (he : ∀ i ns p, e = .answer i ns p → ∀ n ∈ ns, n.id.length = 20) : Inv me nodes (l.step k me target e) := by
  have base : ∀ (r : Request) (i : Nat), Inv me nodes { l with requests := dropRequest k r l.requests, pending := l.pending.eraseIdx i } := by
    intro r i
    exact ⟨⟨h.1.1, h.1.2, h.1.3, h.1.4, Nat.le_trans (drop_length k r _) h.1.5⟩, h.2⟩
  cases e with
  | answer i ns p =>
    unfold Lookup.step
    simp only
    cases hp : l.pending[i]? with
    | none => exact h
    | some r =>
      simp only
      apply inv_pump
      obtain ⟨hg, _, _⟩ := merge_good me target ht l.used r.minDistance ns l.received (he i ns p rfl) (inv_list h)
      have hd := h.1.distinct
      rw [List.map_append, List.nodup_append] at hd
      refine ⟨⟨hg.bounded, ?_, ?_, h.1.sent, Nat.le_trans (drop_length k r _) h.1.5⟩, hg.ids⟩
      · simp only
        rw [List.map_append, List.nodup_append]
        refine ⟨hg.distinct, hd.2.1, ?_⟩
        intro a ha b hb hab
        obtain ⟨n, hn, rfl⟩ := List.mem_map.mp ha
        exact hg.fresh n hn (hab ▸ hb)
      · intro n hn
        rcases List.mem_append.mp hn with hn | hn
        · exact hg.usable n hn
        · exact h.1.usable n (List.mem_append_right _ hn)
  | stray i =>
    unfold Lookup.step
    simp only
    cases hp : l.pending[i]? with
    | none => exact h
    | some r =>
      have := inv_pump k me target nodes _ (base r i)
      exact ⟨⟨this.1.1, this.1.2, this.1.3, this.1.4, this.1.5⟩, this.2⟩
  | wrongId i | timeout i =>
    unfold Lookup.step
    simp only
    cases hp : l.pending[i]? with
    | none => exact h
    | some r => exact inv_pump k me target nodes _ (base r i)

theorem start_fields : ∀ (nodes : List NodeInfo) (l : Lookup),
    (nodes.foldl (fun l n => l.send n 160) l).received = l.received ∧ (nodes.foldl (fun l n => l.send n 160) l).used = l.used ∧
    (nodes.foldl (fun l n => l.send n 160) l).sent = l.sent ++ nodes ∧
    (nodes.foldl (fun l n => l.send n 160) l).requests.length = l.requests.length + nodes.length
  | [], l => by simp
  | n :: ns, l => by
    obtain ⟨h1, h2, h3, h4⟩ := start_fields ns (l.send n 160)
    refine ⟨h1, h2, ?_, ?_⟩
    · rw [List.foldl_cons, h3]; simp [Lookup.send]
    · rw [List.foldl_cons, h4]; simp [Lookup.send]; omega

theorem inv_start (me : Id) (nodes : List NodeInfo) : Inv me nodes (Lookup.start nodes) := by
  unfold Lookup.start
  cases nodes with
  | nil => exact ⟨⟨by simp, by simp, by simp, rfl, by simp⟩, by simp⟩
  | cons n ns =>
    obtain ⟨h1, h2, h3, h4⟩ := start_fields (n :: ns) {}
    simp only [List.isEmpty_cons, Bool.false_eq_true, if_false]
    generalize (n :: ns).foldl (fun (l : Lookup) n => l.send n 160) {} = m at h1 h2 h3 h4 ⊢
    refine ⟨⟨by rw [h1]; simp, by rw [h1, h2]; simp, by rw [h1, h2]; simp, by rw [h3, h2]; simp, ?_⟩, by rw [h1]; simp⟩
    rw [h4]; simp only [List.length_nil, Nat.zero_add]; omega

theorem inv_run (k : Kind) (me target : Id) (ht : target.length = 20) (nodes : List NodeInfo) : ∀ (es : List LEv) (l : Lookup), Inv me nodes l →
    (∀ i ns p, LEv.answer i ns p ∈ es → ∀ n ∈ ns, n.id.length = 20) → Inv me nodes (l.run k me target es)
  | [], l, h, _ => h
  | e :: es, l, h, he => by
    refine inv_run k me target ht nodes es _ (inv_step k me target ht nodes l h e ?_) fun i ns p hm => he i ns p (List.mem_cons_of_mem _ hm)
    intro i ns p heq
    exact he i ns p (heq ▸ List.mem_cons_self)

theorem pumpLoop_found (target : Id) : ∀ (n : Nat) (l : Lookup), (pumpLoop target n l).found = l.found
  | 0, _ => rfl
  | n + 1, l => by
    unfold pumpLoop
    split
    · rfl
    · split
      · rw [pumpLoop_found target n]; rfl
      · rfl

theorem pump_found (k : Kind) (target : Id) (l : Lookup) : (l.pump k target).found = l.found := by
  cases k with
  | findNode => exact pumpLoop_found target _ l
  | getPeers =>
    unfold Lookup.pump
    simp only
    split <;> split <;> simp [pumpLoop_found]

end Verif.Dht
