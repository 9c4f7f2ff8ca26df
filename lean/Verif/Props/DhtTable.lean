import Verif.Proof.DhtClosest
import Verif.Proof.DhtSave

namespace Verif
open Net Dht Spec

/-! ## C33 -/

/-- C33, sizes, uniqueness and placement: after any history of responses and timeouts every bucket has
at most eight live and eight spare nodes, every node sits in the bucket of its distance, and no id
occurs twice in the whole table. Missing: the own id is not kept out, where it is false. -/
theorem C33_invariant_partial (me : Id) (ops : List TOp) :
    GoodTable me (runTable me Table.empty ops) ∧ ((runTable me Table.empty ops).flatMap bucketIds).Nodup := by
  have h := good_run (me := me) ops (good_empty me)
  refine ⟨h, ?_⟩
  unfold List.Nodup
  rw [List.pairwise_flatMap]
  refine ⟨fun b hb => ?_, ?_⟩
  · obtain ⟨k, hk⟩ := List.mem_iff_getElem?.mp hb
    exact (h.2 k b hk).2.2.1
  · rw [List.pairwise_iff_getElem]
    intro i j hi hj hij x hx y hy he
    subst he
    have h1 := (h.2 i _ (List.getElem?_eq_getElem hi)).2.2.2 x hx
    have h2 := (h.2 j _ (List.getElem?_eq_getElem hj)).2.2.2 x hy
    omega

/-- C33: the invariant holds from any table that has it, and a node that responded is recorded, live or
as a spare, in the bucket of its distance. -/
theorem C33_recorded (me : Id) (t : Table) (h : GoodTable me t) (time : Nat) (node : NodeInfo) (hm : me.length = 20)
    (hi : node.id.length = 20) :
    GoodTable me (nodeResponded me time node t) ∧
    ∃ b, (nodeResponded me time node t)[Nat.log2 (xorDistance me node.id)]? = some b ∧ node.id ∈ bucketIds b := by
  refine ⟨good_responded time node h, ?_⟩
  have hk : bucketId me node.id = Nat.log2 (xorDistance me node.id) := bucketId_lg me node.id hm hi
  have hlt := bucketId_lt me node.id hm hi
  obtain ⟨b0, hb⟩ : ∃ b0, t[bucketId me node.id]? = some b0 := ⟨_, List.getElem?_eq_getElem (by rw [h.1]; exact hlt)⟩
  rw [← hk]
  refine ⟨bucketResponded time node b0, ?_, (bucketResponded_spec me time node _ (h.2 _ _ hb)).2⟩
  unfold nodeResponded
  rw [List.getElem?_modify, hb]; simp

/-- C33: a node that does not respond is live no longer: it is inactive or gone. -/
theorem C33_timeout (me : Id) (t : Table) (h : GoodTable me t) (time : Nat) (node : NodeInfo) :
    ∀ b ∈ nodeNotResponded me time node t, ∀ n ∈ b.nodes, n.info.id = node.id → n.active = false := by
  intro b hb n hn hid
  obtain ⟨k, hk⟩ := List.mem_iff_getElem?.mp hb
  unfold nodeNotResponded at hk
  rw [List.getElem?_modify] at hk
  cases hb0 : t[k]? with
  | none => simp [hb0] at hk
  | some b0 =>
    have hg := h.2 k b0 hb0
    by_cases e : bucketId me node.id = k
    · simp [hb0, e] at hk
      subst hk
      exact notResponded_inactive time node.id b0 [] b0.nodes 0 (by simp) hg.2.2.1 rfl n hn hid
    · simp [hb0, e] at hk
      subst hk
      exfalso
      apply e
      have := hg.2.2.2 n.info.id (by simp only [bucketIds, List.map_append, List.mem_append, List.mem_map]; exact .inl ⟨n, hn, rfl⟩)
      rw [hid] at this
      exact this

/-- A history that fills a bucket, its spares, and lets a node time out. -/
private def exNode (k : UInt8) : NodeInfo := ⟨128 :: List.replicate 18 0 ++ [k], ⟨List.replicate 16 k, 6881, false⟩⟩
private def exOps : List TOp :=
  ((List.range 18).map fun k => TOp.responded (exNode (UInt8.ofNat k)) (k * 100)) ++
    [.notResponded (exNode 0) 1700, .responded (exNode 1) 5000, .notResponded (exNode 0) 5000]

example : ((runTable (List.replicate 20 0) Table.empty exOps)[159]?).map (fun b => (b.nodes.map (·.info.id.getLast?), b.cache.length)) =
    some ([some 1, some 2, some 3, some 4, some 5, some 6, some 7, some 8], 7) := by decide +kernel

/-- C33 is false for the own id and the all-zero id: whoever claims one of them is recorded like any
other node, although the check for invalid ids exists. -/
theorem C33_own_id_violated (me : Id) (hm : me.length = 20) (t : Table) (h : GoodTable me t) (time : Nat) (addr : Addr) (id : Id)
    (hid : id = me ∨ id = List.replicate 20 0) :
    isValidNode me id = false ∧ ∃ b ∈ nodeResponded me time ⟨id, addr⟩ t, id ∈ bucketIds b := by
  have hl : id.length = 20 := by rcases hid with rfl | rfl <;> simp [hm]
  refine ⟨by rcases hid with rfl | rfl <;> simp [isValidNode], ?_⟩
  obtain ⟨_, b, hb, hin⟩ := C33_recorded me t h time ⟨id, addr⟩ hm hl
  exact ⟨b, List.mem_of_getElem? hb, hin⟩

example : GoodTable (List.replicate 20 7) Table.empty := good_empty _

/-- C33 does not survive loading into a table in use (done at every start of the DHT after a stop): every
node of a reloaded table is there twice. -/
theorem C33_reload_violated (t : Table) (ht : t.length = 160) (hs : ∀ b ∈ t, ∀ n ∈ b.nodes, StorableNode n)
    (hm : ∀ b ∈ t, ¬ nodesEnd <:+: b.nodes.flatMap saveNode) :
    ∃ u, load (save t) t = .ok (total t, u) ∧ ∀ (k : Nat) (b : Bucket), t[k]? = some b →
      ∃ b', u[k]? = some b' ∧ b'.nodes.map (·.info) = b.nodes.map (·.info) ++ b.nodes.map (·.info) := by
  refine ⟨_, load_save t ht hs hm t, ?_⟩
  intro k b hb
  have hk : k < t.length := (List.getElem?_eq_some_iff.mp hb).1
  rw [addAll_spec t 0 t k (by omega), if_pos (by omega), hb]
  refine ⟨_, rfl, ?_⟩
  simp [hb, reloaded, Function.comp_def]

/-! ## C38 -/

/-- C38, tables whose node bytes do not contain the end marker: loading the saved text into an empty
table gives the same live nodes in the same buckets and order. Missing: tables containing the marker,
where it is false; spare nodes are not saved, and loaded nodes count as active. -/
theorem C38_round_trip_partial (t : Table) (ht : t.length = 160) (hs : ∀ b ∈ t, ∀ n ∈ b.nodes, StorableNode n)
    (hm : ∀ b ∈ t, ¬ ascii "[nodes\\]\n" <:+: b.nodes.flatMap saveNode) :
    load (save t) Table.empty = .ok ((t.map (·.nodes.length)).sum,
      t.map fun b => { nodes := b.nodes.map fun n => { info := n.info, lastupdate := 0, active := true } }) := by
  rw [load_save t ht hs hm, addAll_empty t ht]; rfl

private def exTable : Table := runTable (List.replicate 20 0) Table.empty (exOps.take 3)

example : exTable.length = 160 ∧ (∀ b ∈ exTable, ∀ n ∈ b.nodes, n.info.id.length = 20 ∧ n.info.addr.bytes.length = 16 ∧ n.info.addr.port < 65536) ∧
    (exTable.map (·.nodes.length)).sum = 3 ∧ findSub (ascii "[nodes\\]\n") (save exTable) = some 139 := by decide +kernel

/-- C38 is false for other tables: a node whose id contains the text of the end marker makes the load
read outside the text. -/
theorem C38_marker_violated :
    let me : Id := List.replicate 20 0
    let node : NodeInfo := ⟨List.replicate 11 65 ++ ascii "[nodes\\]\n", ⟨List.replicate 16 1, 6881, false⟩⟩
    let t := nodeResponded me 1 node Table.empty
    (∀ b ∈ t, ∀ n ∈ b.nodes, n.info.id.length = 20 ∧ n.info.addr.bytes.length = 16 ∧ n.info.addr.port < 65536) ∧
    load (save t) Table.empty = .ub := by decide +kernel

/-! ## C59 -/

/-- C59: the nodes given for a target are at most 16, at most 8 per address family, without repeated ids
and all active nodes of the table. -/
theorem C59_bounded (me : Id) (t : Table) (h : GoodTable me t) (id : Id) :
    (getClosestNodes me t id).length ≤ 16 ∧ (∀ v6, ((getClosestNodes me t id).filter (·.addr.ipv6 == v6)).length ≤ 8) ∧
    ((getClosestNodes me t id).map (·.id)).Nodup ∧
    ∀ x ∈ getClosestNodes me t id, ∃ b ∈ t, ∃ n ∈ b.nodes, n.info = x ∧ n.active = true := by
  have hfam : ∀ v6, ((getClosestNodes me t id).filter (·.addr.ipv6 == v6)).length ≤ 8 := by
    intro v6; rw [family_filter, List.length_take]; omega
  obtain ⟨r, h1, h2⟩ := collect_sublist {} (visited me t id)
  have hr : getClosestNodes me t id = r := by rw [getClosestNodes_eq]; unfold visited at h1; simpa using h1
  have hlen : ∀ l : List NodeInfo, l.length = (l.filter (·.addr.ipv6 == true)).length + (l.filter (·.addr.ipv6 == false)).length := by
    intro l
    induction l with
    | nil => rfl
    | cons a l ih => cases hb : a.addr.ipv6 <;> simp_all <;> omega
  refine ⟨?_, hfam, ?_, ?_⟩
  · have := hlen (getClosestNodes me t id)
    have h3 := hfam true
    have h4 := hfam false
    omega
  · rw [hr]
    have : (r.map (·.id)).Sublist ((visited me t id).map (·.info.id)) := by
      have h3 := h2.map NodeInfo.id
      rw [List.map_map] at h3
      exact h3.trans (List.filter_sublist.map _)
    exact (visited_nodup h id).sublist this
  · intro x hx
    rw [hr] at hx
    obtain ⟨n, hn, he⟩ := List.mem_map.mp (h2.subset hx)
    obtain ⟨hn, ha⟩ := List.mem_filter.mp hn
    unfold visited at hn
    obtain ⟨i, _, hn⟩ := List.mem_flatMap.mp hn
    obtain ⟨b, hb, hnb⟩ := mem_live.mp hn
    exact ⟨b, List.mem_of_getElem? hb, n, hnb, he, ha⟩

/-- C59, nodes at distance 2 or more from the own id: an active node that is left out has 8 nodes of its
family in the answer, none of them farther from the target, on the logarithmic scale. Missing: the two
ids nearest to the own id, where it is false. -/
theorem C59_closest_partial (me : Id) (t : Table) (h : GoodTable me t) (id : Id) (hm : me.length = 20) (hid : id.length = 20)
    (hl : ∀ b ∈ t, ∀ n ∈ b.nodes, n.info.id.length = 20) (b : Bucket) (hb : b ∈ t) (n : TNode) (hn : n ∈ b.nodes) (ha : n.active = true)
    (hfar : 2 ≤ xorDistance me n.info.id) (hout : n.info ∉ getClosestNodes me t id) :
    ((getClosestNodes me t id).filter (·.addr.ipv6 == n.info.addr.ipv6)).length = 8 ∧
    ∀ x ∈ getClosestNodes me t id, x.addr.ipv6 = n.info.addr.ipv6 →
      Nat.log2 (xorDistance x.id id) ≤ Nat.log2 (xorDistance n.info.id id) := by
  refine closest_best h id hm hid hl n ?_ ha hout
  obtain ⟨k, hk⟩ := List.mem_iff_getElem?.mp hb
  have hlive : n ∈ live t k := mem_live.mpr ⟨b, hk, hn⟩
  have hbk := live_bucket h hlive
  have hk160 : k < 160 := by rw [← h.1]; exact (List.getElem?_eq_some_iff.mp hk).1
  rw [bucketId_lg me _ hm (hl b hb n hn)] at hbk
  have h1 : 1 ≤ k := by
    rw [← hbk]; unfold lg; rw [Nat.log2_def, if_pos hfar]; omega
  unfold visited
  exact List.mem_flatMap.mpr ⟨k, mem_order.mpr (by omega), hlive⟩

private def exNodes : List TOp := (List.range 12).map fun k => TOp.responded (⟨UInt8.ofNat (2 ^ (k % 3 + 4)) :: List.replicate 18 0 ++ [UInt8.ofNat k], ⟨List.replicate 16 1, 80, k == 11⟩⟩) 1

example : let t := runTable (List.replicate 20 0) Table.empty exNodes
    (getClosestNodes (List.replicate 20 0) t (32 :: List.replicate 19 0)).map (·.id.getLast?) =
      [some 1, some 4, some 7, some 10, some 0, some 3, some 6, some 9, some 11] := by decide +kernel

/-- C59 is false for the two ids nearest to the own one: they are never given, even alone in the table
and asked for themselves. -/
theorem C59_neighbour_violated (me : Id) (hm : me.length = 20) (t : Table) (h : GoodTable me t) (id : Id) (x : NodeInfo)
    (hx : x.id.length = 20) (hnear : xorDistance me x.id < 2) : x ∉ getClosestNodes me t id := by
  intro hc
  rw [getClosestNodes_eq] at hc
  obtain ⟨r, h1, h2⟩ := collect_sublist {} ((order (bucketId me id)).flatMap (live t))
  rw [h1] at hc
  obtain ⟨n, hn, he⟩ := List.mem_map.mp (h2.subset (by simpa using hc))
  obtain ⟨hn, _⟩ := List.mem_filter.mp hn
  obtain ⟨i, hi, hn⟩ := List.mem_flatMap.mp hn
  have hb := live_bucket h hn
  rw [he, bucketId_lg me _ hm hx] at hb
  unfold lg at hb
  rw [Nat.log2_def, if_neg (by omega)] at hb
  have := mem_order.mp hi
  omega

example : xorDistance (List.replicate 20 7) (List.replicate 19 7 ++ [6]) < 2 := by decide

end Verif
