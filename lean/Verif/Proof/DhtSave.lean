import Verif.Proof.DhtTable

namespace Verif.Dht
open Verif Net Spec Bencode

theorem findSub_here (pat t : List UInt8) (hp : pat ≠ []) : findSub pat (pat ++ t) = some 0 := by
  cases pat with
  | nil => exact absurd rfl hp
  | cons a p => rw [List.cons_append]; unfold findSub; rw [← List.cons_append, List.take_left' rfl]; simp

theorem head91 : ∀ k, 1 ≤ k → nodesEnd[k]? ≠ some 91 := by
  intro k hk hc
  have hlt : k < 9 := by
    rcases Nat.lt_or_ge k 9 with h | h
    · exact h
    · rw [List.getElem?_eq_none (by exact h)] at hc; simp at hc
  have : ∀ k : Fin 9, 1 ≤ k.val → nodesEnd[k.val]? ≠ some 91 := by decide
  exact this ⟨k, hlt⟩ hk hc

/-- The end marker is found behind a text that does not contain it. -/
theorem findSub_end (x r : List UInt8) (h : ¬ nodesEnd <:+: x) : findSub nodesEnd (x ++ (nodesEnd ++ r)) = some x.length := by
  induction x with
  | nil => exact findSub_here _ _ (by decide)
  | cons a x ih =>
    have hx : ¬ nodesEnd <:+: x := fun hc => h (hc.trans (List.infix_cons (List.infix_refl x)))
    rw [List.cons_append]
    unfold findSub
    rw [ih hx, if_neg]
    · rfl
    · intro hc
      rw [show nodesEnd.length = 9 from rfl] at hc
      rcases Nat.lt_or_ge (x.length + 1) 9 with hl | hl
      · have h91 : ((a :: (x ++ (nodesEnd ++ r))).take 9)[x.length + 1]? = some 91 := by
          rw [List.getElem?_take_of_lt hl, List.getElem?_cons_succ, List.getElem?_append_right (Nat.le_refl _), Nat.sub_self]
          rfl
        rw [hc] at h91
        exact head91 _ (by omega) h91
      · apply h
        have : nodesEnd <+: a :: x := by
          rw [List.prefix_iff_eq_take, show nodesEnd.length = 9 from rfl, ← hc, ← List.cons_append,
            List.take_append_of_le_length (by simpa using hl)]
        exact this.isInfix

theorem leVal_le16 (p : Nat) (h : p < 65536) : leVal (le16 p) = p := by
  simp [leVal, le16, UInt8.toNat_ofNat']; omega

/-- What loading makes of a saved node. -/
def reloaded (n : TNode) : TNode := { info := n.info }

theorem saveNode_length {n : TNode} (h : StorableNode n) : (saveNode n).length = 39 := by
  unfold saveNode; simp [h.1, h.2.1, le16]

theorem loadNodes_save : ∀ (ns : List TNode) (fuel : Nat), (∀ n ∈ ns, StorableNode n) → (ns.flatMap saveNode).length < fuel →
    loadNodes fuel (ns.flatMap saveNode) = .ok (ns.map reloaded)
  | ns, 0, _, h => by omega
  | [], f + 1, _, _ => by simp [loadNodes]
  | n :: ns, f + 1, hs, hl => by
    have hn := hs n (by simp)
    have h39 := saveNode_length hn
    rw [List.flatMap_cons, List.length_append] at hl
    have ih := loadNodes_save ns f (fun m hm => hs m (by simp [hm])) (by omega)
    obtain ⟨h1, h2, h3⟩ := hn
    unfold loadNodes
    rw [List.flatMap_cons]
    have hne : (saveNode n ++ ns.flatMap saveNode).isEmpty = false := by
      rw [List.isEmpty_eq_false_iff_exists_mem]
      cases hc : saveNode n with
      | nil => rw [hc] at h39; simp at h39
      | cons a l => exact ⟨a, by simp⟩
    rw [if_neg (by simp [hne]), if_neg (by rw [List.length_append]; omega), List.drop_left' h39, ih]
    simp only [Res.bind_ok, Res.pure_eq, List.map_cons]
    congr 2
    unfold reloaded
    have e : saveNode n ++ ns.flatMap saveNode = n.info.id ++ (n.info.addr.bytes ++ (le16 n.info.addr.port ++
        ((if n.info.addr.ipv6 then 1 else 0) :: ns.flatMap saveNode))) := by simp [saveNode]
    have d20 : (saveNode n ++ ns.flatMap saveNode).drop 20 = n.info.addr.bytes ++ (le16 n.info.addr.port ++
        ((if n.info.addr.ipv6 then 1 else 0) :: ns.flatMap saveNode)) := by rw [e, List.drop_left' h1]
    have d36 : (saveNode n ++ ns.flatMap saveNode).drop 36 = le16 n.info.addr.port ++
        ((if n.info.addr.ipv6 then 1 else 0) :: ns.flatMap saveNode) := by
      rw [show 36 = 20 + 16 from rfl, ← List.drop_drop, d20, List.drop_left' h2]
    have d38 : (saveNode n ++ ns.flatMap saveNode).drop 38 = (if n.info.addr.ipv6 then 1 else 0) :: ns.flatMap saveNode := by
      rw [show 38 = 36 + 2 from rfl, ← List.drop_drop, d36]; rfl
    rw [d20, d36, d38, e, List.take_left' h1, List.take_left' h2, List.take_left' (l₁ := le16 n.info.addr.port) (i := 2) rfl, leVal_le16 _ h3]
    rcases hinfo : n.info with ⟨id, ⟨bytes, port, v6⟩⟩
    cases v6 <;> simp

theorem stoi_dec (n : Nat) (h : n < 160) : stoi (dec n) = .ok (n : Int) := by
  unfold stoi
  rw [strtol_dec n 0 [] (by decide) (by omega)]
  simp only [Res.bind_ok, Res.pure_eq]
  have : (dec n).length ≠ 0 := by
    have := dec_ne_nil n
    intro hc; exact this (List.length_eq_zero_iff.mp hc)
  rw [if_neg this, if_neg (by omega)]

theorem dec_line (n : Nat) (r : List UInt8) : (dec n ++ 10 :: r).takeWhile (· ≠ 10) = dec n := by
  rw [List.takeWhile_append_of_pos]
  · simp
  · intro c hc
    have := dec_digits n c hc
    have h10 : isDigit 10 = false := by decide
    simp only [ne_eq, decide_not, Bool.not_eq_eq_eq_not, Bool.not_true, decide_eq_false_iff_not]
    rintro rfl
    rw [h10] at this; simp at this

/-- Appending saved buckets to a table. -/
def addAll : Nat → List Bucket → Table → Table
  | _, [], t => t
  | i, b :: bs, t => addAll (i + 1) bs (if b.nodes.isEmpty then t else t.modify i fun x => { x with nodes := x.nodes ++ b.nodes.map reloaded })

def total (bs : List Bucket) : Nat := (bs.map (·.nodes.length)).sum

theorem loadLoop_save : ∀ (bs : List Bucket) (i fuel : Nat) (t : Table) (c : Nat), i + bs.length ≤ 160 →
    (∀ b ∈ bs, ∀ n ∈ b.nodes, StorableNode n) → (∀ b ∈ bs, ¬ nodesEnd <:+: b.nodes.flatMap saveNode) → (saveBuckets i bs).length < fuel →
    loadLoop fuel (saveBuckets i bs ++ bucketsEnd) t c = .ok (c + total bs, addAll i bs t)
  | bs, i, 0, t, c, _, _, _, hl => by omega
  | [], i, f + 1, t, c, _, _, _, _ => by
    unfold loadLoop saveBuckets addAll
    simp [total, bucketsEnd, ascii]
  | b :: bs, i, f + 1, t, c, hi, hs, hm, hl => by
    have hs' : ∀ b ∈ bs, ∀ n ∈ b.nodes, StorableNode n := fun x hx => hs x (by simp [hx])
    have hm' : ∀ b ∈ bs, ¬ nodesEnd <:+: b.nodes.flatMap saveNode := fun x hx => hm x (by simp [hx])
    simp only [List.length_cons] at hi
    by_cases he : b.nodes.isEmpty = true
    · have h0 : b.nodes.length = 0 := by rw [List.isEmpty_iff.mp he]; rfl
      unfold saveBuckets addAll
      rw [if_pos he, if_pos he, List.nil_append]
      rw [loadLoop_save bs (i + 1) (f + 1) t c (by omega) hs' hm' (by unfold saveBuckets at hl; rw [if_pos he] at hl; simpa using hl)]
      simp [total, h0]
    · unfold saveBuckets at hl ⊢
      unfold addAll
      rw [if_neg he] at hl ⊢
      rw [if_neg he]
      have e : Bencode.dec i ++ [10] ++ nodesStart ++ b.nodes.flatMap saveNode ++ nodesEnd ++ saveBuckets (i + 1) bs ++ bucketsEnd =
          dec i ++ 10 :: (nodesStart ++ (b.nodes.flatMap saveNode ++ (nodesEnd ++ (saveBuckets (i + 1) bs ++ bucketsEnd)))) := by simp
      rw [e]
      unfold loadLoop
      rw [if_neg (by
        have h1 : nodesStart.length = 8 := rfl
        have h2 : nodesEnd.length = 9 := rfl
        have h3 : bucketsEnd.length = 11 := rfl
        simp only [List.length_append, List.length_cons, h1, h2, h3]; omega)]
      simp only
      rw [dec_line, stoi_dec i (by omega)]
      simp only [Res.bind_ok]
      have hd : (dec i ++ 10 :: (nodesStart ++ (b.nodes.flatMap saveNode ++ (nodesEnd ++ (saveBuckets (i + 1) bs ++ bucketsEnd))))).drop
          ((dec i).length + 1) = nodesStart ++ (b.nodes.flatMap saveNode ++ (nodesEnd ++ (saveBuckets (i + 1) bs ++ bucketsEnd))) := by
        rw [← List.drop_drop, List.drop_left' rfl]; rfl
      rw [hd, List.take_left' (l₁ := nodesStart) (i := 8) rfl, if_neg (by simp), List.drop_left' (l₁ := nodesStart) (i := 8) rfl, findSub_end _ _ (hm b (by simp))]
      simp only
      rw [if_neg (by omega), List.take_left' rfl, loadNodes_save _ _ (hs b (by simp)) (by omega)]
      simp only [Res.bind_ok]
      have hd2 : (b.nodes.flatMap saveNode ++ (nodesEnd ++ (saveBuckets (i + 1) bs ++ bucketsEnd))).drop ((b.nodes.flatMap saveNode).length + 9) =
          saveBuckets (i + 1) bs ++ bucketsEnd := by
        rw [← List.drop_drop, List.drop_left' rfl, List.drop_left' (l₁ := nodesEnd) (i := 9) rfl]
      rw [hd2, loadLoop_save bs (i + 1) f _ _ (by omega) hs' hm' (by
        simp only [List.length_append, List.length_cons, List.length_nil] at hl; omega)]
      simp only [Int.toNat_natCast]
      congr 2
      simp [total]; omega

theorem addAll_spec : ∀ (bs : List Bucket) (i : Nat) (t : Table) (j : Nat), i + bs.length ≤ t.length →
    (addAll i bs t)[j]? = if i ≤ j ∧ j < i + bs.length then
      (t[j]?).map fun x => { x with nodes := x.nodes ++ ((bs[j - i]?).elim [] (·.nodes)).map reloaded } else t[j]?
  | [], i, t, j, _ => by unfold addAll; rw [if_neg (by simp only [List.length_nil]; omega)]
  | b :: bs, i, t, j, h => by
    simp only [List.length_cons] at h
    unfold addAll
    rw [addAll_spec bs (i + 1) _ j (by split <;> (try rw [List.length_modify]) <;> omega)]
    have hmod : (if b.nodes.isEmpty then t else t.modify i fun x => { x with nodes := x.nodes ++ b.nodes.map reloaded })[j]? =
        if i = j then (t[j]?).map fun x => { x with nodes := x.nodes ++ b.nodes.map reloaded } else t[j]? := by
      split
      · rename_i he
        rw [List.isEmpty_iff.mp he]
        split <;> simp
      · rw [List.getElem?_modify]
        by_cases e : i = j
        · rw [if_pos e]; simp [e]
        · rw [if_neg e]; simp [e]
    rw [hmod]
    by_cases e : i = j
    · subst e
      rw [if_neg (by omega), if_pos rfl, if_pos (by simp)]
      simp
    · rw [if_neg e]
      by_cases h2 : i + 1 ≤ j ∧ j < i + 1 + bs.length
      · rw [if_pos h2, if_pos (by simp; omega)]
        obtain ⟨k, rfl⟩ : ∃ k, j = i + 1 + k := ⟨j - (i + 1), by omega⟩
        rw [show i + 1 + k - i = k + 1 by omega, show i + 1 + k - (i + 1) = k by omega, List.getElem?_cons_succ]
      · rw [if_neg h2, if_neg (by simp; omega)]

theorem load_save (t : Table) (ht : t.length = 160) (hs : ∀ b ∈ t, ∀ n ∈ b.nodes, StorableNode n)
    (hm : ∀ b ∈ t, ¬ nodesEnd <:+: b.nodes.flatMap saveNode) (u : Table) :
    load (save t) u = .ok (total t, addAll 0 t u) := by
  unfold load
  have e : save t = bucketsStart ++ (saveBuckets 0 t ++ bucketsEnd) := by unfold save; rw [List.append_assoc]
  have h1 : bucketsStart.length = 10 := rfl
  have h2 : bucketsEnd.length = 11 := rfl
  rw [e, List.take_left' h1, if_neg (by simp), if_neg (by simp only [List.length_append, h1, h2]; omega)]
  rw [if_neg]
  · rw [List.drop_left' h1, loadLoop_save t 0 _ u 0 (by omega) hs hm (by simp only [List.length_append]; omega), Nat.zero_add]
  · rw [← List.append_assoc, List.drop_left' (by simp only [List.length_append, h2]; omega)]
    simp

theorem addAll_empty (t : Table) (ht : t.length = 160) :
    addAll 0 t Table.empty = t.map fun b => { nodes := b.nodes.map reloaded } := by
  apply List.ext_getElem?
  intro j
  rw [addAll_spec t 0 _ j (by simp [Table.empty, ht]), List.getElem?_map]
  simp only [Nat.zero_le, Nat.zero_add, true_and, Nat.sub_zero]
  by_cases hj : j < t.length
  · rw [if_pos hj, List.getElem?_eq_getElem hj]
    have : Table.empty[j]? = some {} := by
      unfold Table.empty; rw [List.getElem?_replicate, if_pos (by omega)]
    rw [this]; simp
  · rw [if_neg hj, List.getElem?_eq_none (l := t) (by omega)]
    unfold Table.empty; rw [List.getElem?_replicate, if_neg (by omega)]; rfl

end Verif.Dht
