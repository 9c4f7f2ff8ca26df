import Verif.Spec.Downloader
import Verif.Proof.Layout
import Mathlib.Data.List.Perm.Subperm
import Mathlib.Data.List.Nodup
/-! The sending of requests: what `evaluate` does to the entries of a peer. -/

namespace Verif.Downloader
open Verif Layout Progress PieceState Spec Spec.Download

/-- The flag of block `x` is set. -/
def Flag (c : List ReqPiece) (x : Nat × Nat) : Prop := ∃ r ∈ c, r.idx = x.1 ∧ r.blocks[x.2]? = some true

def total (c : List ReqPiece) : Nat := (c.map (·.active)).sum

/-- The entries of the peer `p` fit the requests. -/
def CurOk (m : Map Req) (p : Nat) (c : List ReqPiece) : Prop :=
  (c.map (·.idx)).Nodup ∧ ∀ r ∈ c, ∃ q, m.get r.idx = some q ∧ p ∈ q.active ∧
    r.blocks.length = q.piece.blocksState.length ∧ r.active = r.blocks.count true

def ReqOk (i : Info) (m : Map Req) : Prop :=
  ∀ idx q, (idx, q) ∈ m → q.piece.index = idx ∧ q.piece.blocksState.length = getPieceBlocksCount i idx

theorem ReqOk.get {i : Info} {m : Map Req} (h : ReqOk i m) (idx : Nat) (q : Req) (hq : m.get idx = some q) :
    q.piece.index = idx ∧ q.piece.blocksState.length = getPieceBlocksCount i idx := h idx q (Map.get_mem hq)

def Kept (i : Info) (l : List PState) : Prop :=
  ∀ u ∈ l, u.downloadedSize ≠ 0 → u.blocksState.length = getPieceBlocksCount i u.index

/-- `m'` has everything of `m`, with the same pieces. -/
def Grow (m m' : Map Req) : Prop :=
  ∀ idx q, m.get idx = some q → ∃ q', m'.get idx = some q' ∧ q'.piece = q.piece ∧ (∀ p ∈ q.active, p ∈ q'.active) ∧
    q'.sources = q.sources

theorem Grow.refl (m : Map Req) : Grow m m := fun _ q h => ⟨q, h, rfl, fun _ h => h, rfl⟩

theorem Grow.trans {a b c : Map Req} (h : Grow a b) (h' : Grow b c) : Grow a c := by
  intro idx q hq
  obtain ⟨q1, h1, e1, a1, s1⟩ := h idx q hq
  obtain ⟨q2, h2, e2, a2, s2⟩ := h' idx q1 h1
  exact ⟨q2, h2, e2.trans e1, fun p hp => a2 p (a1 p hp), s2.trans s1⟩

theorem CurOk.grow {m m' : Map Req} {p : Nat} {c : List ReqPiece} (h : CurOk m p c) (g : Grow m m') : CurOk m' p c := by
  refine ⟨h.1, fun r hr => ?_⟩
  obtain ⟨q, hq, ha, hl, hc⟩ := h.2 r hr
  obtain ⟨q', h', e, a, -⟩ := g _ q hq
  exact ⟨q', h', a p ha, by rw [e]; exact hl, hc⟩

/-- Requests for the blocks `xs` are sent: their flags were not set and are set now, and the blocks
are not received. -/
structure Sent (i : Info) (m : Map Req) (c c' : List ReqPiece) (o : List BlockInfo) (xs : List (Nat × Nat)) : Prop where
  out : o = xs.map fun x => getPieceBlockInfo i x.1 x.2
  nodup : xs.Nodup
  free : ∀ x ∈ xs, ¬ Flag c x
  small : ∀ x ∈ xs, x.2 < 65536
  unreceived : ∀ x ∈ xs, ∃ q, m.get x.1 = some q ∧ q.piece.blocksState[x.2]? = some 0
  flags : ∀ x, Flag c' x ↔ Flag c x ∨ x ∈ xs
  total : total c' = total c + xs.length
  entry : ∀ x ∈ xs, ∃ r ∈ c', r.idx = x.1

theorem Sent.refl (i : Info) (m : Map Req) (c : List ReqPiece) : Sent i m c c [] [] :=
  ⟨rfl, List.nodup_nil, by simp, by simp, by simp, by simp, by simp, by simp⟩

theorem Sent.trans {i : Info} {m m' : Map Req} {a b c : List ReqPiece} {o o' : List BlockInfo} {xs ys : List (Nat × Nat)}
    (h : Sent i m a b o xs) (h' : Sent i m' b c o' ys) (g : Grow m m') (hk : ∀ r ∈ b, ∃ r' ∈ c, r'.idx = r.idx) :
    Sent i m' a c (o ++ o') (xs ++ ys) where
  out := by simp [h.out, h'.out]
  nodup := by
    rw [List.nodup_append]
    refine ⟨h.nodup, h'.nodup, fun x hx y hy e => ?_⟩
    subst e
    exact h'.free x hy ((h.flags x).2 (Or.inr hx))
  free := by
    intro x hx
    rcases List.mem_append.1 hx with hx | hx
    · exact h.free x hx
    · exact fun hf => h'.free x hx ((h.flags x).2 (Or.inl hf))
  small := by
    intro x hx
    rcases List.mem_append.1 hx with hx | hx
    · exact h.small x hx
    · exact h'.small x hx
  unreceived := by
    intro x hx
    rcases List.mem_append.1 hx with hx | hx
    · obtain ⟨q, hq, hb⟩ := h.unreceived x hx
      obtain ⟨q', hq', e, -⟩ := g _ q hq
      exact ⟨q', hq', by rw [e]; exact hb⟩
    · exact h'.unreceived x hx
  flags := by
    intro x
    rw [h'.flags, h.flags, List.mem_append, or_assoc]
  total := by rw [h'.total, h.total, List.length_append]; omega
  entry := by
    intro x hx
    rcases List.mem_append.1 hx with hx | hx
    · obtain ⟨r, hr, e⟩ := h.entry x hx
      obtain ⟨r', hr', e'⟩ := hk r hr
      exact ⟨r', hr', e'.trans e⟩
    · exact h'.entry x hx

theorem count_set_true (l : List Bool) (k : Nat) (h : l[k]? = some false) : (l.set k true).count true = l.count true + 1 := by
  obtain ⟨hk, e⟩ := List.getElem?_eq_some_iff.1 h
  rw [List.count_set hk]; simp [e]

theorem count_set_false (l : List Bool) (k : Nat) (h : l[k]? = some true) : (l.set k false).count true = l.count true - 1 := by
  obtain ⟨hk, e⟩ := List.getElem?_eq_some_iff.1 h
  rw [List.count_set hk]; simp [e]

/-- One entry: what the loop sends. -/
theorem sendLoop_spec (i : Info) (bs : List UInt8) (bc max : Nat) (hbc : 0 < bc) (n : Nat) :
    ∀ (next count : Nat) (r r' : ReqPiece) (count' : Nat) (o : List BlockInfo), next < bc → count < max →
      r.active + (max - count) < 4294967296 → r.active = r.blocks.count true →
      sendLoop i bs bc max n next count r = .ok (r', count', o) →
      ∃ ks : List Nat, o = ks.map (getPieceBlockInfo i r.idx) ∧ ks.Nodup ∧ count' = count + ks.length ∧ count' ≤ max ∧
        (∀ k ∈ ks, k < bc ∧ r.blocks[k]? = some false ∧ bs[k]? = some 0) ∧
        (∀ k, r'.blocks[k]? = if k ∈ ks then some true else r.blocks[k]?) ∧
        r'.idx = r.idx ∧ r'.blocks.length = r.blocks.length ∧ r'.active = r.active + ks.length ∧
        r'.active = r'.blocks.count true := by
  induction n with
  | zero =>
    intro next count r r' count' o _ hc _ hact h
    simp only [sendLoop, Res.ok.injEq, Prod.mk.injEq] at h
    obtain ⟨rfl, rfl, rfl⟩ := h
    exact ⟨[], rfl, List.nodup_nil, by simp, by omega, by simp, by simp, rfl, rfl, by simp, hact⟩
  | succ n ih =>
    intro next count r r' count' o hn hc hb hact h
    unfold sendLoop at h
    cases hr : rd bs next with
    | ub => rw [hr] at h; simp at h
    | diverge => rw [hr] at h; simp at h
    | ok b =>
      rw [hr] at h
      simp only [Res.bind_ok] at h
      have hb' : bs[next]? = some b := by
        unfold rd at hr; split at hr
        · next a e => simp only [Res.ok.injEq] at hr; rw [e, hr]
        · simp at hr
      have hnext : (next + 1) % bc < bc := Nat.mod_lt _ hbc
      -- not sent
      have skip : ∀ (h : (if count = max then (Res.ok (r, count, []) : Res (ReqPiece × Nat × List BlockInfo)) else do
            let t ← sendLoop i bs bc max n ((next + 1) % bc) count r
            pure (t.1, t.2.1, [] ++ t.2.2)) = .ok (r', count', o)),
          ∃ ks : List Nat, o = ks.map (getPieceBlockInfo i r.idx) ∧ ks.Nodup ∧ count' = count + ks.length ∧ count' ≤ max ∧
            (∀ k ∈ ks, k < bc ∧ r.blocks[k]? = some false ∧ bs[k]? = some 0) ∧
            (∀ k, r'.blocks[k]? = if k ∈ ks then some true else r.blocks[k]?) ∧
            r'.idx = r.idx ∧ r'.blocks.length = r.blocks.length ∧ r'.active = r.active + ks.length ∧
            r'.active = r'.blocks.count true := by
        intro h
        rw [if_neg (by omega)] at h
        cases ht : sendLoop i bs bc max n ((next + 1) % bc) count r with
        | ub => rw [ht] at h; simp at h
        | diverge => rw [ht] at h; simp at h
        | ok t =>
          rw [ht] at h
          simp only [Res.bind_ok, Res.pure_eq, List.nil_append, Res.ok.injEq, Prod.mk.injEq] at h
          obtain ⟨rfl, rfl, rfl⟩ := h
          exact ih _ _ _ _ _ _ hnext hc hb hact ht
      by_cases hz : b = 0
      · subst hz
        cases hf : rd r.blocks next with
        | ub => rw [hf] at h; simp at h
        | diverge => rw [hf] at h; simp at h
        | ok f =>
          have hf' : r.blocks[next]? = some f := by
            unfold rd at hf; split at hf
            · next a e => simp only [Res.ok.injEq] at hf; rw [e, hf]
            · simp at hf
          rw [hf] at h
          cases f with
          | true =>
            simp only [if_true, Res.bind_ok, Res.pure_eq, Bool.not_true, Bool.false_eq_true, if_false] at h
            exact skip h
          | false =>
            simp only [if_true, Res.bind_ok, Res.pure_eq, Bool.not_false] at h
            have hact1 : u32 (r.active + 1) = r.active + 1 := u32_id (by omega)
            rw [hact1] at h
            have hcnt := count_set_true r.blocks next hf'
            by_cases hmax : count + 1 = max
            · rw [if_pos hmax] at h
              simp only [Res.ok.injEq, Prod.mk.injEq] at h
              obtain ⟨rfl, rfl, rfl⟩ := h
              refine ⟨[next], rfl, by simp, by simp, by omega, ?_, ?_, rfl, by simp, by simp, by simp only; omega⟩
              · intro k hk
                rw [List.mem_singleton] at hk
                subst hk
                exact ⟨hn, hf', hb'⟩
              · intro k
                have hlt := (List.getElem?_eq_some_iff.1 hf').1
                simp only [List.mem_singleton]
                rw [List.getElem?_set]
                by_cases e : next = k
                · subst e; simp [hlt]
                · simp [e, Ne.symm e]
            · rw [if_neg hmax] at h
              cases ht : sendLoop i bs bc max n ((next + 1) % bc) (count + 1)
                  { r with blocks := r.blocks.set next true, active := r.active + 1 } with
              | ub => rw [ht] at h; simp at h
              | diverge => rw [ht] at h; simp at h
              | ok t =>
                rw [ht] at h
                simp only [Res.bind_ok, Res.pure_eq, Res.ok.injEq, Prod.mk.injEq] at h
                obtain ⟨rfl, rfl, rfl⟩ := h
                have hlt := (List.getElem?_eq_some_iff.1 hf').1
                obtain ⟨ks, ho, hnd, hcount, hle, hks, hbl, hidx, hlen, hac, hcn⟩ :=
                  ih _ (count + 1) { r with blocks := r.blocks.set next true, active := r.active + 1 } t.1 t.2.1 t.2.2
                    hnext (by omega) (by simp only; omega) (by simp only; omega) ht
                have hnot : next ∉ ks := by
                  intro hm
                  have := (hks next hm).2.1
                  simp [hlt] at this
                refine ⟨next :: ks, ?_, List.nodup_cons.2 ⟨hnot, hnd⟩, by simp only [List.length_cons]; omega, hle, ?_, ?_,
                  hidx, by simpa using hlen, by simp only [List.length_cons]; simp only at hac; omega, hcn⟩
                · rw [ho]; simp
                · intro k hk
                  rcases List.mem_cons.1 hk with rfl | hk
                  · exact ⟨hn, hf', hb'⟩
                  · obtain ⟨a, b, c⟩ := hks k hk
                    refine ⟨a, ?_, c⟩
                    rw [List.getElem?_set] at b
                    by_cases e : next = k
                    · subst e; exact absurd hk hnot
                    · simpa [e] using b
                · intro k
                  rw [hbl k]
                  simp only [List.mem_cons]
                  by_cases e : k ∈ ks
                  · simp [e]
                  · simp only [e, if_false, or_false]
                    rw [List.getElem?_set]
                    by_cases e2 : next = k
                    · subst e2; simp [hlt]
                    · simp [e2, Ne.symm e2]
      · simp only [hz, if_false, Res.pure_eq, Res.bind_ok, Bool.false_eq_true] at h
        exact skip h

theorem getPieceBlockInfo_inj {i : Info} {a b c d : Nat} (hb : b < 65536) (hd : d < 65536)
    (h : getPieceBlockInfo i a b = getPieceBlockInfo i c d) : a = c ∧ b = d := by
  simp only [getPieceBlockInfo, BlockInfo.mk.injEq] at h
  refine ⟨h.1, ?_⟩
  have := h.2.1
  unfold u32 BlockMaxSize at this
  omega

theorem blockOf_info (i : Info) (a b : Nat) (hb : b < 65536) : blockOf (getPieceBlockInfo i a b) = (a, b) := by
  simp only [blockOf, getPieceBlockInfo, u32, BlockMaxSize, Prod.mk.injEq, true_and]
  omega

theorem flag_cons (r : ReqPiece) (c : List ReqPiece) (x : Nat × Nat) :
    Flag (r :: c) x ↔ (r.idx = x.1 ∧ r.blocks[x.2]? = some true) ∨ Flag c x := by
  simp [Flag]

theorem flag_append (c c' : List ReqPiece) (x : Nat × Nat) : Flag (c ++ c') x ↔ Flag c x ∨ Flag c' x := by
  simp [Flag, or_and_right, exists_or]

@[simp] theorem total_cons (r : ReqPiece) (c : List ReqPiece) : total (r :: c) = r.active + total c := by simp [total]
@[simp] theorem total_append (c c' : List ReqPiece) : total (c ++ c') = total c + total c' := by simp [total]
@[simp] theorem total_nil : total [] = 0 := rfl

/-- `sendPieceRequests` on an entry that fits its request. -/
theorem send_spec {i : Info} {r r' : ReqPiece} {q q' : Req} {max n : Nat} {o : List BlockInfo} {m : Map Req}
    (hm : m.get r.idx = some q) (h0 : 0 < max) (hmx : r.active + max < 4294967296)
    (hact : r.active = r.blocks.count true)
    (h : sendPieceRequests i r q max = .ok (r', q', n, o)) :
    ∃ xs, Sent i m [r] [r'] o xs ∧ n = xs.length ∧ n ≤ max ∧ r'.idx = r.idx ∧ r'.blocks.length = r.blocks.length ∧
      r'.active = r'.blocks.count true ∧ q'.piece = q.piece ∧ q'.active = q.active ∧ q'.sources = q.sources ∧
      q.piece.blocksState.length % 65536 ≠ 0 := by
  unfold sendPieceRequests at h
  by_cases hbc : q.piece.blocksState.length % 65536 = 0
  · simp [hbc] at h
  · simp only [hbc, if_false] at h
    cases ht : sendLoop i q.piece.blocksState (q.piece.blocksState.length % 65536) max
        (q.piece.blocksState.length % 65536) (q.counter % (q.piece.blocksState.length % 65536)) 0 r with
    | ub => rw [ht] at h; simp at h
    | diverge => rw [ht] at h; simp at h
    | ok t =>
      rw [ht] at h
      simp only [Res.bind_ok, Res.pure_eq, Res.ok.injEq, Prod.mk.injEq] at h
      obtain ⟨rfl, rfl, rfl, rfl⟩ := h
      have hpos : 0 < q.piece.blocksState.length % 65536 := Nat.pos_of_ne_zero hbc
      obtain ⟨ks, ho, hnd, hcount, hle, hks, hbl, hidx, hlen, hac, hcn⟩ :=
        sendLoop_spec i _ _ max hpos _ _ 0 r t.1 t.2.1 t.2.2 (Nat.mod_lt _ hpos) h0 (by omega) hact ht
      have hlt : q.piece.blocksState.length % 65536 < 65536 := Nat.mod_lt _ (by omega)
      have hmem : ∀ x : Nat × Nat, x ∈ ks.map (fun k => (r.idx, k)) ↔ x.1 = r.idx ∧ x.2 ∈ ks := by
        intro x
        obtain ⟨a, b⟩ := x
        simp only [List.mem_map, Prod.mk.injEq]
        constructor
        · rintro ⟨k, hk, rfl, rfl⟩; exact ⟨rfl, hk⟩
        · rintro ⟨rfl, hk⟩; exact ⟨b, hk, rfl, rfl⟩
      refine ⟨ks.map fun k => (r.idx, k), ⟨?_, ?_, ?_, ?_, ?_, ?_, ?_, ?_⟩, by simp; omega, hle, hidx, hlen, hcn, rfl, rfl,
        rfl, hbc⟩
      · rw [ho, List.map_map]; rfl
      · exact hnd.map (by intro a b e; simpa using e)
      · intro x hx hf
        obtain ⟨e, hk⟩ := (hmem x).1 hx
        obtain ⟨r0, hr0, -, hb⟩ := hf
        rw [List.mem_singleton] at hr0
        subst hr0
        have := (hks _ hk).2.1
        rw [hb] at this; simp at this
      · intro x hx
        have := (hks _ ((hmem x).1 hx).2).1
        omega
      · intro x hx
        obtain ⟨e, hk⟩ := (hmem x).1 hx
        exact ⟨q, by rw [e]; exact hm, (hks _ hk).2.2⟩
      · intro x
        rw [hmem]
        simp only [Flag, List.mem_singleton, exists_eq_left, hidx, hbl]
        by_cases hk : x.2 ∈ ks
        · simp only [hk, if_true, and_true]
          constructor
          · intro e; exact Or.inr e.symm
          · rintro (⟨e, -⟩ | e)
            · exact e
            · exact e.symm
        · simp [hk]
      · simp [hac]
      · intro x hx
        exact ⟨t.1, by simp, by rw [hidx, ((hmem x).1 hx).1]⟩

end Verif.Downloader
