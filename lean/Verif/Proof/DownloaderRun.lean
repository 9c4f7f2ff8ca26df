import Verif.Proof.DownloaderEval
/-! Every event keeps the entries of the peers, what is pending and what is there in step. -/

namespace Verif.Downloader
open Verif Layout Progress PieceState Spec Spec.Download

structure Inv (s : St) : Prop where
  base : Base s
  cur : ∀ p i, s.infos.get p = some i → CurOk s.requests p i.current ∧ total i.current ≤ 100

/-- What is pending has its flag set. -/
def Sim (s : St) (f : Pending) : Prop :=
  ∀ p, (f p).Nodup ∧ ∀ x ∈ f p, ∃ i, s.infos.get p = some i ∧ Flag i.current x

/-- What is there is marked in the piece. -/
def GotOk (s : St) (g : List (Nat × Nat)) : Prop :=
  ∀ x ∈ g, ∃ q, s.requests.get x.1 = some q ∧ ∃ c, q.piece.blocksState[x.2]? = some c ∧ c ≠ 0

/-- No request for what is pending or there. -/
def Fine (f : Pending) (g : List (Nat × Nat)) : List Act → Prop
  | [] => True
  | a :: as => (∀ p b, a = .request p b → blockOf b ∉ f p ∧ blockOf b ∉ g) ∧ Fine (pendingAct f a) (gotAct g a) as

theorem fine_append (f : Pending) (g : List (Nat × Nat)) (as bs : List Act) :
    Fine f g (as ++ bs) ↔ Fine f g as ∧ Fine (as.foldl pendingAct f) (as.foldl gotAct g) bs := by
  induction as generalizing f g with
  | nil => simp [Fine]
  | cons a as ih => simp [Fine, ih, and_assoc]

/-- The requests of the peer are within its limit. -/
def Within (s : St) (p : Nat) : Prop := ∃ i, s.infos.get p = some i ∧ total i.current ≤ limit i.delta

structure Trans (s s' : St) (as : List Act) : Prop where
  inv : Inv s'
  sim : ∀ f g, Sim s f → GotOk s g →
    Fine f g as ∧ Sim s' (as.foldl pendingAct f) ∧ GotOk s' (as.foldl gotAct g)
  asked : ∀ p b, .request p b ∈ as → Within s' p

theorem Trans.refl {s : St} (h : Inv s) : Trans s s [] := ⟨h, fun _ _ hf hg => ⟨trivial, hf, hg⟩, by simp⟩

theorem Trans.trans {a b c : St} {as bs : List Act} (h : Trans a b as) (h' : Trans b c bs)
    (hk : ∀ p, Within b p → Within c p) : Trans a c (as ++ bs) where
  inv := h'.inv
  sim := by
    intro f g hf hg
    obtain ⟨a1, a2, a3⟩ := h.sim f g hf hg
    obtain ⟨b1, b2, b3⟩ := h'.sim _ _ a2 a3
    rw [fine_append, List.foldl_append, List.foldl_append]
    exact ⟨⟨a1, b1⟩, b2, b3⟩
  asked := by
    intro p x hx
    rcases List.mem_append.1 hx with hx | hx
    · exact hk p (h.asked p x hx)
    · exact h'.asked p x hx

theorem requests_fine (i : Info) (p : Nat) (xs : List (Nat × Nat)) : ∀ (f : Pending) (g : List (Nat × Nat)), xs.Nodup →
    (∀ x ∈ xs, x.2 < 65536 ∧ x ∉ f p ∧ x ∉ g) →
    Fine f g (xs.map fun x => Act.request p (getPieceBlockInfo i x.1 x.2)) ∧
    (xs.map fun x => Act.request p (getPieceBlockInfo i x.1 x.2)).foldl pendingAct f =
      (fun q => if q = p then xs.reverse ++ f q else f q) ∧
    (xs.map fun x => Act.request p (getPieceBlockInfo i x.1 x.2)).foldl gotAct g = g := by
  induction xs with
  | nil => intro f g _ _; exact ⟨trivial, by funext q; simp, rfl⟩
  | cons x xs ih =>
    intro f g hn hx
    obtain ⟨hx1, hx2, hx3⟩ := hx x (by simp)
    obtain ⟨hn1, hn2⟩ := List.nodup_cons.1 hn
    have hb : blockOf (getPieceBlockInfo i x.1 x.2) = x := blockOf_info i x.1 x.2 hx1
    obtain ⟨i1, i2, i3⟩ := ih (pendingAct f (.request p (getPieceBlockInfo i x.1 x.2))) g hn2 (by
      intro y hy
      obtain ⟨y1, y2, y3⟩ := hx y (List.mem_cons_of_mem _ hy)
      refine ⟨y1, ?_, y3⟩
      simp only [pendingAct, if_true, hb, List.mem_cons, not_or]
      exact ⟨fun e => hn1 (e ▸ hy), y2⟩)
    refine ⟨?_, ?_, ?_⟩
    · simp only [List.map_cons, Fine]
      refine ⟨?_, i1⟩
      intro q b e
      simp only [Act.request.injEq] at e
      rw [← e.1, ← e.2, hb]
      exact ⟨hx2, hx3⟩
    · simp only [List.map_cons, List.foldl_cons]
      rw [i2]
      funext q
      by_cases e : q = p
      · simp [e, pendingAct, hb]
      · simp [e, pendingAct]
    · simp only [List.map_cons, List.foldl_cons]
      exact i3

theorem evaluate_trans {s s' : St} {p : Nat} {as : List Act} (hI : Inv s) (h : evaluate s p = .ok (s', as)) :
    Trans s s' as ∧ ∀ x, Within s x → Within s' x := by
  cases hi : s.infos.get p with
  | none =>
    simp only [evaluate, hi, Res.ok.injEq, Prod.mk.injEq] at h
    obtain ⟨rfl, rfl⟩ := h
    exact ⟨Trans.refl hI, fun _ h => h⟩
  | some info =>
    obtain ⟨hc, ht⟩ := hI.cur p info hi
    obtain ⟨e1, e2, e3, e4, e5, e6, e7, e8, e9, e10, e11, peer, info', f1, f3, f4, f5, f6, f7, f8, f9, f10, xs, o, f11, f12,
      f13, f14, -⟩ := evaluate_spec hI.base hi hc ht h
    have hwithin : ∀ x, Within s x → Within s' x := by
      rintro x ⟨i, hx, hl⟩
      by_cases e : x = p
      · subst e
        rw [hi] at hx
        simp only [Option.some.injEq] at hx
        subst hx
        refine ⟨info', by rw [f3]; simp, ?_⟩
        by_cases hxs : xs = []
        · rw [f11.total, hxs, f6]; simpa using hl
        · rw [f6]; exact f14 hxs
      · exact ⟨i, by rw [f3]; simp [e, hx], hl⟩
    refine ⟨⟨⟨e1, ?_⟩, ?_, ?_⟩, hwithin⟩
    · intro x i hx
      rw [f3] at hx
      by_cases e : x = p
      · subst e
        simp only [if_true, Option.some.injEq] at hx
        subst hx
        exact ⟨f5, f13⟩
      · rw [if_neg e] at hx
        obtain ⟨g1, g2⟩ := hI.cur x i hx
        exact ⟨g1.grow e2, g2⟩
    · intro f g hf hg
      have hg' : GotOk s' g := by
        intro x hx
        obtain ⟨q, hq, c, hc1, hc2⟩ := hg x hx
        obtain ⟨q', g1, g2, -⟩ := e2 _ q hq
        exact ⟨q', g1, c, by rw [g2]; exact hc1, hc2⟩
      have hf0 : Sim s' f := by
        intro x
        refine ⟨(hf x).1, fun y hy => ?_⟩
        obtain ⟨i, hx, hfl⟩ := (hf x).2 y hy
        by_cases e : x = p
        · subst e
          rw [hi] at hx
          simp only [Option.some.injEq] at hx
          subst hx
          exact ⟨info', by rw [f3]; simp, (f11.flags y).2 (Or.inl hfl)⟩
        · exact ⟨i, by rw [f3]; simp [e, hx], hfl⟩
      rcases f12 with rfl | ⟨-, rfl⟩
      · unfold asks
        split
        · rw [f11.out, List.map_map]
          have hfree : ∀ x ∈ xs, x.2 < 65536 ∧ x ∉ f p ∧ x ∉ g := by
            intro x hx
            refine ⟨f11.small x hx, ?_, ?_⟩
            · intro hm
              obtain ⟨i, hxi, hfl⟩ := (hf p).2 x hm
              rw [hi] at hxi
              simp only [Option.some.injEq] at hxi
              subst hxi
              exact f11.free x hx hfl
            · intro hm
              obtain ⟨q, hq, c, hc1, hc2⟩ := hg' x hm
              obtain ⟨q2, hq2, hz⟩ := f11.unreceived x hx
              rw [hq] at hq2
              simp only [Option.some.injEq] at hq2
              subst hq2
              rw [hc1] at hz
              simp only [Option.some.injEq] at hz
              exact hc2 hz
          obtain ⟨r1, r2, r3⟩ := requests_fine s.files.info p xs f g f11.nodup hfree
          refine ⟨r1, ?_, ?_⟩
          · have : (Act.request p ∘ fun x : Nat × Nat => getPieceBlockInfo s.files.info x.1 x.2) =
                fun x => Act.request p (getPieceBlockInfo s.files.info x.1 x.2) := rfl
            rw [this, r2]
            intro x
            by_cases e : x = p
            · subst e
              simp only [if_true]
              refine ⟨?_, ?_⟩
              · rw [List.nodup_append]
                refine ⟨List.nodup_reverse.2 f11.nodup, (hf x).1, ?_⟩
                intro a ha b hb e
                subst e
                exact (hfree a (List.mem_reverse.1 ha)).2.1 hb
              · intro y hy
                refine ⟨info', by rw [f3]; simp, ?_⟩
                rcases List.mem_append.1 hy with hy | hy
                · exact (f11.flags y).2 (Or.inr (List.mem_reverse.1 hy))
                · obtain ⟨i, hxi, hfl⟩ := (hf0 x).2 y hy
                  rw [f3] at hxi
                  simp only [if_true, Option.some.injEq] at hxi
                  subst hxi
                  exact hfl
            · simp only [e, if_false]; exact hf0 x
          · have : (Act.request p ∘ fun x : Nat × Nat => getPieceBlockInfo s.files.info x.1 x.2) =
                fun x => Act.request p (getPieceBlockInfo s.files.info x.1 x.2) := rfl
            rw [this, r3]
            exact hg'
        · exact ⟨trivial, hf0, hg'⟩
      · refine ⟨⟨?_, trivial⟩, hf0, hg'⟩
        intro _ _ e; simp at e
    · intro x b hx
      rcases f12 with rfl | ⟨-, rfl⟩
      · unfold asks at hx
        split at hx
        · obtain ⟨y, hy, e⟩ := List.mem_map.1 hx
          simp only [Act.request.injEq] at e
          obtain ⟨rfl, rfl⟩ := e
          have hne : xs ≠ [] := by
            rintro rfl
            rw [f11.out] at hy; simp at hy
          exact ⟨info', by rw [f3]; simp, by rw [f6]; exact f14 hne⟩
        · simp at hx
      · simp at hx

theorem evaluateAll_trans (ps : List Nat) : ∀ {s s' : St} {as : List Act}, Inv s → evaluateAll ps s = .ok (s', as) →
    Trans s s' as ∧ ∀ x, Within s x → Within s' x := by
  induction ps with
  | nil =>
    intro s s' as hI h
    simp only [evaluateAll, Res.ok.injEq, Prod.mk.injEq] at h
    obtain ⟨rfl, rfl⟩ := h
    exact ⟨Trans.refl hI, fun _ h => h⟩
  | cons p ps ih =>
    intro s s' as hI h
    unfold evaluateAll at h
    cases ht : evaluate s p with
    | ub => rw [ht] at h; simp at h
    | diverge => rw [ht] at h; simp at h
    | ok t =>
      rw [ht] at h
      simp only [Res.bind_ok] at h
      cases hu : evaluateAll ps t.1 with
      | ub => rw [hu] at h; simp at h
      | diverge => rw [hu] at h; simp at h
      | ok u =>
        rw [hu] at h
        simp only [Res.bind_ok, Res.pure_eq, Res.ok.injEq, Prod.mk.injEq] at h
        obtain ⟨rfl, rfl⟩ := h
        obtain ⟨a1, a2⟩ := evaluate_trans hI (s' := t.1) (as := t.2) ht
        obtain ⟨b1, b2⟩ := ih a1.inv (s' := u.1) (as := u.2) hu
        exact ⟨a1.trans b1 b2, fun x hx => b2 x (a2 x hx)⟩

/-! ### Answers -/

theorem answer_spec (b : BlockInfo) (m : Map Req) (p : Nat) (c : List ReqPiece) : ∀ (o : Option (List ReqPiece)),
    CurOk m p c → total c ≤ 100 → answer b c = .ok o →
    (o = none → ∀ r ∈ c, r.idx ≠ b.index) ∧
    (∀ c', o = some c' → CurOk m p c' ∧ total c' ≤ total c ∧ c'.map (·.idx) = c.map (·.idx) ∧
      ∀ y, Flag c y → y ≠ blockOf b → Flag c' y) := by
  induction c with
  | nil => intro o _ _ h; simp only [answer, Res.ok.injEq] at h; subst h; simp
  | cons r rs ih =>
    intro o hc ht h
    obtain ⟨hnd, hent⟩ := hc
    simp only [List.map_cons, List.nodup_cons] at hnd
    have hrs : CurOk m p rs := ⟨hnd.2, fun x hx => hent x (List.mem_cons_of_mem _ hx)⟩
    simp only [total_cons] at ht
    unfold answer at h
    by_cases he : r.idx = b.index
    · rw [if_pos he] at h
      cases hf : rd r.blocks (blockIdx b.begin) with
      | ub => rw [hf] at h; simp at h
      | diverge => rw [hf] at h; simp at h
      | ok f =>
        have hf' : r.blocks[blockIdx b.begin]? = some f := by
          unfold rd at hf; split at hf
          · next a e => simp only [Res.ok.injEq] at hf; rw [e, hf]
          · simp at hf
        rw [hf] at h
        simp only [Res.bind_ok, Res.pure_eq, Res.ok.injEq] at h
        subst h
        refine ⟨by simp, ?_⟩
        intro c' e
        simp only [Option.some.injEq] at e
        subst e
        cases f with
        | false =>
          simp only [Bool.false_eq_true, if_false]
          exact ⟨⟨List.nodup_cons.2 hnd, hent⟩, Nat.le_refl _, trivial, fun y hy _ => hy⟩
        | true =>
          simp only [if_true]
          obtain ⟨q, q1, q2, q3, q4⟩ := hent r (by simp)
          have hcount := count_set_false r.blocks _ hf'
          have hpos : 0 < r.blocks.count true := List.count_pos_iff.2 (List.mem_of_getElem? hf')
          have hle : 1 ≤ r.active := by rw [q4]; exact hpos
          have hlt : r.active < 2 ^ 32 := by
            have : r.active ≤ 100 := by omega
            exact Nat.lt_of_le_of_lt this (by decide)
          have hsub : sub32 r.active 1 = r.active - 1 := sub32_eq hlt hle
          refine ⟨⟨List.nodup_cons.2 hnd, ?_⟩, ?_, by simp only [List.map_cons], ?_⟩
          · intro x hx
            rcases List.mem_cons.1 hx with rfl | hx
            · exact ⟨q, q1, q2, by simpa using q3, by simp only [hsub]; omega⟩
            · exact hent x (List.mem_cons_of_mem _ hx)
          · simp only [total_cons, hsub]; omega
          · intro y hy hne
            rw [flag_cons] at hy ⊢
            rcases hy with ⟨h1, h2⟩ | hy
            · left
              refine ⟨h1, ?_⟩
              dsimp only
              rw [List.getElem?_set_ne]
              · exact h2
              · intro e
                apply hne
                unfold blockOf
                unfold blockIdx BlockMaxSize at e
                rw [← he, h1, e]
            · exact Or.inr hy
    · rw [if_neg he] at h
      cases hr : answer b rs with
      | ub => rw [hr] at h; simp at h
      | diverge => rw [hr] at h; simp at h
      | ok t =>
        rw [hr] at h
        simp only [Res.bind_ok, Res.pure_eq, Res.ok.injEq] at h
        subst h
        obtain ⟨i1, i2⟩ := ih t hrs (by omega) hr
        refine ⟨?_, ?_⟩
        · intro e
          simp only [Option.map_eq_none_iff] at e
          intro x hx
          rcases List.mem_cons.1 hx with rfl | hx
          · exact he
          · exact i1 e x hx
        · intro c' e
          simp only [Option.map_eq_some_iff] at e
          obtain ⟨c2, rfl, rfl⟩ := e
          obtain ⟨j1, j2, j3, j4⟩ := i2 c2 rfl
          refine ⟨⟨?_, ?_⟩, by simp only [total_cons]; omega, by simp [j3], ?_⟩
          · simp only [List.map_cons, j3]; exact List.nodup_cons.2 hnd
          · intro x hx
            rcases List.mem_cons.1 hx with rfl | hx
            · exact hent x (by simp)
            · exact j1.2 x hx
          · intro y hy hne
            rw [flag_cons] at hy ⊢
            rcases hy with hy | hy
            · exact Or.inl hy
            · exact Or.inr (j4 y hy hne)

/-! ### Pieces that are complete or dropped -/

theorem dropEntry_sub (idx : Nat) (c : List ReqPiece) : ∀ r ∈ dropEntry idx c, r ∈ c := fun _ h => List.mem_of_mem_eraseP h

theorem dropEntry_not {idx : Nat} {c : List ReqPiece} (h : (c.map (·.idx)).Nodup) : ∀ r ∈ dropEntry idx c, r.idx ≠ idx := by
  induction c with
  | nil => simp [dropEntry]
  | cons a c ih =>
    simp only [List.map_cons, List.nodup_cons] at h
    intro r hr
    unfold dropEntry at hr
    rw [List.eraseP_cons] at hr
    by_cases e : a.idx = idx
    · simp only [e, beq_self_eq_true, if_true] at hr
      intro er
      exact h.1 (List.mem_map.2 ⟨r, hr, by rw [er, e]⟩)
    · have : (a.idx == idx) = false := by simpa using e
      simp only [this, Bool.false_eq_true, if_false] at hr
      rcases List.mem_cons.1 hr with rfl | hr
      · exact e
      · exact ih h.2 r hr

theorem dropEntry_mem {idx : Nat} {c : List ReqPiece} {r : ReqPiece} (h : r ∈ c) (e : r.idx ≠ idx) : r ∈ dropEntry idx c :=
  (List.mem_eraseP_of_neg (by simpa using e)).2 h

theorem dropEntry_sublist (idx : Nat) (c : List ReqPiece) : List.Sublist (dropEntry idx c) c := List.eraseP_sublist

theorem total_sublist {c c' : List ReqPiece} (h : List.Sublist c' c) : total c' ≤ total c := by
  induction h with
  | slnil => exact Nat.le_refl _
  | cons a _ ih => rw [total_cons]; omega
  | cons_cons a _ ih => rw [total_cons, total_cons]; omega

theorem dropEntry_curOk {m m' : Map Req} {p idx : Nat} {c : List ReqPiece} (h : CurOk m p c)
    (hm : ∀ j, j ≠ idx → m'.get j = m.get j) : CurOk m' p (dropEntry idx c) := by
  refine ⟨(h.1).sublist ((dropEntry_sublist idx c).map _), ?_⟩
  intro r hr
  obtain ⟨q, a, b⟩ := h.2 r (dropEntry_sub _ _ r hr)
  exact ⟨q, by rw [hm _ (dropEntry_not h.1 r hr)]; exact a, b⟩

/-- The request of a piece and the entries for it disappear, with the pending blocks. -/
theorem drop_trans {s s' : St} {idx : Nat} {a : Act} (ha : a = .completed idx ∨ a = .dropped idx) (hI : Inv s)
    (hm : s'.requests = s.requests.del idx) (hf : s'.files.info = s.files.info) (hk : s'.unfinished = s.unfinished)
    (hi : s'.infos = s.infos.mapAll fun _ i => { i with current := dropEntry idx i.current }) : Trans s s' [a] where
  inv := by
    refine ⟨⟨?_, by rw [hf, hk]; exact hI.base.kept⟩, ?_⟩
    · intro j q hq
      rw [hm] at hq
      rw [hf]; exact hI.base.req j q (List.mem_of_mem_filter hq)
    · intro p i hpi
      rw [hi, Map.get_mapAll] at hpi
      simp only [Option.map_eq_some_iff] at hpi
      obtain ⟨i0, h0, rfl⟩ := hpi
      obtain ⟨c1, c2⟩ := hI.cur p i0 h0
      refine ⟨?_, Nat.le_trans (total_sublist (dropEntry_sublist _ _)) c2⟩
      apply dropEntry_curOk c1
      intro j hj
      rw [hm, Map.get_del, if_neg hj]
  sim := by
    intro f g hf' hg
    have hp : pendingAct f a = fun p => (f p).filter (·.1 ≠ idx) := by rcases ha with rfl | rfl <;> rfl
    have hgt : gotAct g a = g.filter (·.1 ≠ idx) := by rcases ha with rfl | rfl <;> rfl
    refine ⟨⟨?_, trivial⟩, ?_, ?_⟩
    · intro p b e; rcases ha with rfl | rfl <;> simp at e
    · simp only [List.foldl_cons, List.foldl_nil, hp]
      intro p
      refine ⟨(hf' p).1.sublist List.filter_sublist, ?_⟩
      intro x hx
      simp only [List.mem_filter, decide_eq_true_eq] at hx
      obtain ⟨i, hi0, r, hr, e1, e2⟩ := (hf' p).2 x hx.1
      refine ⟨{ i with current := dropEntry idx i.current }, by rw [hi, Map.get_mapAll, hi0]; rfl, r, ?_, e1, e2⟩
      exact dropEntry_mem hr (by rw [e1]; exact hx.2)
    · simp only [List.foldl_cons, List.foldl_nil, hgt]
      intro x hx
      simp only [List.mem_filter, decide_eq_true_eq] at hx
      obtain ⟨q, hq, hc⟩ := hg x hx.1
      exact ⟨q, by rw [hm, Map.get_del, if_neg hx.2]; exact hq, hc⟩
  asked := by
    intro p b h
    rw [List.mem_singleton] at h
    rcases ha with rfl | rfl <;> simp at h

theorem addBlock_spec (u : PState) (b : BlockInfo) (h : (addBlock u b).1 = true) :
    (addBlock u b).2.index = u.index ∧ (addBlock u b).2.blocksState = u.blocksState.set (blockNo b.begin) 1 ∧
    u.blocksState[blockNo b.begin]? = some 0 := by
  unfold addBlock at h ⊢
  split at h
  · next hc => rw [if_pos hc]; exact ⟨rfl, rfl, hc⟩
  · simp at h

theorem storedAs_eq (b : BlockInfo) : storedAs b = (b.index, blockNo b.begin) := rfl

theorem takeBlock_trans {s s' : St} {p group : Nat} {b : BlockInfo} {as : List Act} (hI : Inv s)
    (h : takeBlock s p group b = .ok (s', as)) : Trans s s' as := by
  unfold takeBlock at h
  cases hq : s.requests.get b.index with
  | none =>
    simp only [hq, Res.ok.injEq, Prod.mk.injEq] at h
    obtain ⟨rfl, rfl⟩ := h
    exact Trans.refl hI
  | some q =>
    simp only [hq] at h
    by_cases ha : (addBlock q.piece b).1 = true
    · simp only [ha, if_true] at h
      obtain ⟨a1, a2, a3⟩ := addBlock_spec _ _ ha
      -- the block is put into the request
      have put : ∀ (q2 : Req) (s2 : St), q2.piece = (addBlock q.piece b).2 → q2.active = q.active →
          s2 = { s with requests := s.requests.put b.index q2 } → Trans s s2 [.store b] := by
        rintro q2 s2 e1 e2 rfl
        refine ⟨⟨⟨?_, hI.base.kept⟩, ?_⟩, ?_, by intro _ _ h; simp at h⟩
        · exact put_reqOk hI.base.req hq (by rw [e1, a1]) (by rw [e1, a2]; simp)
        · intro p i hi
          obtain ⟨c1, c2⟩ := hI.cur p i hi
          refine ⟨⟨c1.1, ?_⟩, c2⟩
          intro r hr
          obtain ⟨q0, d1, d2, d3, d4⟩ := c1.2 r hr
          by_cases e : r.idx = b.index
          · rw [e, hq] at d1
            simp only [Option.some.injEq] at d1
            subst d1
            exact ⟨q2, by simp [Map.get_put, e], by rw [e2]; exact d2, by rw [e1, a2]; simpa using d3, d4⟩
          · exact ⟨q0, by simp [Map.get_put, e, d1], d2, d3, d4⟩
        · intro f g hf hg
          refine ⟨⟨by intro _ _ e; simp at e, trivial⟩, hf, ?_⟩
          simp only [List.foldl_cons, List.foldl_nil, gotAct]
          intro x hx
          rcases List.mem_cons.1 hx with rfl | hx
          · rw [storedAs_eq]
            refine ⟨q2, by simp [Map.get_put], 1, ?_, by decide⟩
            have := (List.getElem?_eq_some_iff.1 a3).1
            rw [e1, a2]; simp [this]
          · obtain ⟨q0, d1, c, d2, d3⟩ := hg x hx
            by_cases e : x.1 = b.index
            · rw [e, hq] at d1
              simp only [Option.some.injEq] at d1
              subst d1
              refine ⟨q2, by simp [Map.get_put, e], ?_⟩
              rw [e1, a2]
              by_cases e3 : blockNo b.begin = x.2
              · have := (List.getElem?_eq_some_iff.1 a3).1
                exact ⟨1, by rw [← e3]; simp [this], by decide⟩
              · exact ⟨c, by rw [List.getElem?_set_ne e3]; exact d2, d3⟩
            · exact ⟨q0, by simp [Map.get_put, e, d1], c, d2, d3⟩
      split at h
      · cases hm : missing s (addBlock q.piece b).2.index with
        | ub => rw [hm] at h; simp at h
        | diverge => rw [hm] at h; simp at h
        | ok m =>
          rw [hm] at h
          simp only [Res.bind_ok] at h
          cases hp : addPiece s.files.progress b.index with
          | ub => rw [hp] at h; simp at h
          | diverge => rw [hp] at h; simp at h
          | ok prog =>
            rw [hp] at h
            simp only [Res.bind_ok, Res.pure_eq, Res.ok.injEq, Prod.mk.injEq] at h
            obtain ⟨rfl, rfl⟩ := h
            have t1 := put { q with piece := (addBlock q.piece b).2 } _ rfl rfl rfl
            have hdel : ∀ (m : Map Req) (k : Nat) (v : Req), (m.put k v).del k = m.del k := by
              intro m k v
              induction m with
              | nil => simp [Map.put, Map.del]
              | cons e m ih =>
                obtain ⟨k', v'⟩ := e
                simp only [Map.put]
                by_cases e1 : k' = k
                · simp [e1, Map.del]
                · rw [if_neg e1]
                  split
                  · simp [Map.del]
                  · simp only [Map.del, List.filter_cons] at ih ⊢
                    rw [ih]
            have t2 : Trans { s with requests := s.requests.put b.index { q with piece := (addBlock q.piece b).2 } }
                { s with
                  checks := if m = true then s.checks ++ [(b.index, { q with
                    piece := (addBlock q.piece b).2
                    groups := if group ≠ 0 then insertNew q.groups group else q.groups
                    sources := insertNew q.sources p })] else s.checks
                  checking := if m = true then u32 (s.checking + 1) else s.checking
                  files := { s.files with progress := prog }
                  requests := s.requests.del b.index
                  infos := s.infos.mapAll fun _ i => { i with current := dropEntry b.index i.current } }
                [.completed b.index] :=
              drop_trans (Or.inl rfl) t1.inv (by dsimp only; rw [hdel]) rfl rfl rfl
            have h3 : ∀ x, Within { s with requests := s.requests.put b.index { q with piece := (addBlock q.piece b).2 } } x →
                Within { s with
                  checks := if m = true then s.checks ++ [(b.index, { q with
                    piece := (addBlock q.piece b).2
                    groups := if group ≠ 0 then insertNew q.groups group else q.groups
                    sources := insertNew q.sources p })] else s.checks
                  checking := if m = true then u32 (s.checking + 1) else s.checking
                  files := { s.files with progress := prog }
                  requests := s.requests.del b.index
                  infos := s.infos.mapAll fun _ i => { i with current := dropEntry b.index i.current } } x := by
              rintro x ⟨i, hi, hl⟩
              refine ⟨{ i with current := dropEntry b.index i.current }, ?_, ?_⟩
              · dsimp only at hi ⊢; rw [Map.get_mapAll, hi]; rfl
              · exact Nat.le_trans (total_sublist (dropEntry_sublist _ _)) hl
            exact t1.trans t2 h3
      · simp only [Res.ok.injEq, Prod.mk.injEq] at h
        obtain ⟨rfl, rfl⟩ := h
        exact put { q with
          piece := (addBlock q.piece b).2
          groups := if group ≠ 0 then insertNew q.groups group else q.groups
          sources := insertNew q.sources p } _ rfl rfl rfl
    · simp only [ha, Bool.false_eq_true, if_false, Res.ok.injEq, Prod.mk.injEq] at h
      obtain ⟨rfl, rfl⟩ := h
      exact Trans.refl hI

end Verif.Downloader
