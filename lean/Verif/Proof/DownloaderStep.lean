import Verif.Proof.DownloaderRun
/-! Every event. -/

namespace Verif.Downloader
open Verif Layout Progress PieceState Spec Spec.Download

/-- What an event does to what is pending and to what is there. -/
structure StepOk (s : St) (e : Ev) (s' : St) (as : List Act) : Prop where
  inv : Inv s'
  info : s'.files.info = s.files.info
  sim : ∀ f g, Sim s f → GotOk s g → Fine (pendingEv f e) (gotEv g e) as ∧ Sim s' (pendingStep f (e, as)) ∧
    GotOk s' (gotStep g (e, as))
  asked : ∀ p b, .request p b ∈ as → Within s' p

theorem stepOk_of {s s1 s' : St} {e : Ev} {as : List Act} (ht : Trans s1 s' as) (hi : s'.files.info = s.files.info)
    (h : ∀ f g, Sim s f → GotOk s g → Sim s1 (pendingEv f e) ∧ GotOk s1 (gotEv g e)) : StepOk s e s' as := by
  refine ⟨ht.inv, hi, ?_, ht.asked⟩
  intro f g hf hg
  obtain ⟨h1, h2⟩ := h f g hf hg
  exact ht.sim _ _ h1 h2

/-- Acts that say nothing about blocks. -/
def Inert : Act → Prop
  | .request .. => False
  | .store .. => False
  | .completed .. => False
  | .dropped .. => False
  | _ => True

theorem inert_fold (as : List Act) (h : ∀ a ∈ as, Inert a) (f : Pending) (g : List (Nat × Nat)) :
    Fine f g as ∧ as.foldl pendingAct f = f ∧ as.foldl gotAct g = g := by
  induction as with
  | nil => exact ⟨trivial, rfl, rfl⟩
  | cons a as ih =>
    have ha := h a (by simp)
    obtain ⟨i1, i2, i3⟩ := ih fun b hb => h b (List.mem_cons_of_mem _ hb)
    have e1 : pendingAct f a = f := by cases a <;> simp_all [Inert, pendingAct]
    have e2 : gotAct g a = g := by cases a <;> simp_all [Inert, gotAct]
    refine ⟨⟨?_, by rw [e1, e2]; exact i1⟩, by simp [e1, i2], by simp [e2, i3]⟩
    rintro p b rfl
    simp [Inert] at ha

/-- The entries are as they were; there may be new empty ones. -/
structure Quiet (s s' : St) : Prop where
  requests : s'.requests = s.requests
  unfinished : s'.unfinished = s.unfinished
  info : s'.files.info = s.files.info
  fwd : ∀ p i, s.infos.get p = some i → ∃ i', s'.infos.get p = some i' ∧ i'.current = i.current
  bwd : ∀ p i', s'.infos.get p = some i' → i'.current = [] ∨ ∃ i, s.infos.get p = some i ∧ i'.current = i.current

theorem Quiet.of_eq {s s' : St} (h1 : s'.requests = s.requests) (h2 : s'.unfinished = s.unfinished)
    (h3 : s'.files.info = s.files.info) (h4 : s'.infos = s.infos) : Quiet s s' :=
  ⟨h1, h2, h3, fun p i h => ⟨i, by rw [h4]; exact h, rfl⟩, fun p i h => Or.inr ⟨i, by rw [← h4]; exact h, rfl⟩⟩

theorem Quiet.refl (s : St) : Quiet s s := Quiet.of_eq rfl rfl rfl rfl

theorem Quiet.trans {a b c : St} (h : Quiet a b) (h' : Quiet b c) : Quiet a c where
  requests := h'.requests.trans h.requests
  unfinished := h'.unfinished.trans h.unfinished
  info := h'.info.trans h.info
  fwd := by
    intro p i hi
    obtain ⟨i1, e1, e2⟩ := h.fwd p i hi
    obtain ⟨i2, e3, e4⟩ := h'.fwd p i1 e1
    exact ⟨i2, e3, e4.trans e2⟩
  bwd := by
    intro p i hi
    rcases h'.bwd p i hi with e | ⟨i1, e1, e2⟩
    · exact Or.inl e
    · rcases h.bwd p i1 e1 with e | ⟨i0, e3, e4⟩
      · exact Or.inl (e2.trans e)
      · exact Or.inr ⟨i0, e3, e2.trans e4⟩

theorem Quiet.inv {s s' : St} (h : Quiet s s') (hI : Inv s) : Inv s' := by
  refine ⟨⟨by rw [h.requests, h.info]; exact hI.base.req, by rw [h.unfinished, h.info]; exact hI.base.kept⟩, ?_⟩
  intro p i hi
  rcases h.bwd p i hi with e | ⟨i0, e1, e2⟩
  · rw [e]; exact ⟨⟨by simp, by simp⟩, by simp [total]⟩
  · rw [e2, h.requests]; exact hI.cur p i0 e1

theorem Quiet.sim {s s' : St} (h : Quiet s s') {f : Pending} (hf : Sim s f) : Sim s' f := by
  intro p
  refine ⟨(hf p).1, fun x hx => ?_⟩
  obtain ⟨i, e1, e2⟩ := (hf p).2 x hx
  obtain ⟨i', e3, e4⟩ := h.fwd p i e1
  exact ⟨i', e3, by rw [e4]; exact e2⟩

theorem Quiet.got {s s' : St} (h : Quiet s s') {g : List (Nat × Nat)} (hg : GotOk s g) : GotOk s' g := by
  unfold GotOk; rw [h.requests]; exact hg

theorem Quiet.trans' {s s' : St} {as : List Act} (h : Quiet s s') (hI : Inv s) (ha : ∀ a ∈ as, Inert a) : Trans s s' as := by
  refine ⟨h.inv hI, ?_, ?_⟩
  · intro f g hf hg
    obtain ⟨i1, i2, i3⟩ := inert_fold as ha f g
    rw [i2, i3]
    exact ⟨i1, h.sim hf, h.got hg⟩
  · intro p b hb
    exact absurd (ha _ hb) (by simp [Inert])

/-- Fewer pending blocks. -/
theorem Sim.mono {s : St} {f f' : Pending} (h : Sim s f) (hs : ∀ p, List.Sublist (f' p) (f p)) : Sim s f' :=
  fun p => ⟨(h p).1.sublist (hs p), fun x hx => (h p).2 x ((hs p).subset hx)⟩

theorem pendingEv_sub (f : Pending) (e : Ev) (p : Nat) : List.Sublist (pendingEv f e p) (f p) := by
  cases e with
  | message q m =>
    cases m <;> simp only [pendingEv] <;> try exact List.Sublist.refl _
    · split
      · exact List.nil_sublist _
      · exact List.Sublist.refl _
    · split
      · exact List.filter_sublist
      · exact List.Sublist.refl _
  | closed q =>
    simp only [pendingEv]
    split
    · exact List.nil_sublist _
    · exact List.Sublist.refl _
  | stop => exact List.nil_sublist _
  | _ => exact List.Sublist.refl _

theorem gotEv_sub (g : List (Nat × Nat)) (e : Ev) : ∀ x ∈ gotEv g e, x ∈ g := by
  cases e <;> simp [gotEv]

theorem pre {s s1 : St} (h : Quiet s s1) (e : Ev) (f : Pending) (g : List (Nat × Nat)) (hf : Sim s f) (hg : GotOk s g) :
    Sim s1 (pendingEv f e) ∧ GotOk s1 (gotEv g e) :=
  ⟨(h.sim hf).mono (pendingEv_sub f e), fun x hx => h.got hg x (gotEv_sub g e x hx)⟩

theorem quiet_step {s s' : St} {e : Ev} {as : List Act} (h : Quiet s s') (hI : Inv s) (ha : ∀ a ∈ as, Inert a) :
    StepOk s e s' as :=
  stepOk_of (h.trans' hI ha) h.info (pre (Quiet.refl s) e)

theorem evaluate_info {s s' : St} {p : Nat} {as : List Act} (hI : Inv s) (h : evaluate s p = .ok (s', as)) :
    s'.files = s.files := by
  cases hi : s.infos.get p with
  | none =>
    simp only [evaluate, hi, Res.ok.injEq, Prod.mk.injEq] at h
    rw [h.1]
  | some info =>
    obtain ⟨hc, ht⟩ := hI.cur p info hi
    exact (evaluate_spec hI.base hi hc ht h).2.2.1

theorem evaluateAll_info (ps : List Nat) : ∀ {s s' : St} {as : List Act}, Inv s → evaluateAll ps s = .ok (s', as) →
    s'.files = s.files := by
  induction ps with
  | nil =>
    intro s s' as _ h
    simp only [evaluateAll, Res.ok.injEq, Prod.mk.injEq] at h
    rw [h.1]
  | cons p ps ih =>
    intro s s' as hI h
    unfold evaluateAll at h
    cases ht : evaluate s p with
    | ub => rw [ht] at h; simp at h
    | diverge => rw [ht] at h; simp at h
    | ok t =>
      rw [ht] at h
      simp only [Res.bind_ok] at h
      cases hu : evaluateAll ps t.1 with
      | ub => rw [hu] at h; simp at h
      | diverge => rw [hu] at h; simp at h
      | ok u =>
        rw [hu] at h
        simp only [Res.bind_ok, Res.pure_eq, Res.ok.injEq, Prod.mk.injEq] at h
        obtain ⟨rfl, -⟩ := h
        rw [ih (evaluate_trans hI (s' := t.1) (as := t.2) ht).1.inv (s' := u.1) (as := u.2) hu,
          evaluate_info hI (s' := t.1) (as := t.2) ht]

theorem takeBlock_info {s s' : St} {p group : Nat} {b : BlockInfo} {as : List Act}
    (h : takeBlock s p group b = .ok (s', as)) : s'.files.info = s.files.info := by
  unfold takeBlock at h
  cases hq : s.requests.get b.index with
  | none =>
    simp only [hq, Res.ok.injEq, Prod.mk.injEq] at h
    rw [h.1]
  | some q =>
    simp only [hq] at h
    split at h
    · split at h
      · cases hm : missing s (addBlock q.piece b).2.index with
        | ub => rw [hm] at h; simp at h
        | diverge => rw [hm] at h; simp at h
        | ok m =>
          rw [hm] at h
          simp only [Res.bind_ok] at h
          cases hp : addPiece s.files.progress b.index with
          | ub => rw [hp] at h; simp at h
          | diverge => rw [hp] at h; simp at h
          | ok prog =>
            rw [hp] at h
            simp only [Res.bind_ok, Res.pure_eq, Res.ok.injEq, Prod.mk.injEq] at h
            obtain ⟨rfl, -⟩ := h
            rfl
      · simp only [Res.ok.injEq, Prod.mk.injEq] at h
        obtain ⟨rfl, -⟩ := h
        rfl
    · simp only [Res.ok.injEq, Prod.mk.injEq] at h
      rw [h.1]

/-- A block arrives. -/
theorem piece_step {s s' : St} {p : Nat} {b : BlockInfo} {delta : Nat} {as : List Act} (hI : Inv s)
    (h : pieceBlockReceived s p b delta = .ok (s', as)) : StepOk s (.message p (.piece b delta)) s' as := by
  unfold pieceBlockReceived at h
  cases hi : s.infos.get p with
  | none =>
    simp only [hi, Res.ok.injEq, Prod.mk.injEq] at h
    obtain ⟨rfl, rfl⟩ := h
    exact quiet_step (Quiet.refl _) hI (by simp)
  | some info =>
    simp only [hi] at h
    obtain ⟨hc, ht⟩ := hI.cur p info hi
    unfold addPeerBlockResponse at h
    cases ha : answer b info.current with
    | ub => rw [ha] at h; simp at h
    | diverge => rw [ha] at h; simp at h
    | ok o =>
      rw [ha] at h
      simp only [Res.bind_ok] at h
      obtain ⟨an1, an2⟩ := answer_spec b s.requests p info.current o hc ht ha
      -- the state after the answer is noted
      have key : ∃ info' asked, (if asked = true then do
            let t ← takeBlock { s with infos := s.infos.put p info' } p info'.group b
            let u ← evaluate t.1 p
            pure (u.1, t.2 ++ u.2)
          else pure ({ s with infos := s.infos.put p info' }, [])) = Res.ok (s', as) ∧
          CurOk s.requests p info'.current ∧ total info'.current ≤ 100 ∧
          ∀ y, Flag info.current y → y ≠ blockOf b → Flag info'.current y := by
        cases o with
        | none =>
          refine ⟨{ info with delta := delta }, info.requested.contains b.index, ?_, hc, ht, fun y hy _ => hy⟩
          simpa using h
        | some cur =>
          obtain ⟨b1, b2, -, b4⟩ := an2 cur rfl
          refine ⟨{ info with current := cur, delta := delta }, true, ?_, b1, Nat.le_trans b2 ht, b4⟩
          simpa using h
      obtain ⟨info', asked, h, c1, c2, c3⟩ := key
      have hI1 : Inv { s with infos := s.infos.put p info' } := by
        refine ⟨⟨hI.base.req, hI.base.kept⟩, ?_⟩
        intro x i hx
        rw [Map.get_put] at hx
        by_cases e : x = p
        · subst e
          simp only [if_true, Option.some.injEq] at hx
          subst hx
          exact ⟨c1, c2⟩
        · rw [if_neg e] at hx; exact hI.cur x i hx
      have hpre : ∀ f g, Sim s f → GotOk s g →
          Sim { s with infos := s.infos.put p info' } (pendingEv f (.message p (.piece b delta))) ∧
          GotOk { s with infos := s.infos.put p info' } (gotEv g (.message p (.piece b delta))) := by
        intro f g hf hg
        refine ⟨?_, hg⟩
        intro x
        have hsub := pendingEv_sub f (.message p (.piece b delta)) x
        refine ⟨(hf x).1.sublist hsub, ?_⟩
        intro y hy
        obtain ⟨i, e1, e2⟩ := (hf x).2 y (hsub.subset hy)
        simp only [Map.get_put]
        by_cases e : x = p
        · subst e
          simp only [pendingEv, if_true, List.mem_filter, decide_eq_true_eq] at hy
          rw [hi] at e1
          simp only [Option.some.injEq] at e1
          subst e1
          exact ⟨info', by simp, c3 y e2 hy.2⟩
        · exact ⟨i, by simp [e, e1], e2⟩
      cases asked with
      | false =>
        simp only [Bool.false_eq_true, if_false, Res.pure_eq, Res.ok.injEq, Prod.mk.injEq] at h
        obtain ⟨rfl, rfl⟩ := h
        exact stepOk_of (Trans.refl hI1) rfl hpre
      | true =>
        simp only [if_true] at h
        cases htb : takeBlock { s with infos := s.infos.put p info' } p info'.group b with
        | ub => rw [htb] at h; simp at h
        | diverge => rw [htb] at h; simp at h
        | ok t =>
          rw [htb] at h
          simp only [Res.bind_ok] at h
          cases hev : evaluate t.1 p with
          | ub => rw [hev] at h; simp at h
          | diverge => rw [hev] at h; simp at h
          | ok u =>
            rw [hev] at h
            simp only [Res.bind_ok, Res.pure_eq, Res.ok.injEq, Prod.mk.injEq] at h
            obtain ⟨rfl, rfl⟩ := h
            have t1 := takeBlock_trans hI1 (s' := t.1) (as := t.2) htb
            obtain ⟨t2, t3⟩ := evaluate_trans t1.inv (s' := u.1) (as := u.2) hev
            refine stepOk_of (t1.trans t2 t3) ?_ hpre
            rw [evaluate_info t1.inv (s' := u.1) (as := u.2) hev, takeBlock_info (s' := t.1) (as := t.2) htb]

theorem unchoke_inv {s : St} {p : Nat} {info : PeerReq} (hI : Inv s) (hi : s.infos.get p = some info) :
    Inv { s with infos := s.infos.put p { info with current := info.current.map fun r =>
        { r with active := 0, blocks := List.replicate r.blocks.length false } } } := by
  obtain ⟨hc, ht⟩ := hI.cur p info hi
  have htot : ∀ c : List ReqPiece,
      total (c.map fun r => { r with active := 0, blocks := List.replicate r.blocks.length false }) = 0 := by
    intro c
    induction c with
    | nil => rfl
    | cons r c ih => rw [List.map_cons, total_cons, ih]
  refine ⟨⟨hI.base.req, hI.base.kept⟩, ?_⟩
  intro x i hx
  rw [Map.get_put] at hx
  by_cases e : x = p
  · subst e
    simp only [if_true, Option.some.injEq] at hx
    subst hx
    refine ⟨⟨?_, ?_⟩, ?_⟩
    · simpa [List.map_map, Function.comp_def] using hc.1
    · intro r hr
      obtain ⟨r0, hr0, rfl⟩ := List.mem_map.1 hr
      obtain ⟨q, q1, q2, q3, q4⟩ := hc.2 r0 hr0
      exact ⟨q, q1, q2, by simpa using q3, by simp [List.count_replicate]⟩
    · dsimp only; rw [htot]; omega
  · rw [if_neg e] at hx; exact hI.cur x i hx

/-- The peer unchokes. -/
theorem unchoke_step {s s' : St} {p : Nat} {as : List Act} (hI : Inv s)
    (h : unchokePeer s p = .ok (s', as)) : StepOk s (.message p .unchoke) s' as := by
  unfold unchokePeer at h
  cases hi : s.infos.get p with
  | none =>
    simp only [hi, Res.ok.injEq, Prod.mk.injEq] at h
    obtain ⟨rfl, rfl⟩ := h
    exact quiet_step (Quiet.refl _) hI (by simp)
  | some info =>
    simp only [hi] at h
    have hI1 := unchoke_inv hI hi
    obtain ⟨t1, -⟩ := evaluate_trans hI1 h
    refine stepOk_of t1 (by rw [evaluate_info hI1 h]) ?_
    intro f g hf hg
    refine ⟨?_, hg⟩
    intro x
    simp only [pendingEv]
    by_cases e : x = p
    · simp [e]
    · simp only [e, if_false]
      refine ⟨(hf x).1, fun y hy => ?_⟩
      obtain ⟨i, e1, e2⟩ := (hf x).2 y hy
      exact ⟨i, by simp [Map.get_put, e, e1], e2⟩

theorem touch_quiet (s : St) (p : Nat) : Quiet s { s with infos := touch s.infos p } := by
  cases hi : s.infos.get p with
  | some i =>
    have : touch s.infos p = s.infos := by unfold touch; rw [hi]
    exact Quiet.of_eq rfl rfl rfl this
  | none =>
    have : touch s.infos p = s.infos.put p {} := by unfold touch; rw [hi]
    refine ⟨rfl, rfl, rfl, ?_, ?_⟩
    · intro x i hx
      have hne : x ≠ p := by rintro rfl; rw [hi] at hx; simp at hx
      exact ⟨i, by simp [this, Map.get_put, hne, hx], rfl⟩
    · intro x i hx
      simp only [this, Map.get_put] at hx
      by_cases e : x = p
      · simp only [e, if_true, Option.some.injEq] at hx
        exact Or.inl (by rw [← hx])
      · rw [if_neg e] at hx; exact Or.inr ⟨i, hx, rfl⟩

theorem eval_step {s s1 s' : St} {p : Nat} {e : Ev} {as : List Act} (hI : Inv s) (hq : Quiet s s1)
    (h : evaluate s1 p = .ok (s', as)) : StepOk s e s' as :=
  stepOk_of (evaluate_trans (hq.inv hI) h).1 (by rw [evaluate_info (hq.inv hI) h, hq.info]) (pre hq e)

theorem StepOk.quiet_left {s s1 s' : St} {e : Ev} {as : List Act} (hq : Quiet s s1) (h : StepOk s1 e s' as) :
    StepOk s e s' as :=
  ⟨h.inv, h.info.trans hq.info, fun f g hf hg => h.sim f g (hq.sim hf) (hq.got hg), h.asked⟩

theorem message_step {s s' : St} {p : Nat} {m : Msg} {as : List Act} (hI : Inv s)
    (h : message s p m = .ok (s', as)) : StepOk s (.message p m) s' as := by
  unfold message at h
  cases hp : s.peers.get p with
  | none =>
    simp only [hp, Res.ok.injEq, Prod.mk.injEq] at h
    obtain ⟨rfl, rfl⟩ := h
    exact quiet_step (Quiet.refl _) hI (by simp)
  | some peer0 =>
    simp only [hp] at h
    cases hr : receive peer0 m with
    | ub => rw [hr] at h; simp at h
    | diverge => rw [hr] at h; simp at h
    | ok peer =>
      rw [hr] at h
      simp only [Res.bind_ok] at h
      have hq : Quiet s { s with peers := s.peers.put p peer } := Quiet.of_eq rfl rfl rfl rfl
      have hI1 := hq.inv hI
      by_cases hrun : s.running = true
      · simp only [hrun, if_true] at h
        refine StepOk.quiet_left hq ?_
        rw [show ({ s with peers := s.peers.put p peer, running := true } : St) = { s with peers := s.peers.put p peer } by
          rw [← hrun]] at h
        generalize ({ s with peers := s.peers.put p peer } : St) = s1 at h hI1
        unfold messageReceived at h
        cases hcn : countAvailable s1.files.info.piecesCount peer.pieces m with
        | ub => rw [hcn] at h; simp at h
        | diverge => rw [hcn] at h; simp at h
        | ok u =>
          rw [hcn] at h
          simp only [Res.bind_ok] at h
          by_cases hfin : selectedFinished s1.files.progress = true
          · simp only [hfin, if_true] at h
            split at h
            · simp only [Res.pure_eq, Res.ok.injEq, Prod.mk.injEq] at h
              obtain ⟨rfl, rfl⟩ := h
              exact quiet_step (Quiet.of_eq rfl rfl rfl rfl) hI1 (by simp [Inert])
            · simp only [Res.pure_eq, Res.ok.injEq, Prod.mk.injEq] at h
              obtain ⟨rfl, rfl⟩ := h
              exact quiet_step (Quiet.refl _) hI1 (by simp)
          · simp only [hfin, Bool.false_eq_true, if_false] at h
            cases m with
            | piece b delta => exact piece_step hI1 h
            | unchoke => exact unchoke_step hI1 h
            | «have» idx =>
              simp only at h
              cases hm : missing s1 idx with
              | ub => rw [hm] at h; simp at h
              | diverge => rw [hm] at h; simp at h
              | ok w =>
                rw [hm] at h
                simp only [Res.bind_ok] at h
                split at h
                · exact eval_step hI1 (touch_quiet s1 p) h
                · simp only [Res.pure_eq, Res.ok.injEq, Prod.mk.injEq] at h
                  obtain ⟨rfl, rfl⟩ := h
                  exact quiet_step (Quiet.refl _) hI1 (by simp)
            | bitfield d =>
              simp only at h
              cases hm : hasWanted s1 peer.pieces s1.sorted with
              | ub => rw [hm] at h; simp at h
              | diverge => rw [hm] at h; simp at h
              | ok w =>
                rw [hm] at h
                simp only [Res.bind_ok] at h
                split at h
                · exact eval_step hI1 (touch_quiet s1 p) h
                · simp only [Res.pure_eq, Res.ok.injEq, Prod.mk.injEq] at h
                  obtain ⟨rfl, rfl⟩ := h
                  exact quiet_step (Quiet.refl _) hI1 (by simp)
            | choke =>
              simp only [Res.pure_eq, Res.ok.injEq, Prod.mk.injEq] at h
              obtain ⟨rfl, rfl⟩ := h
              exact quiet_step (Quiet.refl _) hI1 (by simp)
            | other =>
              simp only [Res.pure_eq, Res.ok.injEq, Prod.mk.injEq] at h
              obtain ⟨rfl, rfl⟩ := h
              exact quiet_step (Quiet.refl _) hI1 (by simp)
      · simp only [hrun, Bool.false_eq_true, if_false, Res.pure_eq, Res.ok.injEq, Prod.mk.injEq] at h
        obtain ⟨rfl, rfl⟩ := h
        exact quiet_step (Quiet.of_eq rfl rfl rfl rfl) hI (by simp)

theorem handshake_step {s s' : St} {p : Nat} {as : List Act} (hI : Inv s)
    (h : handshake s p = .ok (s', as)) : StepOk s (.handshake p) s' as := by
  unfold handshake at h
  cases hp : s.peers.get p with
  | none =>
    simp only [hp, Res.ok.injEq, Prod.mk.injEq] at h
    obtain ⟨rfl, rfl⟩ := h
    exact quiet_step (Quiet.refl _) hI (by simp)
  | some peer =>
    simp only [hp] at h
    split at h
    · split at h
      · cases hb : toBitfield s.files.progress with
        | ub => rw [hb] at h; simp at h
        | diverge => rw [hb] at h; simp at h
        | ok d =>
          rw [hb] at h
          simp only [Res.bind_ok, Res.pure_eq, Res.ok.injEq, Prod.mk.injEq] at h
          obtain ⟨rfl, rfl⟩ := h
          exact quiet_step (Quiet.of_eq rfl rfl rfl rfl) hI (by simp [Inert])
      · simp only [Res.pure_eq, Res.ok.injEq, Prod.mk.injEq] at h
        obtain ⟨rfl, rfl⟩ := h
        exact quiet_step (Quiet.of_eq rfl rfl rfl rfl) hI (by simp)
    · simp only [Res.ok.injEq, Prod.mk.injEq] at h
      obtain ⟨rfl, rfl⟩ := h
      exact quiet_step (Quiet.refl _) hI (by simp)

/-- A connection is gone. -/
theorem closed_inv {s : St} (p : Nat) (hI : Inv s) : Inv (connectionClosed s p) := by
  unfold connectionClosed
  cases hi : s.infos.get p with
  | none => exact hI
  | some info =>
    refine ⟨⟨?_, hI.base.kept⟩, ?_⟩
    · intro j q hq
      obtain ⟨⟨k, q0⟩, h0, e⟩ := List.mem_map.1 hq
      simp only [Prod.mk.injEq] at e
      obtain ⟨rfl, rfl⟩ := e
      have := hI.base.req k q0 h0
      split
      · exact this
      · exact this
    · intro x i hx
      simp only [Map.get_del] at hx
      by_cases e : x = p
      · simp [e] at hx
      · rw [if_neg e] at hx
        obtain ⟨c1, c2⟩ := hI.cur x i hx
        refine ⟨⟨c1.1, ?_⟩, c2⟩
        intro r hr
        obtain ⟨q, q1, q2, q3, q4⟩ := c1.2 r hr
        simp only [Map.get_mapAll, q1, Option.map_some]
        split
        · exact ⟨_, rfl, (List.mem_erase_of_ne e).2 q2, q3, q4⟩
        · exact ⟨_, rfl, q2, q3, q4⟩

theorem closed_same (s : St) (p : Nat) : (connectionClosed s p).files = s.files ∧
    (connectionClosed s p).unfinished = s.unfinished := by
  unfold connectionClosed; split <;> exact ⟨rfl, rfl⟩

theorem closed_step {s : St} (p : Nat) (hI : Inv s) :
    StepOk s (.closed p) { connectionClosed s p with peers := s.peers.del p } [] := by
  have hI1 := closed_inv p hI
  have hq : Quiet (connectionClosed s p) { connectionClosed s p with peers := s.peers.del p } := Quiet.of_eq rfl rfl rfl rfl
  refine stepOk_of (hq.trans' hI1 (by simp)) (by simp [(closed_same s p).1]) ?_
  intro f g hf hg
  have hgot : GotOk (connectionClosed s p) g := by
    intro x hx
    obtain ⟨q, e1, e2⟩ := hg x hx
    unfold connectionClosed
    cases hi : s.infos.get p with
    | none => exact ⟨q, e1, e2⟩
    | some info =>
      simp only [Map.get_mapAll, e1, Option.map_some]
      split
      · exact ⟨_, rfl, e2⟩
      · exact ⟨_, rfl, e2⟩
  refine ⟨?_, hgot⟩
  intro x
  simp only [pendingEv]
  by_cases e : x = p
  · simp [e]
  · simp only [e, if_false]
    refine ⟨(hf x).1, fun y hy => ?_⟩
    obtain ⟨i, e1, e2⟩ := (hf x).2 y hy
    unfold connectionClosed
    cases hi : s.infos.get p with
    | none => exact ⟨i, e1, e2⟩
    | some info => exact ⟨i, by simp [Map.get_del, e, e1], e2⟩

theorem closedAll_inv (ps : List Nat) : ∀ {s : St}, Inv s → Inv (ps.foldl connectionClosed s) ∧
    (ps.foldl connectionClosed s).files = s.files := by
  induction ps with
  | nil => intro s h; exact ⟨h, rfl⟩
  | cons p ps ih =>
    intro s h
    obtain ⟨i1, i2⟩ := ih (closed_inv p h)
    exact ⟨i1, i2.trans (closed_same s p).1⟩

theorem stop_step {s : St} (hI : Inv s) : StepOk s .stop (stop s) [] := by
  obtain ⟨h1, h2⟩ := closedAll_inv (s.peers.map (·.1)) hI
  have hinfo : (stop s).files.info = s.files.info := by
    change ((s.peers.map (·.1)).foldl connectionClosed s).files.info = _
    rw [h2]
  refine ⟨⟨⟨?_, ?_⟩, ?_⟩, hinfo, ?_, by simp⟩
  · intro j q hq; simp [stop] at hq
  · rw [hinfo]
    intro u hu hd
    simp only [stop, unfinishedAdd, List.mem_append] at hu
    have hk := h1.base.kept
    have hr := h1.base.req
    rw [h2] at hk hr
    rcases hu with hu | hu
    · exact hk u hu hd
    · obtain ⟨⟨k, q⟩, hq, rfl⟩ := List.mem_map.1 (List.mem_of_mem_filter hu)
      obtain ⟨r1, r2⟩ := hr k q hq
      rw [r1]; exact r2
  · intro p i hi; simp [stop, Map.get] at hi
  · intro f g _ _
    refine ⟨trivial, ?_, ?_⟩
    · intro p; simp [pendingStep, pendingEv]
    · intro x hx; simp [gotStep, gotEv] at hx

theorem dropLoop_trans (l : List Nat) : ∀ {s s' : St} {as : List Act}, Inv s → dropLoop s l = .ok (s', as) →
    Trans s s' as ∧ (∀ p b, .request p b ∉ as) ∧ s'.files = s.files := by
  induction l with
  | nil =>
    intro s s' as hI h
    simp only [dropLoop, Res.ok.injEq, Prod.mk.injEq] at h
    obtain ⟨rfl, rfl⟩ := h
    exact ⟨Trans.refl hI, by simp, rfl⟩
  | cons idx l ih =>
    intro s s' as hI h
    unfold dropLoop at h
    cases hm : missing s idx with
    | ub => rw [hm] at h; simp at h
    | diverge => rw [hm] at h; simp at h
    | ok m =>
      rw [hm] at h
      simp only [Res.bind_ok] at h
      cases m with
      | true => exact ih hI (by simpa using h)
      | false =>
        simp only [Bool.false_eq_true, if_false] at h
        have t1 : Trans s { s with
            requests := s.requests.del idx
            infos := s.infos.mapAll fun _ i => { i with current := dropEntry idx i.current } } [.dropped idx] :=
          drop_trans (Or.inr rfl) hI rfl rfl rfl rfl
        cases hl : dropLoop { s with
            requests := s.requests.del idx
            infos := s.infos.mapAll fun _ i => { i with current := dropEntry idx i.current } } l with
        | ub => rw [hl] at h; simp at h
        | diverge => rw [hl] at h; simp at h
        | ok t =>
          rw [hl] at h
          simp only [Res.bind_ok, Res.pure_eq, Res.ok.injEq, Prod.mk.injEq] at h
          obtain ⟨rfl, rfl⟩ := h
          obtain ⟨t2, t3, t4⟩ := ih t1.inv (s' := t.1) (as := t.2) hl
          have hn : ∀ p b, Act.request p b ∉ Act.dropped idx :: t.2 := by
            intro p b hb
            rcases List.mem_cons.1 hb with hb | hb
            · simp at hb
            · exact t3 p b hb
          refine ⟨⟨t2.inv, ?_, fun p b hb => absurd hb (hn p b)⟩, hn, t4⟩
          intro f g hf hg
          obtain ⟨a1, a2, a3⟩ := t1.sim f g hf hg
          obtain ⟨b1, b2, b3⟩ := t2.sim _ _ a2 a3
          exact ⟨⟨a1.1, b1⟩, b2, b3⟩

theorem refresh_trans {s s' : St} {order : List (Nat × Nat)} {as : List Act} (hI : Inv s)
    (h : refreshSelection s order = .ok (s', as)) : Trans s s' as ∧ s'.files = s.files := by
  unfold refreshSelection at h
  have hq : Quiet s { s with sorted := order } := Quiet.of_eq rfl rfl rfl rfl
  have tq : Trans s { s with sorted := order } [] := hq.trans' hI (by simp)
  cases hl : dropLoop { s with sorted := order } (s.requests.map (·.1)) with
  | ub => rw [hl] at h; simp at h
  | diverge => rw [hl] at h; simp at h
  | ok t =>
    rw [hl] at h
    simp only [Res.bind_ok] at h
    obtain ⟨t2, t3, t4⟩ := dropLoop_trans _ tq.inv (s' := t.1) (as := t.2) hl
    have t5 : Trans s t.1 t.2 := by
      refine ⟨t2.inv, ?_, fun p b hb => absurd hb (t3 p b)⟩
      intro f g hf hg
      exact t2.sim f g (hq.sim hf) (hq.got hg)
    split at h
    · simp only [Res.pure_eq, Res.ok.injEq] at h
      subst h
      exact ⟨t5, t4⟩
    · cases hu : evaluateAll (t.1.infos.map (·.1)) t.1 with
      | ub => rw [hu] at h; simp at h
      | diverge => rw [hu] at h; simp at h
      | ok u =>
        rw [hu] at h
        simp only [Res.bind_ok, Res.pure_eq, Res.ok.injEq, Prod.mk.injEq] at h
        obtain ⟨rfl, rfl⟩ := h
        obtain ⟨u1, u2⟩ := evaluateAll_trans _ t2.inv (s' := u.1) (as := u.2) hu
        exact ⟨t5.trans u1 u2, (evaluateAll_info _ t2.inv (s' := u.1) (as := u.2) hu).trans t4⟩

theorem refreshSource_quiet (c : Check) (n : Nat) (s : St) (p : Nat) :
    Quiet s (refreshSource c n s p).1 ∧ ∀ a ∈ (refreshSource c n s p).2, Inert a := by
  have hput : ∀ (s : St) (info info' : PeerReq), s.infos.get p = some info → info'.current = info.current →
      Quiet s { s with infos := s.infos.put p info' } := by
    intro s info info' hi hc
    refine ⟨rfl, rfl, rfl, ?_, ?_⟩
    · intro x i hx
      by_cases e : x = p
      · subst e
        rw [hi] at hx
        simp only [Option.some.injEq] at hx
        subst hx
        exact ⟨info', by simp [Map.get_put], hc⟩
      · exact ⟨i, by simp [Map.get_put, e, hx], rfl⟩
    · intro x i hx
      simp only [Map.get_put] at hx
      by_cases e : x = p
      · simp only [e, if_true, Option.some.injEq] at hx
        subst hx
        exact Or.inr ⟨info, by rw [e]; exact hi, hc⟩
      · rw [if_neg e] at hx; exact Or.inr ⟨i, hx, rfl⟩
  have hmap : ∀ (s : St) (g : Nat), Quiet s { s with
      infos := s.infos.mapAll fun _ i => if i.group = g then { i with group := 0 } else i } := by
    intro s g
    have hcur : ∀ i : PeerReq, (if i.group = g then { i with group := 0 } else i).current = i.current := by
      intro i; split <;> rfl
    refine ⟨rfl, rfl, rfl, ?_, ?_⟩
    · intro x i hx
      exact ⟨_, by simp only [Map.get_mapAll, hx, Option.map_some], hcur i⟩
    · intro x i hx
      simp only [Map.get_mapAll, Option.map_eq_some_iff] at hx
      obtain ⟨i0, h0, rfl⟩ := hx
      exact Or.inr ⟨i0, h0, hcur i0⟩
  unfold refreshSource
  cases hi : s.infos.get p with
  | none => exact ⟨Quiet.refl s, by simp⟩
  | some info =>
    cases c with
    | success => exact ⟨hput s info _ hi rfl, by simp⟩
    | error => exact ⟨Quiet.refl s, by simp⟩
    | mismatch =>
      simp only
      have h1 := hput s info { info with suspicion := u32 (info.suspicion + 1) } hi rfl
      split
      · refine ⟨?_, by simp [Inert]⟩
        split
        · refine (h1.trans (hmap _ info.group)).trans ?_
          exact Quiet.of_eq rfl rfl rfl rfl
        · exact h1.trans (Quiet.of_eq rfl rfl rfl rfl)
      · exact ⟨h1.trans (hput _ { info with suspicion := u32 (info.suspicion + 1) } _ (by simp [Map.get_put]) rfl), by simp⟩

theorem refreshSources_quiet (c : Check) (n : Nat) (l : List Nat) : ∀ (s : St),
    Quiet s (refreshSources c n l s).1 ∧ ∀ a ∈ (refreshSources c n l s).2, Inert a := by
  induction l with
  | nil => intro s; exact ⟨Quiet.refl s, by simp [refreshSources]⟩
  | cons p l ih =>
    intro s
    obtain ⟨h1, h2⟩ := refreshSource_quiet c n s p
    obtain ⟨h3, h4⟩ := ih (refreshSource c n s p).1
    refine ⟨h1.trans h3, ?_⟩
    intro a ha
    simp only [refreshSources, List.mem_append] at ha
    rcases ha with ha | ha
    · exact h2 a ha
    · exact h4 a ha

theorem pieceChecked_quiet {s s' : St} {idx : Nat} {c : Check} {q : Req} {as : List Act}
    (h : pieceChecked s idx c q = .ok (s', as)) : Quiet s s' ∧ ∀ a ∈ as, Inert a := by
  unfold pieceChecked at h
  simp only at h
  have key : ∀ prog : PP, (if c = .success then Res.ok ({ (refreshSources c q.sources.length q.sources { s with
        checking := sub32 s.checking 1
        fresh := if c = .success then s.fresh ++ [idx] else s.fresh
        files := { s.files with progress := prog }
        groupIdx := if c = .mismatch then u32 (s.groupIdx + 1) else s.groupIdx }).1 with
        finishes := if selectedFinished (refreshSources c q.sources.length q.sources { s with
            checking := sub32 s.checking 1
            fresh := if c = .success then s.fresh ++ [idx] else s.fresh
            files := { s.files with progress := prog }
            groupIdx := if c = .mismatch then u32 (s.groupIdx + 1) else s.groupIdx }).1.files.progress ∧
            (refreshSources c q.sources.length q.sources { s with
              checking := sub32 s.checking 1
              fresh := if c = .success then s.fresh ++ [idx] else s.fresh
              files := { s.files with progress := prog }
              groupIdx := if c = .mismatch then u32 (s.groupIdx + 1) else s.groupIdx }).1.checking = 0 then
            (refreshSources c q.sources.length q.sources { s with
              checking := sub32 s.checking 1
              fresh := if c = .success then s.fresh ++ [idx] else s.fresh
              files := { s.files with progress := prog }
              groupIdx := if c = .mismatch then u32 (s.groupIdx + 1) else s.groupIdx }).1.finishes + 1
          else (refreshSources c q.sources.length q.sources { s with
            checking := sub32 s.checking 1
            fresh := if c = .success then s.fresh ++ [idx] else s.fresh
            files := { s.files with progress := prog }
            groupIdx := if c = .mismatch then u32 (s.groupIdx + 1) else s.groupIdx }).1.finishes },
        (refreshSources c q.sources.length q.sources { s with
          checking := sub32 s.checking 1
          fresh := if c = .success then s.fresh ++ [idx] else s.fresh
          files := { s.files with progress := prog }
          groupIdx := if c = .mismatch then u32 (s.groupIdx + 1) else s.groupIdx }).2)
      else Res.ok ((refreshSources c q.sources.length q.sources { s with
          checking := sub32 s.checking 1
          fresh := if c = .success then s.fresh ++ [idx] else s.fresh
          files := { s.files with progress := prog }
          groupIdx := if c = .mismatch then u32 (s.groupIdx + 1) else s.groupIdx }).1,
        (refreshSources c q.sources.length q.sources { s with
          checking := sub32 s.checking 1
          fresh := if c = .success then s.fresh ++ [idx] else s.fresh
          files := { s.files with progress := prog }
          groupIdx := if c = .mismatch then u32 (s.groupIdx + 1) else s.groupIdx }).2 ++
          if c = .error then [.failed] else [])) = .ok (s', as) → Quiet s s' ∧ ∀ a ∈ as, Inert a := by
    intro prog h
    have h0 : Quiet s { s with
        checking := sub32 s.checking 1
        fresh := if c = .success then s.fresh ++ [idx] else s.fresh
        files := { s.files with progress := prog }
        groupIdx := if c = .mismatch then u32 (s.groupIdx + 1) else s.groupIdx } := Quiet.of_eq rfl rfl rfl rfl
    generalize ({ s with
        checking := sub32 s.checking 1
        fresh := if c = .success then s.fresh ++ [idx] else s.fresh
        files := { s.files with progress := prog }
        groupIdx := if c = .mismatch then u32 (s.groupIdx + 1) else s.groupIdx } : St) = s1 at h h0
    obtain ⟨h1, h2⟩ := refreshSources_quiet c q.sources.length q.sources s1
    split at h
    · simp only [Res.ok.injEq, Prod.mk.injEq] at h
      obtain ⟨rfl, rfl⟩ := h
      exact ⟨(h0.trans h1).trans (Quiet.of_eq rfl rfl rfl rfl), h2⟩
    · simp only [Res.ok.injEq, Prod.mk.injEq] at h
      obtain ⟨rfl, rfl⟩ := h
      refine ⟨h0.trans h1, ?_⟩
      intro a ha
      rcases List.mem_append.1 ha with ha | ha
      · exact h2 a ha
      · split at ha
        · simp only [List.mem_singleton] at ha; rw [ha]; trivial
        · simp at ha
  by_cases hc : c = .success
  · simp only [hc, if_true, Res.pure_eq, Res.bind_ok] at h
    apply key s.files.progress
    simp only [hc, if_true]
    exact h
  · simp only [hc, if_false] at h
    cases hr : removePiece s.files.progress idx with
    | ub => rw [hr] at h; simp at h
    | diverge => rw [hr] at h; simp at h
    | ok prog =>
      rw [hr] at h
      simp only [Res.bind_ok, Res.pure_eq] at h
      apply key prog
      simp only [hc, if_false]
      exact h

theorem filesSelect_info {s s' : FilesState} {idx : Nat} {v : Bool} (h : filesSelect s idx v = .ok s') :
    s'.info = s.info := by
  unfold filesSelect at h
  cases h1 : rd s.selection idx with
  | ub => rw [h1] at h; simp at h
  | diverge => rw [h1] at h; simp at h
  | ok cur =>
    rw [h1] at h
    simp only [Res.bind_ok] at h
    split at h
    · cases h2 : rd s.info.files idx with
      | ub => rw [h2] at h; simp at h
      | diverge => rw [h2] at h; simp at h
      | ok f =>
        rw [h2] at h
        simp only [Res.bind_ok] at h
        split at h
        · cases h3 : keepStart s.info.files (s.selection.set idx v) f.startPieceIndex idx with
          | ub => rw [h3] at h; simp at h
          | diverge => rw [h3] at h; simp at h
          | ok ks =>
            rw [h3] at h
            simp only [Res.bind_ok] at h
            cases h4 : keepEnd s.info.files (s.selection.set idx v) f.endPieceIndex (idx + 2) with
            | ub => rw [h4] at h; simp at h
            | diverge => rw [h4] at h; simp at h
            | ok ke =>
              rw [h4] at h
              simp only [Res.bind_ok] at h
              split at h
              all_goals
                generalize hp : Progress.select _ _ _ _ = r at h
                cases r with
                | ub => simp at h
                | diverge => simp at h
                | ok p =>
                  simp only [Res.bind_ok, Res.pure_eq, Res.ok.injEq] at h
                  rw [← h]
        · generalize hp : Progress.select _ _ _ _ = r at h
          cases r with
          | ub => simp at h
          | diverge => simp at h
          | ok p =>
            simp only [Res.bind_ok, Res.pure_eq, Res.ok.injEq] at h
            rw [← h]
    · simp only [Res.pure_eq, Res.ok.injEq] at h
      rw [← h]

theorem select_spec {s t : St} {idx : Nat} {v : Bool} (h : select s idx v = .ok t) :
    ∃ f, Layout.selectFile s.files idx v = .ok f ∧ t = { s with files := f } ∧ f.info = s.files.info := by
  unfold select at h
  cases hf : Layout.selectFile s.files idx v with
  | ub => rw [hf] at h; simp at h
  | diverge => rw [hf] at h; simp at h
  | ok f =>
    rw [hf] at h
    simp only [Res.bind_ok, Res.pure_eq, Res.ok.injEq] at h
    refine ⟨f, rfl, h.symm, ?_⟩
    unfold Layout.selectFile at hf
    split at hf
    · simp only [Res.ok.injEq] at hf; rw [← hf]
    · exact filesSelect_info hf

theorem step_ok {sha : List UInt8 → List UInt8} {hashes : List (List UInt8)} {s s' : St} {e : Ev} {as : List Act}
    (hI : Inv s) (h : step sha hashes s e = .ok (s', as)) : StepOk s e s' as := by
  cases e with
  | connect p =>
    simp only [step, Res.ok.injEq, Prod.mk.injEq] at h
    obtain ⟨rfl, rfl⟩ := h
    split
    · exact quiet_step (Quiet.refl _) hI (by simp)
    · exact quiet_step (Quiet.of_eq rfl rfl rfl rfl) hI (by simp)
  | handshake p => exact handshake_step hI h
  | message p m => exact message_step hI h
  | closed p =>
    simp only [step, Res.ok.injEq, Prod.mk.injEq] at h
    obtain ⟨rfl, rfl⟩ := h
    exact closed_step p hI
  | check k data =>
    simp only [step, check] at h
    cases hk : s.checks[k]? with
    | none =>
      simp only [hk, Res.ok.injEq, Prod.mk.injEq] at h
      obtain ⟨rfl, rfl⟩ := h
      exact quiet_step (Quiet.refl _) hI (by simp)
    | some x =>
      obtain ⟨idx, q⟩ := x
      simp only [hk] at h
      cases hr : rd hashes idx with
      | ub => rw [hr] at h; simp at h
      | diverge => rw [hr] at h; simp at h
      | ok hash =>
        rw [hr] at h
        simp only [Res.bind_ok] at h
        obtain ⟨h1, h2⟩ := pieceChecked_quiet h
        have h0 : Quiet s { s with checks := s.checks.eraseIdx k } := Quiet.of_eq rfl rfl rfl rfl
        exact quiet_step (h0.trans h1) hI h2
  | finish =>
    simp only [step, finish] at h
    split at h
    · simp only [Res.ok.injEq, Prod.mk.injEq] at h
      obtain ⟨rfl, rfl⟩ := h
      exact quiet_step (Quiet.refl _) hI (by simp)
    · simp only [Res.ok.injEq, Prod.mk.injEq] at h
      obtain ⟨rfl, rfl⟩ := h
      refine quiet_step (Quiet.of_eq rfl rfl rfl rfl) hI ?_
      intro a ha
      rcases List.mem_append.1 ha with ha | ha
      · obtain ⟨x, -, rfl⟩ := List.mem_map.1 ha; trivial
      · simp only [List.mem_singleton] at ha; rw [ha]; trivial
  | select idx v =>
    simp only [step] at h
    cases hs : select s idx v with
    | ub => rw [hs] at h; simp at h
    | diverge => rw [hs] at h; simp at h
    | ok t =>
      rw [hs] at h
      simp only [Res.bind_ok, Res.pure_eq, Res.ok.injEq, Prod.mk.injEq] at h
      obtain ⟨rfl, rfl⟩ := h
      obtain ⟨f, -, rfl, hf⟩ := select_spec hs
      exact quiet_step (Quiet.of_eq rfl rfl hf rfl) hI (by simp)
  | setPriority idx pr =>
    simp only [step, Res.ok.injEq, Prod.mk.injEq] at h
    obtain ⟨rfl, rfl⟩ := h
    exact quiet_step (Quiet.of_eq rfl rfl rfl rfl) hI (by simp)
  | refresh order =>
    simp only [step] at h
    split at h
    · obtain ⟨h1, h2⟩ := refresh_trans hI h
      exact stepOk_of h1 (by rw [h2]) (pre (Quiet.refl s) _)
    · simp only [Res.ok.injEq, Prod.mk.injEq] at h
      obtain ⟨rfl, rfl⟩ := h
      exact quiet_step (Quiet.refl _) hI (by simp)
  | selectFile idx v order =>
    simp only [step] at h
    cases hs : select s idx v with
    | ub => rw [hs] at h; simp at h
    | diverge => rw [hs] at h; simp at h
    | ok t =>
      rw [hs] at h
      simp only [Res.bind_ok] at h
      obtain ⟨f, -, ht, hf⟩ := select_spec hs
      have hq : Quiet s t := by rw [ht]; exact Quiet.of_eq rfl rfl hf rfl
      split at h
      · split at h
        · obtain ⟨h1, h2⟩ := refresh_trans (hq.inv hI) h
          exact StepOk.quiet_left hq (stepOk_of h1 (by rw [h2]) (pre (Quiet.refl t) _))
        · simp only [Res.pure_eq, Res.ok.injEq, Prod.mk.injEq] at h
          obtain ⟨rfl, rfl⟩ := h
          exact quiet_step (Quiet.refl _) hI (by simp)
      · simp only [Res.pure_eq, Res.ok.injEq, Prod.mk.injEq] at h
        obtain ⟨rfl, rfl⟩ := h
        exact quiet_step hq hI (by simp)
  | sort order =>
    simp only [step, Res.ok.injEq, Prod.mk.injEq] at h
    obtain ⟨rfl, rfl⟩ := h
    split
    · exact quiet_step (Quiet.of_eq rfl rfl rfl rfl) hI (by simp)
    · exact quiet_step (Quiet.refl _) hI (by simp)
  | tick =>
    simp only [step] at h
    split at h
    · simp only [Res.ok.injEq, Prod.mk.injEq] at h
      obtain ⟨rfl, rfl⟩ := h
      refine quiet_step (Quiet.of_eq rfl rfl rfl rfl) hI ?_
      intro a ha
      unfold announce at ha
      obtain ⟨x, -, hx⟩ := List.mem_flatMap.1 ha
      obtain ⟨y, -, rfl⟩ := List.mem_map.1 hx
      trivial
    · simp only [Res.ok.injEq, Prod.mk.injEq] at h
      obtain ⟨rfl, rfl⟩ := h
      exact quiet_step (Quiet.refl _) hI (by simp)
  | start order =>
    simp only [step] at h
    split at h
    · simp only [Res.ok.injEq, Prod.mk.injEq] at h
      obtain ⟨rfl, rfl⟩ := h
      exact quiet_step (Quiet.refl _) hI (by simp)
    · have hq : Quiet s { s with running := true } := Quiet.of_eq rfl rfl rfl rfl
      obtain ⟨h1, h2⟩ := refresh_trans (hq.inv hI) h
      exact StepOk.quiet_left hq (stepOk_of h1 (by rw [h2]) (pre (Quiet.refl _) _))
  | stop =>
    simp only [step, Res.ok.injEq, Prod.mk.injEq] at h
    obtain ⟨rfl, rfl⟩ := h
    exact stop_step hI

/-! ### Histories -/

theorem run_snoc {sha : List UInt8 → List UInt8} {hashes : List (List UInt8)} {s s' : St} (es : List Ev) {h : History} :
    run sha hashes s es = .ok (s', h) → ∀ (pre : History) (e : Ev) (as : List Act) (post : History),
      h = pre ++ (e, as) :: post → ∃ s1 s2, run sha hashes s (pre.map (·.1)) = .ok (s1, pre) ∧
        step sha hashes s1 e = .ok (s2, as) := by
  induction es generalizing s s' h with
  | nil =>
    intro hr pre e as post he
    simp only [run, Res.ok.injEq, Prod.mk.injEq] at hr
    rw [← hr.2] at he
    exact absurd (congrArg List.length he) (by simp)
  | cons e0 es ih =>
    intro hr pre e as post he
    unfold run at hr
    cases ht : step sha hashes s e0 with
    | ub => rw [ht] at hr; simp at hr
    | diverge => rw [ht] at hr; simp at hr
    | ok t =>
      rw [ht] at hr
      simp only [Res.bind_ok] at hr
      cases hu : run sha hashes t.1 es with
      | ub => rw [hu] at hr; simp at hr
      | diverge => rw [hu] at hr; simp at hr
      | ok u =>
        rw [hu] at hr
        simp only [Res.bind_ok, Res.pure_eq, Res.ok.injEq, Prod.mk.injEq] at hr
        rw [← hr.2] at he
        cases pre with
        | nil =>
          simp only [List.nil_append, List.cons.injEq, Prod.mk.injEq] at he
          obtain ⟨⟨rfl, rfl⟩, -⟩ := he
          exact ⟨s, t.1, rfl, ht⟩
        | cons x pre =>
          simp only [List.cons_append, List.cons.injEq] at he
          obtain ⟨rfl, he⟩ := he
          obtain ⟨s1, s2, h1, h2⟩ := ih (s := t.1) (s' := u.1) (h := u.2) hu pre e as post he
          refine ⟨s1, s2, ?_, h2⟩
          simp only [List.map_cons, run, ht, Res.bind_ok, h1, Res.pure_eq]

/-- What holds after every history. -/
theorem run_ok {sha : List UInt8 → List UInt8} {hashes : List (List UInt8)} (es : List Ev) :
    ∀ {s s' : St} {h : History} (f : Pending) (g : List (Nat × Nat)), Inv s → Sim s f → GotOk s g →
      run sha hashes s es = .ok (s', h) →
      Inv s' ∧ s'.files.info = s.files.info ∧ Sim s' (h.foldl pendingStep f) ∧ GotOk s' (h.foldl gotStep g) := by
  induction es with
  | nil =>
    intro s s' h f g hI hf hg hr
    simp only [run, Res.ok.injEq, Prod.mk.injEq] at hr
    obtain ⟨rfl, rfl⟩ := hr
    exact ⟨hI, rfl, hf, hg⟩
  | cons e es ih =>
    intro s s' h f g hI hf hg hr
    unfold run at hr
    cases ht : step sha hashes s e with
    | ub => rw [ht] at hr; simp at hr
    | diverge => rw [ht] at hr; simp at hr
    | ok t =>
      rw [ht] at hr
      simp only [Res.bind_ok] at hr
      cases hu : run sha hashes t.1 es with
      | ub => rw [hu] at hr; simp at hr
      | diverge => rw [hu] at hr; simp at hr
      | ok u =>
        rw [hu] at hr
        simp only [Res.bind_ok, Res.pure_eq, Res.ok.injEq, Prod.mk.injEq] at hr
        obtain ⟨rfl, rfl⟩ := hr
        have h1 := step_ok hI (s' := t.1) (as := t.2) ht
        obtain ⟨-, h2, h3⟩ := h1.sim f g hf hg
        obtain ⟨i1, i2, i3, i4⟩ := ih _ _ h1.inv h2 h3 hu
        exact ⟨i1, i2.trans h1.info, i3, i4⟩

theorem inv_fresh {s : St} (h : Fresh s) (hk : KeptOk s) : Inv s ∧ Sim s (fun _ => []) ∧ GotOk s [] := by
  obtain ⟨h1, h2, -⟩ := h
  refine ⟨⟨⟨?_, hk⟩, ?_⟩, ?_, ?_⟩
  · rw [h1]; intro j q hq; simp at hq
  · rw [h2]; intro p i hi; simp [Map.get] at hi
  · intro p; simp
  · intro x hx; simp at hx

/-- The number of pending blocks. -/
theorem flags_length (c : List ReqPiece) (hc : ∀ r ∈ c, r.active = r.blocks.count true) :
    ∃ l : List (Nat × Nat), l.length = total c ∧ ∀ x, Flag c x → x ∈ l := by
  induction c with
  | nil => exact ⟨[], rfl, by simp [Flag]⟩
  | cons r c ih =>
    obtain ⟨l, l1, l2⟩ := ih fun x hx => hc x (List.mem_cons_of_mem _ hx)
    have key : ∀ (bs : List Bool) (k : Nat), ∃ m : List Nat, m.length = bs.count true ∧
        ∀ j : Nat, bs[j]? = some true → j + k ∈ m := by
      intro bs
      induction bs with
      | nil => intro k; exact ⟨[], rfl, by simp⟩
      | cons b bs ih =>
        intro k
        obtain ⟨m, m1, m2⟩ := ih (k + 1)
        cases b with
        | false =>
          refine ⟨m, by simp [m1], ?_⟩
          intro j hj
          cases j with
          | zero => simp at hj
          | succ j =>
            have := m2 j (by simpa using hj)
            rwa [show j + (k + 1) = j + 1 + k by omega] at this
        | true =>
          refine ⟨k :: m, by simp [m1], ?_⟩
          intro j hj
          cases j with
          | zero => simp
          | succ j =>
            have := m2 j (by simpa using hj)
            rw [show j + (k + 1) = j + 1 + k by omega] at this
            exact List.mem_cons_of_mem _ this
    obtain ⟨m, m1, m2⟩ := key r.blocks 0
    refine ⟨m.map (fun k => (r.idx, k)) ++ l, ?_, ?_⟩
    · rw [total_cons, List.length_append, List.length_map, m1, l1, hc r (by simp)]
    · intro x hx
      rw [flag_cons] at hx
      rcases hx with ⟨h1, h2⟩ | hx
      · refine List.mem_append_left _ (List.mem_map.2 ⟨x.2, m2 x.2 h2, ?_⟩)
        rw [h1]
      · exact List.mem_append_right _ (l2 x hx)

theorem pending_le {s : St} {f : Pending} (hI : Inv s) (hf : Sim s f) (p : Nat) :
    f p = [] ∨ ∃ i, s.infos.get p = some i ∧ (f p).length ≤ total i.current := by
  cases hp : f p with
  | nil => exact Or.inl rfl
  | cons x l =>
    right
    obtain ⟨i, e1, -⟩ := (hf p).2 x (by rw [hp]; simp)
    refine ⟨i, e1, ?_⟩
    rw [← hp]
    obtain ⟨l, l1, l2⟩ := flags_length i.current fun r hr => by
      obtain ⟨q, -, -, -, q4⟩ := (hI.cur p i e1).1.2 r hr
      exact q4
    rw [← l1]
    refine (List.subperm_of_subset (hf p).1 ?_).length_le
    intro y hy
    obtain ⟨i', e3, e4⟩ := (hf p).2 y hy
    rw [e1] at e3
    simp only [Option.some.injEq] at e3
    subst e3
    exact l2 y e4

end Verif.Downloader
