import Verif.Proof.DownloaderStep
import Verif.Proof.Progress
import Verif.Proof.Bitfield
/-! What is asked for is wanted, and the peer said it has it. -/

namespace Verif.Downloader
open Verif Layout Progress PieceState Spec Spec.Download

/-- What `pp` says is there was said, for the first `n` pieces. -/
def Honest (n : Nat) (pp : PP) (f : Nat → Bool) : Prop :=
  ∃ l : Pieces, pp.pieces = l.map enc ∧ pp.receivedPiecesCount = (l.countP (·.has) : Int) ∧ n ≤ l.length ∧
    ∀ i < n, ∀ p, l[i]? = some p → p.has = true → f i = true

theorem Honest.has {n : Nat} {pp : PP} {f : Nat → Bool} (h : Honest n pp f) {i : Nat} (hi : i < n)
    (hp : hasPiece pp i = .ok true) : f i = true := by
  obtain ⟨l, h1, h2, h3, h4⟩ := h
  have hil : i < l.length := by omega
  unfold hasPiece at hp
  split at hp
  · next hf =>
    unfold finished at hf
    simp only [h1, h2, List.length_map, Bool.and_eq_true, beq_iff_eq, Int.ofNat_inj] at hf
    exact h4 i hi l[i] (List.getElem?_eq_getElem hil) (List.countP_eq_length.mp hf.2 _ (List.getElem_mem hil))
  · have : pp.pieces[i]? = some (enc l[i]) := by rw [h1]; simp [hil]
    simp only [rd, this, Res.bind_ok, Res.pure_eq, Res.ok.injEq] at hp
    rw [enc_has] at hp
    exact h4 i hi l[i] (List.getElem?_eq_getElem hil) hp

theorem Honest.mono {n : Nat} {pp : PP} {f g : Nat → Bool} (h : Honest n pp f) (hg : ∀ i < n, f i = true → g i = true) :
    Honest n pp g := by
  obtain ⟨l, h1, h2, h3, h4⟩ := h
  exact ⟨l, h1, h2, h3, fun i hi p hp hh => hg i hi (h4 i hi p hp hh)⟩

theorem honest_init (n : Nat) (f : Nat → Bool) : Honest n (Progress.init {} n) f := by
  refine ⟨List.replicate n Piece.new, (init_rel n).pieces, ?_, by simp, ?_⟩
  · have := (init_rel n).received
    simpa [Spec.Pieces.received] using this
  · intro i _ p hp hh
    have hm := List.mem_of_getElem? hp
    rw [List.eq_of_mem_replicate hm] at hh
    simp [Piece.new] at hh

theorem honest_add {n : Nat} {pp pp' : PP} {f : Nat → Bool} {k : Nat} (h : Honest n pp f) (h32 : k < 4294967296)
    (ha : addPiece pp k = .ok pp') : Honest n pp' fun i => f i || i == k := by
  obtain ⟨l, h1, h2, h3, h4⟩ := h
  -- the table after a possible extension
  have key : ∀ (s : PP) (l : Pieces), s.pieces = l.map enc → s.receivedPiecesCount = (l.countP (·.has) : Int) → n ≤ l.length →
      (∀ i < n, ∀ p, l[i]? = some p → p.has = true → f i = true) →
      (do
        let has ← hasPiece s k
        if !has then do
          let wanted ← wantedPiece s k
          let p ← rd s.pieces k
          pure { s with
            selectedReceivedPiecesCount :=
              if wanted then s.selectedReceivedPiecesCount + 1 else s.selectedReceivedPiecesCount
            pieces := s.pieces.set k (p ||| HasFlag)
            receivedPiecesCount := s.receivedPiecesCount + 1 }
        else pure s) = Res.ok pp' → Honest n pp' fun i => f i || i == k := by
    intro s l h1 h2 h3 h4 ha
    cases hh : hasPiece s k with
    | ub => rw [hh] at ha; simp at ha
    | diverge => rw [hh] at ha; simp at ha
    | ok has =>
      rw [hh] at ha
      simp only [Res.bind_ok] at ha
      cases has with
      | true =>
        simp only [Bool.not_true, Bool.false_eq_true, if_false, Res.pure_eq, Res.ok.injEq] at ha
        subst ha
        exact ⟨l, h1, h2, h3, fun i hi p hp hph => by simp [h4 i hi p hp hph]⟩
      | false =>
        simp only [Bool.not_false, if_true] at ha
        have hk : k < l.length := by
          apply Nat.lt_of_not_le
          intro hge
          have : s.pieces[k]? = none := by rw [h1]; simp; omega
          simp [wantedPiece, rd, this] at ha
        have hget : s.pieces[k]? = some (enc l[k]) := by rw [h1]; simp [hk]
        simp only [wantedPiece, rd, hget, Res.bind_ok, Res.pure_eq, Res.ok.injEq] at ha
        subst ha
        have hnot : l[k].has = false := by
          unfold hasPiece at hh
          split at hh
          · simp at hh
          · simp only [rd, hget, Res.bind_ok, Res.pure_eq, Res.ok.injEq] at hh
            rw [enc_has] at hh; exact hh
        refine ⟨l.set k { l[k] with has := true }, ?_, ?_, by simpa using h3, ?_⟩
        · dsimp only; rw [enc_add, h1, List.map_set]
        · dsimp only
          rw [h2, List.countP_set hk]
          simp [hnot]
        · intro i hi p hp hph
          by_cases e : k = i
          · simp [e]
          · rw [List.getElem?_set_ne e] at hp
            simp [h4 i hi p hp hph]
  unfold addPiece at ha
  simp only at ha
  by_cases hge : k ≥ pp.pieces.length
  · rw [if_pos hge] at ha
    unfold resize at ha
    by_cases hz : pp.pieces.length ≠ (k + 1) % 4294967296
    · rw [if_pos hz] at ha
      by_cases hsmall : pp.pieces.length ≤ (k + 1) % 4294967296
      · have hp : (pp.pieces.take ((k + 1) % 4294967296) ++ List.replicate ((k + 1) % 4294967296 - pp.pieces.length) 0) =
            (l ++ List.replicate ((k + 1) % 4294967296 - pp.pieces.length) Piece.new).map enc := by
          rw [List.take_of_length_le hsmall, List.map_append, h1, List.map_replicate]
          rfl
        have hr := calculatePieces_rel { pp with
          pieces := pp.pieces.take ((k + 1) % 4294967296) ++
            List.replicate ((k + 1) % 4294967296 - pp.pieces.length) 0 } _ hp
        refine key _ _ hr.pieces (by simpa [Spec.Pieces.received] using hr.received) (by simp; omega) ?_ ha
        intro i hi p hp2 hph
        by_cases hil : i < l.length
        · rw [List.getElem?_append_left hil] at hp2
          exact h4 i hi p hp2 hph
        · omega
      · -- the table shrinks below the index
        exfalso
        have hz0 : (k + 1) % 4294967296 = 0 := by omega
        have hs : ∀ s : PP, s.pieces = [] → (calculatePieces s).pieces = [] := by
          intro s h
          exact (calculatePieces_rel s [] (by simpa using h)).pieces
        simp only [hz0, List.take_zero, Nat.zero_sub, List.replicate_zero, List.append_nil] at ha
        have he := hs { pp with pieces := [] } rfl
        generalize calculatePieces { pp with pieces := [] } = s at ha he
        simp [hasPiece, finished, he, rd] at ha
    · rw [if_neg hz] at ha
      exact key pp l h1 h2 h3 h4 ha
  · rw [if_neg hge] at ha
    exact key pp l h1 h2 h3 h4 ha

theorem fromBitfieldLoop_long (bf : List UInt8) (n : Nat) : ∀ (i : Nat) (s s' : PP), i + n ≤ 16777216 →
    fromBitfieldLoop bf i n s = .ok s' → n = 0 ∨ i + n ≤ 8 * bf.length := by
  induction n with
  | zero => intros; exact Or.inl rfl
  | succ n ih =>
    intro i s s' hi h
    simp only [fromBitfieldLoop] at h
    rw [byteIdx_small i (by omega)] at h
    by_cases hb : i / 8 < bf.length
    · rw [rd_eq_ok hb] at h
      simp only [Res.bind_ok] at h
      cases hr : rd s.pieces i with
      | ub => rw [hr] at h; simp at h
      | diverge => rw [hr] at h; simp at h
      | ok v =>
        rw [hr] at h
        simp only [Res.bind_ok] at h
        rcases ih (i + 1) _ _ (by omega) h with h | h
        · right; omega
        · right; omega
    · have : bf[i / 8]? = none := List.getElem?_eq_none_iff.2 (by omega)
      simp [rd, this] at h

theorem honest_bitfield {n : Nat} {pp pp' : PP} {d : List UInt8} {f : Nat → Bool} (h : Honest n pp f)
    (hn : pp.pieces.length = n) (h0 : 0 < n) (hs : n ≤ 16777216) (hb : fromBitfieldData pp d = .ok pp') :
    Honest n pp' (bit d) ∧ pp'.pieces.length = n := by
  unfold fromBitfieldData at hb
  have hne : pp.pieces.isEmpty = false := by
    cases hp : pp.pieces with
    | nil => rw [hp] at hn; simp at hn; omega
    | cons _ _ => rfl
  simp only [hne, Bool.false_eq_true, if_false, hn] at hb
  have hlen : (Progress.init pp n).pieces.length = n := by simp [Progress.init, hn]
  rcases fromBitfieldLoop_long d n 0 _ _ (by omega) hb with h1 | h1
  · omega
  · obtain ⟨s', e1, e2, e3, e4⟩ := fromBitfieldLoop_spec d n 0 (Progress.init pp n) (by omega) (by omega) (by omega)
      (by intro k hk; omega) (by simp [Progress.init])
    rw [e1] at hb
    simp only [Res.ok.injEq] at hb
    subst hb
    rw [hlen] at e2 e3 e4
    refine ⟨⟨(List.range n).map fun k => ⟨bit d k, true⟩, ?_, ?_, by simp, ?_⟩, e2⟩
    · apply List.ext_getElem?
      intro k
      by_cases hk : k < n
      · rw [e3 k hk]
        simp only [List.map_map, List.getElem?_map, List.getElem?_range hk, Option.map_some, Function.comp_apply,
          Option.some.injEq]
        cases bit d k <;> rfl
      · rw [List.getElem?_eq_none_iff.2 (by omega), List.getElem?_eq_none_iff.2 (by simp; omega)]
    · rw [e4, List.countP_map]; rfl
    · intro i hi p hp hh
      simp only [List.getElem?_map, List.getElem?_range hi, Option.map_some, Option.some.injEq] at hp
      rw [← hp] at hh
      exact hh

/-! ### The invariant -/

structure Want (s : St) (sd : Nat → Nat → Bool) : Prop where
  len : s.files.progress.pieces.length = s.files.info.piecesCount
  peers : ∀ p i, s.infos.get p = some i →
    ∃ peer, s.peers.get p = some peer ∧ Honest s.files.info.piecesCount peer.pieces (sd p)
  ent : ∀ p i r, s.infos.get p = some i → r ∈ i.current → missing s r.idx = .ok true ∧ sd p r.idx = true

theorem missing_lt {s : St} {i : Nat} {b : Bool} (h : missing s i = .ok b) : i < s.files.progress.pieces.length := by
  apply Nat.lt_of_not_le
  intro hge
  have : s.files.progress.pieces[i]? = none := List.getElem?_eq_none_iff.2 hge
  simp [missing, wantedPiece, rd, this] at h

/-- The requests among the acts are for pieces that are wanted and that the peer said it has. -/
def Asked (s : St) (sd : Nat → Nat → Bool) (as : List Act) : Prop :=
  ∀ p b, .request p b ∈ as → missing s b.index = .ok true ∧ sd p b.index = true

/-- The connections are as they were, but some with a peer the downloader knows, or established, may
be closed. No peer is new to the downloader. -/
structure Near (s s' : St) : Prop where
  info : s'.files.info = s.files.info
  running : s'.running = s.running
  bwd : ∀ p peer', s'.peers.get p = some peer' → ∃ peer, s.peers.get p = some peer ∧ peer'.pieces = peer.pieces ∧
    (peer'.action = peer.action ∨ (peer'.action = .closed ∧ (s.infos.get p ≠ none ∨ peer.action = .established)))
  infos : ∀ p, s'.infos.get p ≠ none → s.infos.get p ≠ none

theorem Near.refl (s : St) : Near s s := ⟨rfl, rfl, fun _ peer h => ⟨peer, h, rfl, Or.inl rfl⟩, fun _ h => h⟩

theorem Near.trans {a b c : St} (h : Near a b) (h' : Near b c) : Near a c where
  info := h'.info.trans h.info
  running := h'.running.trans h.running
  bwd := by
    intro p peer hp
    obtain ⟨q, q1, q2, q3⟩ := h'.bwd p peer hp
    obtain ⟨r, r1, r2, r3⟩ := h.bwd p q q1
    refine ⟨r, r1, q2.trans r2, ?_⟩
    rcases q3 with q3 | ⟨q3, q4⟩
    · rcases r3 with r3 | r3
      · exact Or.inl (q3.trans r3)
      · exact Or.inr ⟨q3.trans r3.1, r3.2⟩
    · rcases q4 with q4 | q4
      · exact Or.inr ⟨q3, Or.inl (h.infos p q4)⟩
      · rcases r3 with r3 | r3
        · exact Or.inr ⟨q3, Or.inr (r3 ▸ q4)⟩
        · exact Or.inr ⟨q3, r3.2⟩
  infos := fun p hp => h.infos p (h'.infos p hp)

theorem evaluate_want {s s' : St} {p : Nat} {as : List Act} {sd : Nat → Nat → Bool} (hI : Inv s) (hw : Want s sd)
    (h : evaluate s p = .ok (s', as)) : Want s' sd ∧ Near s s' ∧ Asked s' sd as ∧ s'.files = s.files := by
  cases hi : s.infos.get p with
  | none =>
    simp only [evaluate, hi, Res.ok.injEq, Prod.mk.injEq] at h
    obtain ⟨rfl, rfl⟩ := h
    exact ⟨hw, Near.refl s, by simp [Asked], rfl⟩
  | some info =>
    obtain ⟨hc, ht⟩ := hI.cur p info hi
    obtain ⟨e1, e2, e3, e4, e5, e6, e7, e8, e9, e10, e11, peer, info', f1, f3, f4, f5, f6, f7, f8, f9, f10, xs, o, f11, f12,
      f13, f14, -⟩ := evaluate_spec hI.base hi hc ht h
    obtain ⟨peer', g1, g2, g3, g4⟩ := f4
    obtain ⟨t, t1, t2⟩ := f10
    have hmis : ∀ j, missing s' j = missing s j := by intro j; unfold missing; rw [e3]
    have hcur : ∀ r ∈ info'.current, missing s' r.idx = .ok true ∧ sd p r.idx = true := by
      intro r hr
      have : r.idx ∈ info'.current.map (·.idx) := List.mem_map_of_mem hr
      rw [t1] at this
      rcases List.mem_append.1 this with hm | hm
      · obtain ⟨r0, hr0, e⟩ := List.mem_map.1 hm
        rw [hmis, ← e]
        exact hw.ent p info r0 hi hr0
      · obtain ⟨u1, u2⟩ := t2 _ hm
        refine ⟨by rw [hmis]; exact u1, ?_⟩
        obtain ⟨peer0, v1, v2⟩ := hw.peers p info hi
        rw [f1] at v1
        simp only [Option.some.injEq] at v1
        subst v1
        have := missing_lt u1
        rw [hw.len] at this
        exact v2.has this u2
    refine ⟨⟨by rw [e3]; exact hw.len, ?_, ?_⟩, ⟨by rw [e3], e7, ?_, ?_⟩, ?_, e3⟩
    · intro x i hx
      rw [e3]
      by_cases e : x = p
      · subst e
        obtain ⟨peer0, v1, v2⟩ := hw.peers x info hi
        rw [f1] at v1
        simp only [Option.some.injEq] at v1
        subst v1
        exact ⟨peer', by rw [g1]; simp, by rw [g2]; exact v2⟩
      · rw [f3, if_neg e] at hx
        obtain ⟨peer0, v1, v2⟩ := hw.peers x i hx
        exact ⟨peer0, by rw [g1, if_neg e]; exact v1, v2⟩
    · intro x i r hx hr
      by_cases e : x = p
      · subst e
        rw [f3] at hx
        simp only [if_true, Option.some.injEq] at hx
        subst hx
        exact hcur r hr
      · rw [f3, if_neg e] at hx
        rw [hmis]
        exact hw.ent x i r hx hr
    · intro x q hq
      by_cases e : x = p
      · subst e
        rw [g1] at hq
        simp only [if_true, Option.some.injEq] at hq
        subst hq
        exact ⟨peer, f1, g2, Or.inl g3⟩
      · rw [g1, if_neg e] at hq
        exact ⟨q, hq, rfl, Or.inl rfl⟩
    · intro x hx
      by_cases e : x = p
      · subst e; rw [hi]; simp
      · rw [f3, if_neg e] at hx; exact hx
    · intro q b hb
      rcases f12 with rfl | ⟨-, rfl⟩
      · unfold asks at hb
        split at hb
        · obtain ⟨y, hy, e⟩ := List.mem_map.1 hb
          simp only [Act.request.injEq] at e
          obtain ⟨rfl, rfl⟩ := e
          rw [f11.out] at hy
          obtain ⟨x, hx, rfl⟩ := List.mem_map.1 hy
          obtain ⟨r, hr, r1, -⟩ := (f11.flags x).2 (Or.inr hx)
          have hidx : (getPieceBlockInfo s.files.info x.1 x.2).index = x.1 := rfl
          rw [hidx, ← r1]
          exact hcur r hr
        · simp at hb
      · simp at hb

theorem Asked.append {s : St} {sd : Nat → Nat → Bool} {as bs : List Act} (h : Asked s sd as) (h' : Asked s sd bs) :
    Asked s sd (as ++ bs) := by
  intro p b hb
  rcases List.mem_append.1 hb with hb | hb
  · exact h p b hb
  · exact h' p b hb

theorem Asked.congr {s s' : St} {sd : Nat → Nat → Bool} {as : List Act} (h : Asked s sd as) (hf : s'.files = s.files) :
    Asked s' sd as := by
  intro p b hb
  unfold missing
  rw [hf]
  exact h p b hb

theorem evaluateAll_want (ps : List Nat) : ∀ {s s' : St} {as : List Act} {sd : Nat → Nat → Bool}, Inv s → Want s sd →
    evaluateAll ps s = .ok (s', as) → Want s' sd ∧ Near s s' ∧ Asked s' sd as ∧ s'.files = s.files := by
  induction ps with
  | nil =>
    intro s s' as sd hI hw h
    simp only [evaluateAll, Res.ok.injEq, Prod.mk.injEq] at h
    obtain ⟨rfl, rfl⟩ := h
    exact ⟨hw, Near.refl s, by simp [Asked], rfl⟩
  | cons p ps ih =>
    intro s s' as sd hI hw h
    unfold evaluateAll at h
    cases ht : evaluate s p with
    | ub => rw [ht] at h; simp at h
    | diverge => rw [ht] at h; simp at h
    | ok t =>
      rw [ht] at h
      simp only [Res.bind_ok] at h
      cases hu : evaluateAll ps t.1 with
      | ub => rw [hu] at h; simp at h
      | diverge => rw [hu] at h; simp at h
      | ok u =>
        rw [hu] at h
        simp only [Res.bind_ok, Res.pure_eq, Res.ok.injEq, Prod.mk.injEq] at h
        obtain ⟨rfl, rfl⟩ := h
        obtain ⟨a1, a2, a3, a4⟩ := evaluate_want hI hw (s' := t.1) (as := t.2) ht
        obtain ⟨b1, b2, b3, b4⟩ := ih (evaluate_trans hI (s' := t.1) (as := t.2) ht).1.inv a1 (s' := u.1) (as := u.2) hu
        exact ⟨b1, a2.trans b2, (a3.congr b4).append b3, b4.trans a4⟩

/-! ### Changes of the progress -/

theorem addPiece_keep {pp pp' : PP} {k : Nat} (hk : k < pp.pieces.length) (h : addPiece pp k = .ok pp') :
    pp'.pieces.length = pp.pieces.length ∧ ∀ j : Nat, j ≠ k → pp'.pieces[j]? = pp.pieces[j]? := by
  unfold addPiece at h
  simp only [show ¬ k ≥ pp.pieces.length by omega, if_false] at h
  cases hh : hasPiece pp k with
  | ub => rw [hh] at h; simp at h
  | diverge => rw [hh] at h; simp at h
  | ok has =>
    rw [hh] at h
    simp only [Res.bind_ok] at h
    cases has with
    | true =>
      simp only [Bool.not_true, Bool.false_eq_true, if_false, Res.pure_eq, Res.ok.injEq] at h
      rw [← h]; exact ⟨rfl, fun _ _ => rfl⟩
    | false =>
      simp only [Bool.not_false, if_true, wantedPiece, rd_eq_ok hk, Res.bind_ok, Res.pure_eq, Res.ok.injEq] at h
      rw [← h]
      exact ⟨by simp, fun j hj => by simp [List.getElem?_set_ne (Ne.symm hj)]⟩

theorem removePiece_keep {pp pp' : PP} {k : Nat} (h : removePiece pp k = .ok pp') :
    pp'.pieces.length = pp.pieces.length ∧ ∀ j : Nat, pp.pieces[j]? = some 0 → pp'.pieces[j]? = some 0 := by
  unfold removePiece at h
  cases hh : hasPiece pp k with
  | ub => rw [hh] at h; simp at h
  | diverge => rw [hh] at h; simp at h
  | ok has =>
    rw [hh] at h
    simp only [Res.bind_ok] at h
    cases has with
    | false =>
      simp only [Bool.false_eq_true, if_false, Res.pure_eq, Res.ok.injEq] at h
      rw [← h]; exact ⟨rfl, fun _ h => h⟩
    | true =>
      simp only [if_true] at h
      cases hg : pp.pieces[k]? with
      | none => simp [selectedPiece, rd, hg] at h
      | some v =>
        simp only [selectedPiece, rd, hg, Res.bind_ok, Res.pure_eq, Res.ok.injEq] at h
        rw [← h]
        refine ⟨by simp, ?_⟩
        intro j hj
        by_cases e : k = j
        · subst e
          rw [hg] at hj
          simp only [Option.some.injEq] at hj
          subst hj
          have := (List.getElem?_eq_some_iff.1 hg).1
          simp [this]
        · simp [List.getElem?_set_ne e, hj]

theorem missing_true {s : St} {j : Nat} : missing s j = .ok true ↔ s.files.progress.pieces[j]? = some 0 := by
  unfold missing wantedPiece rd
  cases s.files.progress.pieces[j]? with
  | none => simp
  | some v => simp

theorem selectOne_len {pp pp' : PP} {i : Nat} {v : Bool} (h : selectOne pp i v = .ok pp') :
    pp'.pieces.length = pp.pieces.length := by
  unfold selectOne at h
  cases hc : selectedPiece pp i with
  | ub => rw [hc] at h; simp at h
  | diverge => rw [hc] at h; simp at h
  | ok cur =>
    rw [hc] at h
    simp only [Res.bind_ok] at h
    split at h
    · simp only [Res.pure_eq, Res.ok.injEq] at h; rw [← h]
    · cases hr : rd pp.pieces i with
      | ub => rw [hr] at h; simp at h
      | diverge => rw [hr] at h; simp at h
      | ok x =>
        rw [hr] at h
        simp only [Res.bind_ok] at h
        split at h <;> simp only [Res.pure_eq, Res.ok.injEq] at h <;> rw [← h] <;> simp <;> split <;> rfl

theorem selectLoop_len {v : Bool} (n : Nat) : ∀ {i : Nat} {pp pp' : PP}, selectLoop v i n pp = .ok pp' →
    pp'.pieces.length = pp.pieces.length := by
  induction n with
  | zero => intro i pp pp' h; simp only [selectLoop, Res.ok.injEq] at h; rw [h]
  | succ n ih =>
    intro i pp pp' h
    simp only [selectLoop] at h
    cases hs : selectOne pp i v with
    | ub => rw [hs] at h; simp at h
    | diverge => rw [hs] at h; simp at h
    | ok q =>
      rw [hs] at h
      simp only [Res.bind_ok] at h
      rw [ih h, selectOne_len hs]

theorem filesSelect_len {s s' : FilesState} {idx : Nat} {v : Bool} (h : filesSelect s idx v = .ok s') :
    s'.progress.pieces.length = s.progress.pieces.length := by
  unfold filesSelect at h
  cases h1 : rd s.selection idx with
  | ub => rw [h1] at h; simp at h
  | diverge => rw [h1] at h; simp at h
  | ok cur =>
    rw [h1] at h
    simp only [Res.bind_ok] at h
    split at h
    · cases h2 : rd s.info.files idx with
      | ub => rw [h2] at h; simp at h
      | diverge => rw [h2] at h; simp at h
      | ok f =>
        rw [h2] at h
        simp only [Res.bind_ok] at h
        split at h
        · cases h3 : keepStart s.info.files (s.selection.set idx v) f.startPieceIndex idx with
          | ub => rw [h3] at h; simp at h
          | diverge => rw [h3] at h; simp at h
          | ok ks =>
            rw [h3] at h
            simp only [Res.bind_ok] at h
            cases h4 : keepEnd s.info.files (s.selection.set idx v) f.endPieceIndex (idx + 2) with
            | ub => rw [h4] at h; simp at h
            | diverge => rw [h4] at h; simp at h
            | ok ke =>
              rw [h4] at h
              simp only [Res.bind_ok] at h
              split at h
              all_goals
                generalize hp : Progress.select _ _ _ _ = r at h
                cases r with
                | ub => simp at h
                | diverge => simp at h
                | ok p =>
                  simp only [Res.bind_ok, Res.pure_eq, Res.ok.injEq] at h
                  rw [← h]
                  exact selectLoop_len _ hp
        · generalize hp : Progress.select _ _ _ _ = r at h
          cases r with
          | ub => simp at h
          | diverge => simp at h
          | ok p =>
            simp only [Res.bind_ok, Res.pure_eq, Res.ok.injEq] at h
            rw [← h]
            exact selectLoop_len _ hp
    · simp only [Res.pure_eq, Res.ok.injEq] at h
      rw [← h]

theorem select_len {s t : St} {idx : Nat} {v : Bool} (h : select s idx v = .ok t) :
    t.files.progress.pieces.length = s.files.progress.pieces.length := by
  obtain ⟨f, h1, rfl, -⟩ := select_spec h
  unfold Layout.selectFile at h1
  split at h1
  · simp only [Res.ok.injEq] at h1; rw [h1]
  · exact filesSelect_len h1

/-- Nothing new is asked for: entries come from entries, for the same pieces. -/
theorem Want.of {s s' : St} {sd sd' : Nat → Nat → Bool} (h : Want s sd)
    (hl : s'.files.progress.pieces.length = s.files.progress.pieces.length) (hi : s'.files.info = s.files.info)
    (hm : ∀ p i r, s'.infos.get p = some i → r ∈ i.current → missing s r.idx = .ok true → missing s' r.idx = .ok true)
    (hp : ∀ p i, s'.infos.get p = some i → ∃ peer', s'.peers.get p = some peer' ∧
      Honest s.files.info.piecesCount peer'.pieces (sd' p))
    (he : ∀ p i', s'.infos.get p = some i' → ∀ r ∈ i'.current, ∃ i, s.infos.get p = some i ∧
      (∃ r0 ∈ i.current, r0.idx = r.idx) ∧ (sd p r.idx = true → sd' p r.idx = true)) : Want s' sd' := by
  refine ⟨by rw [hl, hi]; exact h.len, ?_, ?_⟩
  · intro p i hpi
    rw [hi]; exact hp p i hpi
  · intro p i r hpi hr
    obtain ⟨i0, e1, ⟨r0, e2, e3⟩, e4⟩ := he p i hpi r hr
    obtain ⟨a, b⟩ := h.ent p i0 r0 e1 e2
    rw [e3] at a b
    exact ⟨hm p i r hpi hr a, e4 b⟩

/-- The same with the same peers and words. -/
theorem Want.of' {s s' : St} {sd : Nat → Nat → Bool} (h : Want s sd)
    (hl : s'.files.progress.pieces.length = s.files.progress.pieces.length) (hi : s'.files.info = s.files.info)
    (hm : ∀ p i r, s'.infos.get p = some i → r ∈ i.current → missing s r.idx = .ok true → missing s' r.idx = .ok true)
    (hp : s'.peers = s.peers)
    (he : ∀ p i', s'.infos.get p = some i' → ∃ i, s.infos.get p = some i ∧ ∀ r ∈ i'.current, ∃ r0 ∈ i.current, r0.idx = r.idx) :
    Want s' sd := by
  refine h.of hl hi hm ?_ ?_
  · intro p i hpi
    obtain ⟨i0, e1, -⟩ := he p i hpi
    rw [hp]; exact h.peers p i0 e1
  · intro p i hpi r hr
    obtain ⟨i0, e1, e2⟩ := he p i hpi
    exact ⟨i0, e1, e2 r hr, fun h => h⟩

theorem takeBlock_want {s s' : St} {p group : Nat} {b : BlockInfo} {as : List Act} {sd : Nat → Nat → Bool} (hI : Inv s)
    (hw : Want s sd) (h : takeBlock s p group b = .ok (s', as)) : Want s' sd ∧ Near s s' ∧ Asked s' sd as := by
  unfold takeBlock at h
  cases hq : s.requests.get b.index with
  | none =>
    simp only [hq, Res.ok.injEq, Prod.mk.injEq] at h
    obtain ⟨rfl, rfl⟩ := h
    exact ⟨hw, Near.refl s, by simp [Asked]⟩
  | some q =>
    simp only [hq] at h
    by_cases ha : (addBlock q.piece b).1 = true
    · simp only [ha, if_true] at h
      obtain ⟨a1, -, -⟩ := addBlock_spec _ _ ha
      split at h
      · cases hm : missing s (addBlock q.piece b).2.index with
        | ub => rw [hm] at h; simp at h
        | diverge => rw [hm] at h; simp at h
        | ok m =>
          have hlt := missing_lt hm
          rw [a1, (hI.base.req.get _ _ hq).1] at hlt
          rw [hm] at h
          simp only [Res.bind_ok] at h
          cases hp : addPiece s.files.progress b.index with
          | ub => rw [hp] at h; simp at h
          | diverge => rw [hp] at h; simp at h
          | ok prog =>
            rw [hp] at h
            simp only [Res.bind_ok, Res.pure_eq, Res.ok.injEq, Prod.mk.injEq] at h
            obtain ⟨rfl, rfl⟩ := h
            obtain ⟨k1, k2⟩ := addPiece_keep hlt hp
            refine ⟨hw.of' k1 rfl ?_ rfl ?_, ⟨rfl, rfl, fun _ peer h => ⟨peer, h, rfl, Or.inl rfl⟩, ?_⟩, by simp [Asked]⟩
            · intro x i r hx hr hmr
              simp only [Map.get_mapAll, Option.map_eq_some_iff] at hx
              obtain ⟨i0, h0, rfl⟩ := hx
              have hne : r.idx ≠ b.index := dropEntry_not (hI.cur x i0 h0).1.1 r hr
              rw [missing_true] at hmr ⊢
              dsimp only
              rw [k2 _ hne]; exact hmr
            · intro x i hx
              simp only [Map.get_mapAll, Option.map_eq_some_iff] at hx
              obtain ⟨i0, h0, rfl⟩ := hx
              exact ⟨i0, h0, fun r hr => ⟨r, dropEntry_sub _ _ r hr, rfl⟩⟩
            · intro x hx
              simp only [Map.get_mapAll, ne_eq, Option.map_eq_none_iff] at hx
              exact hx
      · simp only [Res.ok.injEq, Prod.mk.injEq] at h
        obtain ⟨rfl, rfl⟩ := h
        refine ⟨hw.of' rfl rfl (fun _ _ _ _ _ h => h) rfl ?_,
          ⟨rfl, rfl, fun _ peer h => ⟨peer, h, rfl, Or.inl rfl⟩, fun _ h => h⟩, by simp [Asked]⟩
        intro x i hx
        exact ⟨i, hx, fun r hr => ⟨r, hr, rfl⟩⟩
    · simp only [ha, Bool.false_eq_true, if_false, Res.ok.injEq, Prod.mk.injEq] at h
      obtain ⟨rfl, rfl⟩ := h
      exact ⟨hw, Near.refl s, by simp [Asked]⟩

/-- The entry of one peer is replaced by one for the same pieces. -/
theorem put_want {s : St} {p : Nat} {info info' : PeerReq} {sd : Nat → Nat → Bool} (hw : Want s sd)
    (hi : s.infos.get p = some info) (hc : ∀ r ∈ info'.current, ∃ r0 ∈ info.current, r0.idx = r.idx) :
    Want { s with infos := s.infos.put p info' } sd ∧ Near s { s with infos := s.infos.put p info' } := by
  refine ⟨hw.of' rfl rfl (fun _ _ _ _ _ h => h) rfl ?_,
    ⟨rfl, rfl, fun _ peer h => ⟨peer, h, rfl, Or.inl rfl⟩, ?_⟩⟩
  · intro x i hx
    simp only [Map.get_put] at hx
    by_cases e : x = p
    · simp only [e, if_true, Option.some.injEq] at hx
      subst hx
      exact ⟨info, by rw [e]; exact hi, hc⟩
    · rw [if_neg e] at hx
      exact ⟨i, hx, fun r hr => ⟨r, hr, rfl⟩⟩
  · intro x hx
    simp only [Map.get_put] at hx
    by_cases e : x = p
    · rw [e, hi]; simp
    · rw [if_neg e] at hx; exact hx

theorem piece_want {s s' : St} {p : Nat} {b : BlockInfo} {delta : Nat} {as : List Act} {sd : Nat → Nat → Bool}
    (hI : Inv s) (hw : Want s sd) (h : pieceBlockReceived s p b delta = .ok (s', as)) :
    Want s' sd ∧ Near s s' ∧ Asked s' sd as := by
  unfold pieceBlockReceived at h
  cases hi : s.infos.get p with
  | none =>
    simp only [hi, Res.ok.injEq, Prod.mk.injEq] at h
    obtain ⟨rfl, rfl⟩ := h
    exact ⟨hw, Near.refl s, by simp [Asked]⟩
  | some info =>
    simp only [hi] at h
    obtain ⟨hc, ht⟩ := hI.cur p info hi
    unfold addPeerBlockResponse at h
    cases ha : answer b info.current with
    | ub => rw [ha] at h; simp at h
    | diverge => rw [ha] at h; simp at h
    | ok o =>
      rw [ha] at h
      simp only [Res.bind_ok] at h
      obtain ⟨an1, an2⟩ := answer_spec b s.requests p info.current o hc ht ha
      have key : ∃ info' asked, (if asked = true then do
            let t ← takeBlock { s with infos := s.infos.put p info' } p info'.group b
            let u ← evaluate t.1 p
            pure (u.1, t.2 ++ u.2)
          else pure ({ s with infos := s.infos.put p info' }, [])) = Res.ok (s', as) ∧
          CurOk s.requests p info'.current ∧ total info'.current ≤ 100 ∧
          info'.current.map (·.idx) = info.current.map (·.idx) := by
        cases o with
        | none =>
          refine ⟨{ info with delta := delta }, info.requested.contains b.index, ?_, hc, ht, rfl⟩
          simpa using h
        | some cur =>
          obtain ⟨b1, b2, b3, -⟩ := an2 cur rfl
          refine ⟨{ info with current := cur, delta := delta }, true, ?_, b1, Nat.le_trans b2 ht, b3⟩
          simpa using h
      obtain ⟨info', asked, h, c1, c2, c3⟩ := key
      have hI1 : Inv { s with infos := s.infos.put p info' } := by
        refine ⟨⟨hI.base.req, hI.base.kept⟩, ?_⟩
        intro x i hx
        rw [Map.get_put] at hx
        by_cases e : x = p
        · subst e
          simp only [if_true, Option.some.injEq] at hx
          subst hx
          exact ⟨c1, c2⟩
        · rw [if_neg e] at hx; exact hI.cur x i hx
      obtain ⟨w1, n1⟩ := put_want (info' := info') hw hi (by
        intro r hr
        have : r.idx ∈ info'.current.map (·.idx) := List.mem_map_of_mem hr
        rw [c3] at this
        obtain ⟨r0, hr0, e⟩ := List.mem_map.1 this
        exact ⟨r0, hr0, e⟩)
      cases asked with
      | false =>
        simp only [Bool.false_eq_true, if_false, Res.pure_eq, Res.ok.injEq, Prod.mk.injEq] at h
        obtain ⟨rfl, rfl⟩ := h
        exact ⟨w1, n1, by simp [Asked]⟩
      | true =>
        simp only [if_true] at h
        cases htb : takeBlock { s with infos := s.infos.put p info' } p info'.group b with
        | ub => rw [htb] at h; simp at h
        | diverge => rw [htb] at h; simp at h
        | ok t =>
          rw [htb] at h
          simp only [Res.bind_ok] at h
          cases hev : evaluate t.1 p with
          | ub => rw [hev] at h; simp at h
          | diverge => rw [hev] at h; simp at h
          | ok u =>
            rw [hev] at h
            simp only [Res.bind_ok, Res.pure_eq, Res.ok.injEq, Prod.mk.injEq] at h
            obtain ⟨rfl, rfl⟩ := h
            obtain ⟨x1, x2, x3⟩ := takeBlock_want hI1 w1 (s' := t.1) (as := t.2) htb
            obtain ⟨y1, y2, y3, y4⟩ := evaluate_want (takeBlock_trans hI1 (s' := t.1) (as := t.2) htb).inv x1
              (s' := u.1) (as := u.2) hev
            exact ⟨y1, (n1.trans x2).trans y2, (x3.congr y4).append y3⟩

theorem unchoke_want {s s' : St} {p : Nat} {as : List Act} {sd : Nat → Nat → Bool} (hI : Inv s) (hw : Want s sd)
    (h : unchokePeer s p = .ok (s', as)) : Want s' sd ∧ Near s s' ∧ Asked s' sd as := by
  unfold unchokePeer at h
  cases hi : s.infos.get p with
  | none =>
    simp only [hi, Res.ok.injEq, Prod.mk.injEq] at h
    obtain ⟨rfl, rfl⟩ := h
    exact ⟨hw, Near.refl s, by simp [Asked]⟩
  | some info =>
    simp only [hi] at h
    obtain ⟨w1, n1⟩ := put_want (info' := { info with current := info.current.map fun r =>
        { r with active := 0, blocks := List.replicate r.blocks.length false } }) hw hi (by
      intro r hr
      obtain ⟨r0, hr0, rfl⟩ := List.mem_map.1 hr
      exact ⟨r0, hr0, rfl⟩)
    obtain ⟨y1, y2, y3, -⟩ := evaluate_want (unchoke_inv hI hi) w1 h
    exact ⟨y1, n1.trans y2, y3⟩

/-- The requests for pieces no longer wanted go. -/
theorem dropLoop_want (l : List Nat) : ∀ {s s' : St} {as : List Act} {sd : Nat → Nat → Bool}, Inv s →
    s.files.progress.pieces.length = s.files.info.piecesCount →
    (∀ p i, s.infos.get p = some i →
      ∃ peer, s.peers.get p = some peer ∧ Honest s.files.info.piecesCount peer.pieces (sd p)) →
    (∀ p i r, s.infos.get p = some i → r ∈ i.current → (r.idx ∈ l ∨ missing s r.idx = .ok true) ∧ sd p r.idx = true) →
    dropLoop s l = .ok (s', as) → Want s' sd ∧ Near s s' ∧ Asked s' sd as ∧ s'.files = s.files := by
  induction l with
  | nil =>
    intro s s' as sd hI hl hp he h
    simp only [dropLoop, Res.ok.injEq, Prod.mk.injEq] at h
    obtain ⟨rfl, rfl⟩ := h
    refine ⟨⟨hl, hp, ?_⟩, Near.refl s, by simp [Asked], rfl⟩
    intro p i r hi hr
    obtain ⟨e1, e2⟩ := he p i r hi hr
    exact ⟨by simpa using e1, e2⟩
  | cons idx l ih =>
    intro s s' as sd hI hl hp he h
    unfold dropLoop at h
    cases hm : missing s idx with
    | ub => rw [hm] at h; simp at h
    | diverge => rw [hm] at h; simp at h
    | ok m =>
      rw [hm] at h
      simp only [Res.bind_ok] at h
      cases m with
      | true =>
        refine ih hI hl hp ?_ (by simpa using h)
        intro p i r hi hr
        obtain ⟨e1, e2⟩ := he p i r hi hr
        refine ⟨?_, e2⟩
        rcases e1 with e1 | e1
        · rcases List.mem_cons.1 e1 with e1 | e1
          · exact Or.inr (by rw [e1]; exact hm)
          · exact Or.inl e1
        · exact Or.inr e1
      | false =>
        simp only [Bool.false_eq_true, if_false] at h
        have t1 : Trans s { s with
            requests := s.requests.del idx
            infos := s.infos.mapAll fun _ i => { i with current := dropEntry idx i.current } } [.dropped idx] :=
          drop_trans (Or.inr rfl) hI rfl rfl rfl rfl
        have hn : Near s { s with
            requests := s.requests.del idx
            infos := s.infos.mapAll fun _ i => { i with current := dropEntry idx i.current } } := by
          refine ⟨rfl, rfl, fun _ peer h => ⟨peer, h, rfl, Or.inl rfl⟩, ?_⟩
          intro x hx
          simp only [Map.get_mapAll, ne_eq, Option.map_eq_none_iff] at hx
          exact hx
        cases hd : dropLoop { s with
            requests := s.requests.del idx
            infos := s.infos.mapAll fun _ i => { i with current := dropEntry idx i.current } } l with
        | ub => rw [hd] at h; simp at h
        | diverge => rw [hd] at h; simp at h
        | ok t =>
          rw [hd] at h
          simp only [Res.bind_ok, Res.pure_eq, Res.ok.injEq, Prod.mk.injEq] at h
          obtain ⟨rfl, rfl⟩ := h
          obtain ⟨r1, r2, r3, r4⟩ := ih (sd := sd) t1.inv hl (by
              intro p i hi
              simp only [Map.get_mapAll, Option.map_eq_some_iff] at hi
              obtain ⟨i0, h0, rfl⟩ := hi
              exact hp p i0 h0) (by
              intro p i r hi hr
              simp only [Map.get_mapAll, Option.map_eq_some_iff] at hi
              obtain ⟨i0, h0, rfl⟩ := hi
              obtain ⟨e1, e2⟩ := he p i0 r h0 (dropEntry_sub _ _ r hr)
              refine ⟨?_, e2⟩
              have hne : r.idx ≠ idx := dropEntry_not (hI.cur p i0 h0).1.1 r hr
              rcases e1 with e1 | e1
              · rcases List.mem_cons.1 e1 with e1 | e1
                · exact absurd e1 hne
                · exact Or.inl e1
              · exact Or.inr e1) (s' := t.1) (as := t.2) hd
          refine ⟨r1, hn.trans r2, ?_, r4⟩
          intro p b hb
          rcases List.mem_cons.1 hb with hb | hb
          · simp at hb
          · exact r3 p b hb

theorem refresh_want {s s' : St} {order : List (Nat × Nat)} {as : List Act} {sd : Nat → Nat → Bool} (hI : Inv s)
    (hl : s.files.progress.pieces.length = s.files.info.piecesCount)
    (hp : ∀ p i, s.infos.get p = some i →
      ∃ peer, s.peers.get p = some peer ∧ Honest s.files.info.piecesCount peer.pieces (sd p))
    (he : ∀ p i r, s.infos.get p = some i → r ∈ i.current → sd p r.idx = true)
    (h : refreshSelection s order = .ok (s', as)) : Want s' sd ∧ Near s s' ∧ Asked s' sd as := by
  unfold refreshSelection at h
  have hq : Quiet s { s with sorted := order } := Quiet.of_eq rfl rfl rfl rfl
  have hI1 := hq.inv hI
  cases hd : dropLoop { s with sorted := order } (s.requests.map (·.1)) with
  | ub => rw [hd] at h; simp at h
  | diverge => rw [hd] at h; simp at h
  | ok t =>
    rw [hd] at h
    simp only [Res.bind_ok] at h
    obtain ⟨t1, -, -⟩ := dropLoop_trans _ hI1 (s' := t.1) (as := t.2) hd
    have hn0 : Near s { s with sorted := order } :=
      ⟨rfl, rfl, fun _ peer h => ⟨peer, h, rfl, Or.inl rfl⟩, fun _ h => h⟩
    obtain ⟨r1, r2, r3, r4⟩ := dropLoop_want (sd := sd) _ hI1 hl hp (by
      intro p i r hi hr
      refine ⟨Or.inl ?_, he p i r hi hr⟩
      obtain ⟨q, q1, -⟩ := (hI1.cur p i hi).1.2 r hr
      exact List.mem_map.2 ⟨_, Map.get_mem q1, rfl⟩) (s' := t.1) (as := t.2) hd
    split at h
    · simp only [Res.pure_eq, Res.ok.injEq] at h
      subst h
      exact ⟨r1, hn0.trans r2, r3⟩
    · cases hu : evaluateAll (t.1.infos.map (·.1)) t.1 with
      | ub => rw [hu] at h; simp at h
      | diverge => rw [hu] at h; simp at h
      | ok u =>
        rw [hu] at h
        simp only [Res.bind_ok, Res.pure_eq, Res.ok.injEq, Prod.mk.injEq] at h
        obtain ⟨rfl, rfl⟩ := h
        obtain ⟨u1, u2, u3, u4⟩ := evaluateAll_want _ t1.inv r1 (s' := u.1) (as := u.2) hu
        exact ⟨u1, (hn0.trans r2).trans u2, (r3.congr u4).append u3⟩

end Verif.Downloader
