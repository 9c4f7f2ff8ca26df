import Verif.Proof.DownloaderAllowed
import Verif.Proof.DownloaderWanted
import Verif.Proof.Bitfield
import Verif.Spec.DownloaderTell
/-! Every connected peer is told of every piece. -/

namespace Verif.Downloader
open Verif Layout Progress PieceState Spec Spec.Download Spec.Tell

theorem evaluate_running {s s' : St} {p : Nat} {as : List Act} (hI : Inv s) (h : evaluate s p = .ok (s', as)) :
    s'.running = s.running := by
  cases hi : s.infos.get p with
  | none =>
    simp only [evaluate, hi, Res.ok.injEq, Prod.mk.injEq] at h
    rw [← h.1]
  | some info =>
    obtain ⟨hc, ht⟩ := hI.cur p info hi
    obtain ⟨e1, e2, e3, e4, e5, e6, e7, e8, e9, e10, e11, -⟩ := evaluate_spec hI.base hi hc ht h
    assumption

theorem evaluateAll_running (ps : List Nat) : ∀ {s s' : St} {as : List Act}, Inv s → evaluateAll ps s = .ok (s', as) →
    s'.running = s.running := by
  induction ps with
  | nil =>
    intro s s' as _ h
    simp only [evaluateAll, Res.ok.injEq, Prod.mk.injEq] at h
    rw [← h.1]
  | cons p ps ih =>
    intro s s' as hI h
    unfold evaluateAll at h
    obtain ⟨t, ht, h⟩ := bindOk h
    obtain ⟨u, hu, h⟩ := bindOk h
    simp only [Res.pure_eq, Res.ok.injEq, Prod.mk.injEq] at h
    have h1 := evaluate_running hI (s' := t.1) (as := t.2) ht
    have hI1 := (evaluate_trans hI (s' := t.1) (as := t.2) ht).1.inv
    have h2 := ih hI1 (s' := u.1) (as := u.2) hu
    rw [← h.1, h2, h1]

theorem takeBlock_running {s s' : St} {p group : Nat} {b : BlockInfo} {as : List Act}
    (h : takeBlock s p group b = .ok (s', as)) : s'.running = s.running := by
  unfold takeBlock at h
  cases hq : s.requests.get b.index with
  | none =>
    simp only [hq, Res.ok.injEq, Prod.mk.injEq] at h
    rw [← h.1]
  | some q =>
    simp only [hq] at h
    split at h
    · split at h
      · obtain ⟨m, -, h⟩ := bindOk h
        obtain ⟨prog, -, h⟩ := bindOk h
        simp only [Res.pure_eq, Res.ok.injEq, Prod.mk.injEq] at h
        rw [← h.1]
      · simp only [Res.ok.injEq, Prod.mk.injEq] at h
        rw [← h.1]
    · simp only [Res.ok.injEq, Prod.mk.injEq] at h
      rw [← h.1]

theorem message_running {s s' : St} {p : Nat} {m : Msg} {as : List Act} (hI : Inv s)
    (h : message s p m = .ok (s', as)) :
    s'.running = s.running ∧ ∀ x, s'.peers.get x ≠ none → s.peers.get x ≠ none := by
  unfold message at h
  cases hp : s.peers.get p with
  | none =>
    simp only [hp, Res.ok.injEq, Prod.mk.injEq] at h
    rw [← h.1]; exact ⟨rfl, fun _ h => h⟩
  | some peer0 =>
    simp only [hp] at h
    obtain ⟨peer, -, h⟩ := bindOk h
    have hq1 : Quiet s { s with peers := s.peers.put p peer } := Quiet.of_eq rfl rfl rfl rfl
    have hI1 := hq1.inv hI
    have hkeys : ∀ x, (s.peers.put p peer).get x ≠ none → s.peers.get x ≠ none := by
      intro x hx
      by_cases e : x = p
      · rw [e, hp]; simp
      · rw [Map.get_put, if_neg e] at hx; exact hx
    split at h
    · have hm := messageReceived_move hI1 (by simp [Map.get_put]) h
      have hk2 : ∀ x, s'.peers.get x ≠ none → s.peers.get x ≠ none := by
        intro x hx
        obtain ⟨y, hy⟩ := Option.ne_none_iff_exists'.1 hx
        obtain ⟨z, hz, -⟩ := hm.keep x y hy
        exact hkeys x (by rw [hz]; simp)
      refine ⟨?_, hk2⟩
      have hfr : ({ s with peers := s.peers.put p peer } : St).running = s.running := rfl
      clear hm hk2 hkeys
      generalize ({ s with peers := s.peers.put p peer } : St) = t at *
      suffices hh : s'.running = t.running from hh.trans hfr
      unfold messageReceived at h
      obtain ⟨-, -, h⟩ := bindOk h
      split at h
      · split at h
        · simp only [Res.pure_eq, Res.ok.injEq, Prod.mk.injEq] at h
          rw [← h.1]
        · simp only [Res.pure_eq, Res.ok.injEq, Prod.mk.injEq] at h
          rw [← h.1]
      · have hpure : (pure (t, []) : Res (St × List Act)) = .ok (s', as) → s'.running = t.running := by
          intro h
          simp only [Res.pure_eq, Res.ok.injEq, Prod.mk.injEq] at h
          rw [← h.1]
        have htouch : evaluate { t with infos := touch t.infos p } p = .ok (s', as) → s'.running = t.running := by
          intro he
          have hI2 : Inv { t with infos := touch t.infos p } := (touch_quiet t p).inv hI1
          have := evaluate_running hI2 he
          exact this
        cases m with
        | choke => exact hpure h
        | other => exact hpure h
        | unchoke =>
          simp only [unchokePeer] at h
          cases hi : t.infos.get p with
          | none => simp only [hi] at h; exact hpure h
          | some info =>
            simp only [hi] at h
            have := evaluate_running (unchoke_inv hI1 hi) h
            exact this
        | «have» idx =>
          simp only at h
          obtain ⟨w, -, h⟩ := bindOk h
          split at h
          · exact htouch h
          · exact hpure h
        | bitfield d =>
          simp only at h
          obtain ⟨w, -, h⟩ := bindOk h
          split at h
          · exact htouch h
          · exact hpure h
        | piece b delta =>
          simp only [pieceBlockReceived] at h
          cases hi : t.infos.get p with
          | none => simp only [hi] at h; exact hpure h
          | some info =>
            simp only [hi] at h
            obtain ⟨⟨info', asked⟩, ha, h⟩ := bindOk h
            have hI2 := answer_inv hI1 hi ha
            simp only at h
            split at h
            · obtain ⟨u, hu, h⟩ := bindOk h
              obtain ⟨w, hw, h⟩ := bindOk h
              simp only [Res.pure_eq, Res.ok.injEq, Prod.mk.injEq] at h
              have h1 := takeBlock_running (s' := u.1) (as := u.2) hu
              have hI3 := (takeBlock_trans hI2 (s' := u.1) (as := u.2) hu).inv
              have h2 := evaluate_running hI3 (s' := w.1) (as := w.2) hw
              rw [← h.1, h2, h1]
            · simp only [Res.pure_eq, Res.ok.injEq, Prod.mk.injEq] at h
              rw [← h.1]
    · simp only [Res.pure_eq, Res.ok.injEq, Prod.mk.injEq] at h
      rw [← h.1]; exact ⟨rfl, hkeys⟩

theorem refresh_running {s s' : St} {order : List (Nat × Nat)} {as : List Act} (hI : Inv s)
    (h : refreshSelection s order = .ok (s', as)) :
    s'.running = s.running ∧ ∀ x, s'.peers.get x ≠ none → s.peers.get x ≠ none := by
  have hm := refresh_move hI h
  refine ⟨?_, fun x hx => ?_⟩
  · unfold refreshSelection at h
    have hq : Quiet s { s with sorted := order } := Quiet.of_eq rfl rfl rfl rfl
    have hI1 := hq.inv hI
    obtain ⟨t, ht, h⟩ := bindOk h
    have h1 : t.1.running = s.running := (dropLoop_keys _ (s' := t.1) (as := t.2) ht).2.2.2.1
    have hI2 := (dropLoop_trans _ hI1 (s' := t.1) (as := t.2) ht).1.inv
    split at h
    · simp only [Res.pure_eq, Res.ok.injEq] at h
      rw [h] at h1; exact h1
    · obtain ⟨u, hu, h⟩ := bindOk h
      simp only [Res.pure_eq, Res.ok.injEq, Prod.mk.injEq] at h
      rw [← h.1, evaluateAll_running _ hI2 (s' := u.1) (as := u.2) hu, h1]
  · obtain ⟨y, hy⟩ := Option.ne_none_iff_exists'.1 hx
    obtain ⟨z, hz, -⟩ := hm.keep x y hy
    rw [hz]; simp

/-- What a step keeps. -/
structure Goes (sha : List UInt8 → List UInt8) (hashes : List (List UInt8)) (s s' : St) (e : Ev) : Prop where
  fresh : ∀ i ∈ s.fresh, i ∈ s'.fresh ∨ e = .tick ∧ s.running = true
  new : ∀ i, New sha hashes s e i → i ∈ s'.fresh
  run : e ≠ .stop → s.running = true → s'.running = true
  keys : ∀ x, s'.peers.get x ≠ none → s.peers.get x ≠ none ∨ s.running = true

theorem step_goes {sha : List UInt8 → List UInt8} {hashes : List (List UInt8)} {s s' : St} {e : Ev} {as : List Act}
    (hI : Inv s) (h : step sha hashes s e = .ok (s', as)) : Goes sha hashes s s' e := by
  have plain : s'.fresh = s.fresh → s'.running = s.running → (∀ x, s'.peers.get x ≠ none → s.peers.get x ≠ none) →
      (∀ k d, e ≠ .check k d) → Goes sha hashes s s' e := fun h1 h2 h3 h4 =>
    ⟨fun i hi => Or.inl (by rw [h1]; exact hi), fun i ⟨k, d, q, e1, _⟩ => absurd e1 (h4 k _),
      fun _ hr => by rw [h2]; exact hr, fun x hx => Or.inl (h3 x hx)⟩
  cases e with
  | connect p =>
    simp only [step, Res.ok.injEq, Prod.mk.injEq] at h
    rw [← h.1]
    split
    · exact ⟨fun i hi => Or.inl hi, fun i ⟨k, d, q, e1, _⟩ => by simp at e1, fun _ h => h, fun x hx => Or.inl hx⟩
    · next hc =>
      refine ⟨fun i hi => Or.inl hi, fun i ⟨k, d, q, e1, _⟩ => by simp at e1, fun _ h => h, fun x hx => Or.inr ?_⟩
      simp only [not_or, Decidable.not_not] at hc
      exact hc.2
  | handshake p =>
    simp only [step, handshake] at h
    cases hp : s.peers.get p with
    | none =>
      simp only [hp, Res.ok.injEq, Prod.mk.injEq] at h
      rw [← h.1] at plain ⊢; exact plain rfl rfl (fun _ h => h) (by simp)
    | some peer =>
      simp only [hp] at h
      have hkeys : ∀ y x, (s.peers.put p y).get x ≠ none → s.peers.get x ≠ none := by
        intro y x hx
        by_cases e : x = p
        · rw [e, hp]; simp
        · rw [Map.get_put, if_neg e] at hx; exact hx
      split at h
      · split at h
        · obtain ⟨d, -, h⟩ := bindOk h
          simp only [Res.pure_eq, Res.ok.injEq, Prod.mk.injEq] at h
          rw [← h.1] at plain ⊢; exact plain rfl rfl (hkeys _) (by simp)
        · simp only [Res.pure_eq, Res.ok.injEq, Prod.mk.injEq] at h
          rw [← h.1] at plain ⊢; exact plain rfl rfl (hkeys _) (by simp)
      · simp only [Res.ok.injEq, Prod.mk.injEq] at h
        rw [← h.1] at plain ⊢; exact plain rfl rfl (fun _ h => h) (by simp)
  | message p m =>
    have h1 := message_running hI h
    exact plain (message_fresh hI h).1 h1.1 h1.2 (by simp)
  | closed p =>
    simp only [step, Res.ok.injEq, Prod.mk.injEq] at h
    rw [← h.1] at plain ⊢
    refine plain ?_ ?_ ?_ (by simp)
    · change (connectionClosed s p).fresh = _; unfold connectionClosed; split <;> rfl
    · change (connectionClosed s p).running = _; unfold connectionClosed; split <;> rfl
    · intro x hx
      simp only at hx
      rw [Map.get_del] at hx
      by_cases e : x = p
      · rw [if_pos e] at hx; exact absurd rfl hx
      · rw [if_neg e] at hx; exact hx
  | check k data =>
    simp only [step, check] at h
    cases hk : s.checks[k]? with
    | none =>
      simp only [hk, Res.ok.injEq, Prod.mk.injEq] at h
      rw [← h.1]
      refine ⟨fun i hi => Or.inl hi, ?_, fun _ h => h, fun x hx => Or.inl hx⟩
      rintro i ⟨k', d, q, e1, e2, e3⟩
      simp only [Ev.check.injEq] at e1
      rw [← e1.1, hk] at e2; simp at e2
    | some x =>
      obtain ⟨idx, q⟩ := x
      simp only [hk] at h
      obtain ⟨hash, hhash, h⟩ := bindOk h
      have hh : hashes[idx]? = some hash := by
        unfold rd at hhash
        cases e : hashes[idx]? with
        | none => simp [e] at hhash
        | some y => simp only [e, Res.ok.injEq] at hhash; rw [hhash]
      have hf := pieceChecked_fresh h
      have hm := pieceChecked_move h
      have hrun : s'.running = s.running := by
        unfold pieceChecked at h
        by_cases e : checkResult sha hash data = .success
        · simp only [e, if_true, Res.pure_eq, Res.bind_ok, Res.ok.injEq, Prod.mk.injEq] at h
          rw [← h.1]
          exact (refreshSources_same _ _ _ _).2.2.2.1
        · simp only [e, if_false] at h
          obtain ⟨prog, -, h⟩ := bindOk h
          simp only [Res.pure_eq, Res.ok.injEq, Prod.mk.injEq] at h
          rw [← h.1]
          exact (refreshSources_same _ _ _ _).2.2.2.1
      refine ⟨?_, ?_, fun _ h => by rw [hrun]; exact h, ?_⟩
      · intro i hi
        left
        rw [hf]
        split
        · exact List.mem_append_left _ hi
        · exact hi
      · rintro i ⟨k', d, q', e1, e2, e3⟩
        simp only [Ev.check.injEq] at e1
        rw [← e1.1, hk] at e2
        simp only [Option.some.injEq, Prod.mk.injEq] at e2
        rw [hf, if_pos]
        · rw [e2.1]; simp
        · rw [e1.2]
          unfold checkResult
          simp only
          rw [← e2.1, hh] at e3
          rw [if_pos (by simpa using e3.symm)]
      · intro x hx
        obtain ⟨y, hy⟩ := Option.ne_none_iff_exists'.1 hx
        obtain ⟨z, hz, -⟩ := hm.keep x y hy
        left
        change s.peers.get x = some z at hz
        rw [hz]; simp
  | finish =>
    simp only [step, finish] at h
    split at h
    · simp only [Res.ok.injEq, Prod.mk.injEq] at h
      rw [← h.1] at plain ⊢; exact plain rfl rfl (fun _ h => h) (by simp)
    · simp only [Res.ok.injEq, Prod.mk.injEq] at h
      rw [← h.1] at plain ⊢
      refine plain rfl rfl ?_ (by simp)
      intro x hx
      obtain ⟨y, hy⟩ := Option.ne_none_iff_exists'.1 hx
      obtain ⟨q, hq, -⟩ := closeAll_keep _ _ _ _ hy
      rw [hq]; simp
  | select idx v =>
    simp only [step] at h
    obtain ⟨t, ht, h⟩ := bindOk h
    obtain ⟨f, -, e, hf⟩ := select_spec ht
    simp only [Res.pure_eq, Res.ok.injEq, Prod.mk.injEq] at h
    rw [← h.1, e] at plain ⊢; exact plain rfl rfl (fun _ h => h) (by simp)
  | setPriority idx pr =>
    simp only [step, Res.ok.injEq, Prod.mk.injEq] at h
    rw [← h.1] at plain ⊢; exact plain rfl rfl (fun _ h => h) (by simp)
  | refresh order =>
    simp only [step] at h
    split at h
    · have h1 := refresh_running hI h
      exact plain (refresh_fresh hI h).1 h1.1 h1.2 (by simp)
    · simp only [Res.ok.injEq, Prod.mk.injEq] at h
      rw [← h.1] at plain ⊢; exact plain rfl rfl (fun _ h => h) (by simp)
  | selectFile idx v order =>
    simp only [step] at h
    obtain ⟨t, ht, h⟩ := bindOk h
    obtain ⟨f, -, e, hf⟩ := select_spec ht
    have hq : Quiet s t := by rw [e]; exact Quiet.of_eq rfl rfl hf rfl
    split at h
    · split at h
      · have h1 := refresh_running (hq.inv hI) h
        have h2 := (refresh_fresh (hq.inv hI) h).1
        have e1 : t.running = s.running := by rw [e]
        have e2 : t.fresh = s.fresh := by rw [e]
        have e3 : t.peers = s.peers := by rw [e]
        rw [e1, e3] at h1
        rw [e2] at h2
        exact plain h2 h1.1 h1.2 (by simp)
      · simp only [Res.pure_eq, Res.ok.injEq, Prod.mk.injEq] at h
        rw [← h.1] at plain ⊢; exact plain rfl rfl (fun _ h => h) (by simp)
    · simp only [Res.pure_eq, Res.ok.injEq, Prod.mk.injEq] at h
      rw [← h.1, e] at plain ⊢; exact plain rfl rfl (fun _ h => h) (by simp)
  | sort order =>
    simp only [step, Res.ok.injEq, Prod.mk.injEq] at h
    rw [← h.1] at plain ⊢
    refine plain ?_ ?_ ?_ (by simp)
    · split <;> rfl
    · split <;> rfl
    · split <;> exact fun _ h => h
  | tick =>
    simp only [step] at h
    split at h
    · next hr =>
      simp only [Res.ok.injEq, Prod.mk.injEq] at h
      rw [← h.1]
      exact ⟨fun i hi => Or.inr ⟨rfl, hr⟩, fun i ⟨k, d, q, e1, _⟩ => by simp at e1, fun _ h => h, fun x hx => Or.inl hx⟩
    · simp only [Res.ok.injEq, Prod.mk.injEq] at h
      rw [← h.1] at plain ⊢; exact plain rfl rfl (fun _ h => h) (by simp)
  | start order =>
    simp only [step] at h
    split at h
    · simp only [Res.ok.injEq, Prod.mk.injEq] at h
      rw [← h.1] at plain ⊢; exact plain rfl rfl (fun _ h => h) (by simp)
    · have hq : Quiet s { s with running := true } := Quiet.of_eq rfl rfl rfl rfl
      have h1 := refresh_running (hq.inv hI) h
      have h2 := (refresh_fresh (hq.inv hI) h).1
      refine ⟨fun i hi => Or.inl (by rw [h2]; exact hi), fun i ⟨k, d, q, e1, _⟩ => by simp at e1,
        fun _ _ => by rw [h1.1], fun x hx => Or.inl (h1.2 x hx)⟩
  | stop =>
    simp only [step, Res.ok.injEq, Prod.mk.injEq] at h
    rw [← h.1]
    refine ⟨fun i hi => Or.inl ?_, fun i ⟨k, d, q, e1, _⟩ => by simp at e1, fun h => absurd rfl h, fun x hx => ?_⟩
    · change i ∈ ((s.peers.map (·.1)).foldl connectionClosed s).fresh
      rw [closedAll_fresh]; exact hi
    · simp [stop, Map.get] at hx

/-- What a bitfield says. -/
theorem bitfield_bits {pp : PP} {l : Pieces} {d : List UInt8} (hl : Rel pp l) (hlen : l.length ≤ 16777216) (h : toBitfield pp = .ok d) :
    ∀ k, bit d k = (decide (k < l.length) && (l[k]?.map (·.has)).getD false) := by
  obtain ⟨d', hd, -, hb⟩ := toBitfieldLoop_spec hl l.length 0 (List.replicate ((l.length + 7) / 8) 0)
    (by omega) hlen (by simp) (by intro k; rw [bit_replicate_zero]; simp)
  have : toBitfield pp = .ok d' := by
    unfold toBitfield
    rw [length_eq hl, bfInit, toFloat_small _ hlen]
    exact hd
  rw [h] at this
  simp only [Res.ok.injEq] at this
  rw [this]; exact hb

theorem told_append (h : History) (e : Ev) (as : List Act) (p i : Nat) :
    told (h ++ [(e, as)]) p i = ((told h p i && !ends p e) || as.any (tells p i)) := by
  unfold told
  rw [List.foldl_append]
  rfl

/-- What every connected peer knows. -/
structure Tells (h : History) (s : St) : Prop where
  run : ∀ p, s.peers.get p ≠ none → s.running = true
  know : ∀ p, Connected s p → ∀ (i : Nat) (l : Pieces) (x : Piece), Rel s.files.progress l → l[i]? = some x → x.has = true →
    told h p i = true ∨ i ∈ s.fresh ∨ i ∈ s.checks.map (·.1)

theorem rel_unique {pp : PP} {l l' : Pieces} (h : Rel pp l) (h' : Rel pp l') (i : Nat) : (l[i]?.map (·.has)) = l'[i]?.map (·.has) := by
  have hlen : l.length = l'.length := by rw [← length_eq h, ← length_eq h']
  by_cases hi : i < l.length
  · have h1 := hasPiece_eq h i hi
    have h2 := hasPiece_eq h' i (by omega)
    rw [h1] at h2
    simp only [Res.ok.injEq] at h2
    rw [List.getElem?_eq_getElem hi, List.getElem?_eq_getElem (by omega : i < l'.length)]
    simp [h2]
  · rw [List.getElem?_eq_none (by omega), List.getElem?_eq_none (by omega)]

theorem not_empty {pp : PP} {l : Pieces} (h : Rel pp l) {i : Nat} {x : Piece} (hx : l[i]? = some x) (hh : x.has = true) :
    empty pp = false := by
  unfold empty
  rw [h.received]
  have : 0 < l.countP (·.has) := List.countP_pos_iff.2 ⟨x, List.mem_of_getElem? hx, hh⟩
  unfold Pieces.received
  simp only [beq_eq_false_iff_ne, ne_eq]
  omega

/-- The number of pieces stays the same. -/
theorem takeBlock_len {init V : Nat → Prop} {g : Nat → Res Bool} {F : Prop} {s s' : St} {p group : Nat} {b : BlockInfo} {as : List Act}
    (hI : Inv s) (hv : Ver init V g F s) (h : takeBlock s p group b = .ok (s', as)) :
    s'.files.progress.pieces.length = s.files.progress.pieces.length := by
  unfold takeBlock at h
  cases hq : s.requests.get b.index with
  | none =>
    simp only [hq, Res.ok.injEq, Prod.mk.injEq] at h
    rw [← h.1]
  | some q =>
    have hreq := HasReq.get hq
    simp only [hq] at h
    by_cases ha : (addBlock q.piece b).1 = true
    · simp only [ha, if_true] at h
      obtain ⟨a1, -, -⟩ := addBlock_spec _ _ ha
      have hqi : (addBlock q.piece b).2.index = b.index := by rw [a1]; exact (hI.base.req.get _ _ hq).1
      have hmiss := hv.reqs _ hreq
      split at h
      · rw [hqi, hmiss] at h
        simp only [Res.bind_ok, if_true] at h
        obtain ⟨prog, hprog, h⟩ := bindOk h
        simp only [Res.pure_eq, Res.ok.injEq, Prod.mk.injEq] at h
        rw [← h.1]
        exact (addPiece_keep (missing_lt hmiss) hprog).1
      · simp only [Res.ok.injEq, Prod.mk.injEq] at h
        rw [← h.1]
    · rw [if_neg ha] at h
      simp only [Res.ok.injEq, Prod.mk.injEq] at h
      rw [← h.1]

theorem message_len {init V : Nat → Prop} {g : Nat → Res Bool} {F : Prop} {s s' : St} {p : Nat} {m : Msg} {as : List Act} (hI : Inv s)
    (hv : Ver init V g F s) (h : message s p m = .ok (s', as)) : s'.files.progress.pieces.length = s.files.progress.pieces.length := by
  unfold message at h
  cases hp : s.peers.get p with
  | none =>
    simp only [hp, Res.ok.injEq, Prod.mk.injEq] at h
    rw [← h.1]
  | some peer0 =>
    simp only [hp] at h
    obtain ⟨peer, -, h⟩ := bindOk h
    have hq1 : Quiet s { s with peers := s.peers.put p peer } := Quiet.of_eq rfl rfl rfl rfl
    have hI1 := hq1.inv hI
    have hv1 : Ver init V g F { s with peers := s.peers.put p peer } := hv.same rfl rfl rfl rfl rfl rfl
    split at h
    · next hrun0 =>
      have hrun : ({ s with peers := s.peers.put p peer } : St).running = true := hrun0
      have hfr : ({ s with peers := s.peers.put p peer } : St).files = s.files := rfl
      generalize ({ s with peers := s.peers.put p peer } : St) = t at *
      suffices hh : s'.files.progress.pieces.length = t.files.progress.pieces.length by rw [hh, hfr]
      unfold messageReceived at h
      obtain ⟨-, -, h⟩ := bindOk h
      split at h
      · split at h
        · simp only [Res.pure_eq, Res.ok.injEq, Prod.mk.injEq] at h
          rw [← h.1]
        · simp only [Res.pure_eq, Res.ok.injEq, Prod.mk.injEq] at h
          rw [← h.1]
      · have hpure : (pure (t, []) : Res (St × List Act)) = .ok (s', as) → s'.files.progress.pieces.length = t.files.progress.pieces.length := by
          intro h
          simp only [Res.pure_eq, Res.ok.injEq, Prod.mk.injEq] at h
          rw [← h.1]
        have hev : ∀ {t' : St}, Inv t' → t'.running = true → t'.files = t.files → evaluate t' p = .ok (s', as) →
            s'.files.progress.pieces.length = t.files.progress.pieces.length := by
          intro t' h1 h2 h3 h4
          rw [(evaluate_still h1 h2 h4).files, h3]
        have htouch : evaluate { t with infos := touch t.infos p } p = .ok (s', as) →
            s'.files.progress.pieces.length = t.files.progress.pieces.length :=
          hev ((touch_quiet t p).inv hI1) hrun rfl
        cases m with
        | choke => exact hpure h
        | other => exact hpure h
        | unchoke =>
          simp only [unchokePeer] at h
          cases hi : t.infos.get p with
          | none => simp only [hi] at h; exact hpure h
          | some info =>
            simp only [hi] at h
            exact hev (unchoke_inv hI1 hi) hrun rfl h
        | «have» idx =>
          simp only at h
          obtain ⟨w, -, h⟩ := bindOk h
          split at h
          · exact htouch h
          · exact hpure h
        | bitfield d =>
          simp only at h
          obtain ⟨w, -, h⟩ := bindOk h
          split at h
          · exact htouch h
          · exact hpure h
        | piece b delta =>
          simp only [pieceBlockReceived] at h
          cases hi : t.infos.get p with
          | none => simp only [hi] at h; exact hpure h
          | some info =>
            simp only [hi] at h
            obtain ⟨⟨info', asked⟩, ha, h⟩ := bindOk h
            have hI2 := answer_inv hI1 hi ha
            have hv2 : Ver init V g F { t with infos := t.infos.put p info' } := hv1.same rfl rfl rfl rfl rfl rfl
            simp only at h
            split at h
            · obtain ⟨u, hu, h⟩ := bindOk h
              obtain ⟨w, hw, h⟩ := bindOk h
              simp only [Res.pure_eq, Res.ok.injEq, Prod.mk.injEq] at h
              have h1 := takeBlock_running (s' := u.1) (as := u.2) hu
              have hI3 := (takeBlock_trans hI2 (s' := u.1) (as := u.2) hu).inv
              rw [← h.1, (evaluate_still hI3 (by rw [h1]; exact hrun) (s' := w.1) (as := w.2) hw).files]
              have := takeBlock_len hI2 hv2 (s' := u.1) (as := u.2) hu
              exact this
            · simp only [Res.pure_eq, Res.ok.injEq, Prod.mk.injEq] at h
              rw [← h.1]
    · simp only [Res.pure_eq, Res.ok.injEq, Prod.mk.injEq] at h
      rw [← h.1]

theorem refresh_files {s s' : St} {order : List (Nat × Nat)} {as : List Act} (hI : Inv s) (hr : s.running = true)
    (h : refreshSelection s order = .ok (s', as)) : s'.files = s.files := by
  unfold refreshSelection at h
  have hq : Quiet s { s with sorted := order } := Quiet.of_eq rfl rfl rfl rfl
  have hI1 := hq.inv hI
  obtain ⟨t, ht, h⟩ := bindOk h
  have h1 := dropLoop_keys _ (s' := t.1) (as := t.2) ht
  have hI2 := (dropLoop_trans _ hI1 (s' := t.1) (as := t.2) ht).1.inv
  split at h
  · simp only [Res.pure_eq, Res.ok.injEq] at h
    rw [h] at h1; exact h1.1
  · obtain ⟨u, hu, h⟩ := bindOk h
    simp only [Res.pure_eq, Res.ok.injEq, Prod.mk.injEq] at h
    rw [← h.1, (evaluateAll_still _ hI2 (by rw [h1.2.2.2.1]; exact hr) (s' := u.1) (as := u.2) hu).files, h1.1]

theorem step_len {sha : List UInt8 → List UInt8} {hashes : List (List UInt8)} {init V : Nat → Prop} {g : Nat → Res Bool} {F : Prop}
    {s s' : St} {e : Ev} {as : List Act} (hI : Inv s) (hv : Ver init V g F s) (h : step sha hashes s e = .ok (s', as)) :
    s'.files.progress.pieces.length = s.files.progress.pieces.length := by
  cases e with
  | connect p =>
    simp only [step, Res.ok.injEq, Prod.mk.injEq] at h
    rw [← h.1]; split <;> rfl
  | handshake p =>
    simp only [step, handshake] at h
    cases hp : s.peers.get p with
    | none => simp only [hp, Res.ok.injEq, Prod.mk.injEq] at h; rw [← h.1]
    | some peer =>
      simp only [hp] at h
      split at h
      · split at h
        · obtain ⟨d, -, h⟩ := bindOk h
          simp only [Res.pure_eq, Res.ok.injEq, Prod.mk.injEq] at h
          rw [← h.1]
        · simp only [Res.pure_eq, Res.ok.injEq, Prod.mk.injEq] at h
          rw [← h.1]
      · simp only [Res.ok.injEq, Prod.mk.injEq] at h; rw [← h.1]
  | message p m => exact message_len hI hv h
  | closed p =>
    simp only [step, Res.ok.injEq, Prod.mk.injEq] at h
    rw [← h.1]
    rw [show ({ connectionClosed s p with peers := s.peers.del p } : St).files = (connectionClosed s p).files from rfl,
      (closed_still s p).files]
  | check k data =>
    simp only [step, check] at h
    split at h
    · simp only [Res.ok.injEq, Prod.mk.injEq] at h; rw [← h.1]
    · obtain ⟨hash, -, h⟩ := bindOk h
      unfold pieceChecked at h
      by_cases e : checkResult sha hash data = .success
      · simp only [e, if_true, Res.pure_eq, Res.bind_ok, Res.ok.injEq, Prod.mk.injEq] at h
        rw [← h.1]
        simp only [(refreshSources_same _ _ _ _).1]
      · simp only [e, if_false] at h
        obtain ⟨prog, hp, h⟩ := bindOk h
        simp only [Res.pure_eq, Res.ok.injEq, Prod.mk.injEq] at h
        rw [← h.1, (refreshSources_same _ _ _ _).1]
        exact (removePiece_keep hp).1
  | finish =>
    simp only [step, finish] at h
    split at h
    · simp only [Res.ok.injEq, Prod.mk.injEq] at h; rw [← h.1]
    · simp only [Res.ok.injEq, Prod.mk.injEq] at h; rw [← h.1]
  | select idx v =>
    simp only [step] at h
    obtain ⟨t, ht, h⟩ := bindOk h
    simp only [Res.pure_eq, Res.ok.injEq, Prod.mk.injEq] at h
    rw [← h.1]; exact select_len ht
  | setPriority idx pr =>
    simp only [step, Res.ok.injEq, Prod.mk.injEq] at h
    rw [← h.1]
  | refresh order =>
    simp only [step] at h
    split at h
    · next hc => rw [refresh_files hI hc.1 h]
    · simp only [Res.ok.injEq, Prod.mk.injEq] at h; rw [← h.1]
  | selectFile idx v order =>
    simp only [step] at h
    obtain ⟨t, ht, h⟩ := bindOk h
    have hsl := select_len ht
    obtain ⟨f, -, e, hf⟩ := select_spec ht
    have hq : Quiet s t := by rw [e]; exact Quiet.of_eq rfl rfl hf rfl
    split at h
    · next hr =>
      split at h
      · rw [refresh_files (hq.inv hI) hr h, hsl]
      · simp only [Res.pure_eq, Res.ok.injEq, Prod.mk.injEq] at h; rw [← h.1]
    · simp only [Res.pure_eq, Res.ok.injEq, Prod.mk.injEq] at h
      rw [← h.1]; exact hsl
  | sort order =>
    simp only [step, Res.ok.injEq, Prod.mk.injEq] at h
    rw [← h.1]; split <;> rfl
  | tick =>
    simp only [step] at h
    split at h
    · simp only [Res.ok.injEq, Prod.mk.injEq] at h; rw [← h.1]
    · simp only [Res.ok.injEq, Prod.mk.injEq] at h; rw [← h.1]
  | start order =>
    simp only [step] at h
    split at h
    · simp only [Res.ok.injEq, Prod.mk.injEq] at h; rw [← h.1]
    · have hq : Quiet s { s with running := true } := Quiet.of_eq rfl rfl rfl rfl
      rw [refresh_files (hq.inv hI) rfl h]
  | stop =>
    simp only [step, Res.ok.injEq, Prod.mk.injEq] at h
    rw [← h.1]
    have h0 := (closedAll_still (s.peers.map (·.1)) s).files
    change ((s.peers.map (·.1)).foldl connectionClosed s).files.progress.pieces.length = _
    rw [h0]

theorem step_tells {sha : List UInt8 → List UInt8} {hashes : List (List UInt8)} {init V : Nat → Prop} {g : Nat → Res Bool} {F : Prop}
    {s s' : St} {e : Ev} {as : List Act} {h : History} (hI : Inv s) (hv : Ver init V g F s) (hns : isSelect e = false)
    (hlen : s.files.progress.pieces.length ≤ 16777216) (ht : Tells h s) (hs : step sha hashes s e = .ok (s', as)) :
    Tells (h ++ [(e, as)]) s' := by
  have hg := step_goes hI hs
  refine ⟨?_, ?_⟩
  · intro p hp
    by_cases he : e = .stop
    · subst he
      simp only [step, Res.ok.injEq, Prod.mk.injEq] at hs
      rw [← hs.1] at hp
      simp [stop, Map.get] at hp
    · apply hg.run he
      rcases hg.keys p hp with h | h
      · exact ht.run p h
      · exact h
  · intro p hp i l' x hl' hx hh
    rw [told_append]
    -- was the peer there before?
    have hwas : Connected s p ∧ ends p e = false ∨ e = .handshake p := by
      classical
      have hk : Known s (fun _ => true) (fun p => decide (Connected s p)) := by
        intro q peer hq
        exact ⟨fun _ => rfl, fun he => by simp only [decide_eq_true_eq]; exact ⟨peer, hq, he⟩⟩
      have ha := (step_allowed hI hk hs).1
      obtain ⟨peer, hp1, hp2⟩ := hp
      have := (ha p peer hp1).2 hp2
      simp only [Bool.and_eq_true] at this
      have h1 := this.1
      cases e with
      | handshake q =>
        simp only [joinedEv] at h1
        by_cases e : p = q
        · right; rw [e]
        · rw [if_neg e] at h1; left; exact ⟨by simpa using h1, rfl⟩
      | closed q =>
        simp only [joinedEv] at h1
        by_cases e : p = q
        · rw [if_pos e] at h1; simp at h1
        · rw [if_neg e] at h1; left; exact ⟨by simpa using h1, by simp [ends]; omega⟩
      | stop => simp [joinedEv] at h1
      | _ => left; exact ⟨by simpa [joinedEv] using h1, rfl⟩
    have hold : Connected s p → ends p e = false → (told h p i && !ends p e || as.any (tells p i)) = true ∨ i ∈ s'.fresh ∨
        i ∈ s'.checks.map (·.1) := by
      intro hc he
      have hv0 : Ver (fun j => (∃ l y, Rel s.files.progress l ∧ l[j]? = some y ∧ y.has = true) ∧ j ∉ s.checks.map (·.1))
          (fun _ => False) g True s := by
        refine ⟨⟨?_, hv.b.nodup, hv.b.cnt⟩, hv.sel, hv.reqs, hv.stopped, fun _ => trivial⟩
        obtain ⟨l, a, b, c, d⟩ := hv.b.body
        refine ⟨l, a, b, fun j y hy hyh => ?_, d⟩
        by_cases hj : j ∈ s.checks.map (·.1)
        · exact Or.inr (Or.inr hj)
        · exact Or.inl ⟨⟨l, y, a, hy, hyh⟩, hj⟩
      obtain ⟨g', -, hv'⟩ := step_ver hI hv0 hns hs
      obtain ⟨l2, a, -, c, -⟩ := hv'.b.body
      have hu := rel_unique hl' a i
      rw [hx] at hu
      cases hy : l2[i]? with
      | none => rw [hy] at hu; simp at hu
      | some y =>
        rw [hy] at hu
        simp only [Option.map_some, Option.some.injEq] at hu
        rcases c i y hy (by rw [← hu]; exact hh) with ⟨⟨l, z, r1, r2, r3⟩, hn⟩ | h2 | h2
        · rcases ht.know p hc i l z r1 r2 r3 with h3 | h3 | h3
          · left; simp [h3, he]
          · rcases hg.fresh i h3 with h4 | ⟨h4, h5⟩
            · exact Or.inr (Or.inl h4)
            · left
              subst h4
              simp only [step, if_pos h5, Res.ok.injEq, Prod.mk.injEq] at hs
              rw [← hs.2]
              simp only [Bool.or_eq_true]
              right
              rw [List.any_eq_true]
              refine ⟨.have p i, ?_, by simp [tells]⟩
              unfold announce
              rw [List.mem_flatMap]
              obtain ⟨peer, hp1, hp2⟩ := hc
              refine ⟨p, ?_, List.mem_map.2 ⟨i, h3, rfl⟩⟩
              rw [List.mem_filter]
              refine ⟨?_, by rw [hp1]; simp [hp2]⟩
              exact List.mem_map.2 ⟨_, Map.get_mem hp1, rfl⟩
          · exact absurd h3 hn
        · rcases h2 with h2 | h2
          · exact h2.elim
          · exact Or.inr (Or.inl (hg.new i h2))
        · exact Or.inr (Or.inr h2)
    rcases hwas with ⟨h1, h2⟩ | he
    · exact hold h1 h2
    · subst he
      by_cases hc : Connected s p
      · exact hold hc rfl
      · left
        obtain ⟨peer', hp1, hp2⟩ := hp
        simp only [step, handshake] at hs
        cases hpp : s.peers.get p with
        | none =>
          simp only [hpp, Res.ok.injEq, Prod.mk.injEq] at hs
          rw [← hs.1, hpp] at hp1; simp at hp1
        | some peer =>
          simp only [hpp] at hs
          split at hs
          · have hfiles : s'.files = s.files := by
              split at hs
              · obtain ⟨d, -, hs⟩ := bindOk hs
                simp only [Res.pure_eq, Res.ok.injEq, Prod.mk.injEq] at hs
                rw [← hs.1]
              · simp only [Res.pure_eq, Res.ok.injEq, Prod.mk.injEq] at hs
                rw [← hs.1]
            rw [hfiles] at hl'
            rw [if_pos ⟨ht.run p (by rw [hpp]; simp), by rw [not_empty hl' hx hh]; simp⟩] at hs
            obtain ⟨d, hd, hs⟩ := bindOk hs
            simp only [Res.pure_eq, Res.ok.injEq, Prod.mk.injEq] at hs
            rw [← hs.2]
            have hb := bitfield_bits hl' (by rw [← length_eq hl']; exact hlen) hd i
            have hi : i < l'.length := (List.getElem?_eq_some_iff.1 hx).1
            rw [hx] at hb
            simp only [hi, decide_true, Option.map_some, Option.getD_some, hh, Bool.and_self] at hb
            simp [tells, hb]
          · simp only [Res.ok.injEq, Prod.mk.injEq] at hs
            rw [← hs.1] at hp1
            exact absurd ⟨peer', hp1, hp2⟩ hc

theorem run_tells {sha : List UInt8 → List UInt8} {hashes : List (List UInt8)} {s0 : St} (hf : Download.Fresh s0) (hk : KeptOk s0)
    {l : Pieces} (hl : Rel s0.files.progress l) (hlen : l.length ≤ 16777216) (es : List Ev) :
    ∀ {s : St} {h : History}, (∀ e ∈ es, isSelect e = false) → run sha hashes s0 es = .ok (s, h) →
      Tells h s ∧ s.files.progress.pieces.length = l.length := by
  induction es using List.reverseRecOn with
  | nil =>
    intro s h _ hr
    simp only [run, Res.ok.injEq, Prod.mk.injEq] at hr
    obtain ⟨rfl, rfl⟩ := hr
    obtain ⟨h1, h2, h3, h4, h5, h6, h7⟩ := hf
    refine ⟨⟨?_, ?_⟩, length_eq hl⟩
    · intro p hp; rw [h3] at hp; simp [Map.get] at hp
    · rintro p ⟨peer, hp, -⟩; rw [h3] at hp; simp [Map.get] at hp
  | append_singleton es e ih =>
    intro s h hns hr
    obtain ⟨s1, h1, as, r1, r2, rfl⟩ := run_concat es e hr
    have hns1 : ∀ x ∈ es, isSelect x = false := fun x hx => hns x (List.mem_append_left _ hx)
    obtain ⟨ht, hl1⟩ := ih hns1 r1
    obtain ⟨hI, hv⟩ := run_ver hf hk hl (by omega) es hns1 r1
    refine ⟨step_tells hI hv (hns e (by simp)) (by rw [hl1]; exact hlen) ht r2, ?_⟩
    rw [step_len hI hv r2, hl1]

end Verif.Downloader
