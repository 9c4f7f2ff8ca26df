import Verif.Proof.DownloaderWanted
/-! Histories with peers that keep to the protocol. -/

namespace Verif.Downloader
open Verif Layout Progress PieceState Spec Spec.Download

structure W (s : St) (f : Nat → Phase) (sd : Nat → Nat → Bool) : Prop where
  want : Want s sd
  ph : ∀ p peer, s.peers.get p = some peer → f p ≠ .none ∧
    (f p = .opened → peer.action = .opened ∧ peer.pieces = {}) ∧
    (f p ≠ .opened → peer.action ≠ .opened ∧ Honest s.files.info.piecesCount peer.pieces (sd p)) ∧
    (f p = .greeted → peer.pieces.pieces.length = s.files.info.piecesCount)
  known : ∀ p, s.infos.get p ≠ none → f p ≠ .opened
  mute : ∀ p, f p = .opened ∨ f p = .greeted → ∀ i, sd p i = false
  idle : s.running = false → ∀ p, s.infos.get p = none
  size : 0 < s.files.info.piecesCount ∧ s.files.info.piecesCount ≤ 16777216

theorem W.near {s s' : St} {f : Nat → Phase} {sd : Nat → Nat → Bool} (h : W s f sd) (hn : Near s s') (hw : Want s' sd) :
    W s' f sd where
  want := hw
  ph := by
    intro p peer hp
    obtain ⟨q, q1, q2, q3⟩ := hn.bwd p peer hp
    obtain ⟨a, b, c, d⟩ := h.ph p q q1
    rw [hn.info, q2]
    refine ⟨a, ?_, ?_, d⟩
    · intro e
      refine ⟨?_, (b e).2⟩
      rcases q3 with q3 | ⟨-, q3 | q3⟩
      · rw [q3]; exact (b e).1
      · exact absurd e (h.known p q3)
      · rw [(b e).1] at q3; simp at q3
    · intro e
      refine ⟨?_, (c e).2⟩
      rcases q3 with q3 | ⟨q3, -⟩
      · rw [q3]; exact (c e).1
      · rw [q3]; simp
  known := fun p hp => h.known p (hn.infos p hp)
  mute := h.mute
  idle := by
    intro hr p
    rw [hn.running] at hr
    have h1 := h.idle hr p
    by_contra hne
    exact hn.infos p hne h1
  size := by rw [hn.info]; exact h.size

theorem W.noInfo {s : St} {f : Nat → Phase} {sd : Nat → Nat → Bool} (h : W s f sd) {p : Nat} (hp : s.peers.get p = none) :
    s.infos.get p = none := by
  cases hi : s.infos.get p with
  | none => rfl
  | some i =>
    obtain ⟨peer, e, -⟩ := h.want.peers p i hi
    rw [hp] at e; simp at e

theorem asked_nil (s : St) (sd : Nat → Nat → Bool) : Asked s sd [] := by simp [Asked]

theorem asked_inert {s : St} {sd : Nat → Nat → Bool} {as : List Act} (h : ∀ a ∈ as, Inert a) : Asked s sd as := by
  intro p b hb
  exact absurd (h _ hb) (by simp [Inert])

/-- What every event does. -/
def StepW (s : St) (f : Nat → Phase) (sd : Nat → Nat → Bool) (e : Ev) (s' : St) (as : List Act) : Prop :=
  W s' (phaseEv f e) (saidEv sd e) ∧ Asked s' (saidEv sd e) as

theorem connect_w {s : St} {f : Nat → Phase} {sd : Nat → Nat → Bool} {q : Nat} (h : W s f sd) (hp : f q = .none) :
    StepW s f sd (.connect q)
      (if (s.peers.get q).isSome ∨ ¬ s.running then s else { s with peers := s.peers.put q {} }) [] := by
  have hnone : s.peers.get q = none := by
    cases e : s.peers.get q with
    | none => rfl
    | some peer => exact absurd hp (h.ph q peer e).1
  have hinfo := h.noInfo hnone
  refine ⟨?_, asked_nil _ _⟩
  have base : ∀ s' : St, (s' = s ∨ s' = { s with peers := s.peers.put q {} }) →
      W s' (phaseEv f (.connect q)) (saidEv sd (.connect q)) := by
    intro s' hs'
    have e1 : s'.files = s.files := by rcases hs' with rfl | rfl <;> rfl
    have e2 : s'.infos = s.infos := by rcases hs' with rfl | rfl <;> rfl
    have e3 : s'.running = s.running := by rcases hs' with rfl | rfl <;> rfl
    have e4 : ∀ p, p ≠ q → s'.peers.get p = s.peers.get p := by
      intro p hp; rcases hs' with rfl | rfl
      · rfl
      · simp [Map.get_put, hp]
    have e5 : ∀ peer, s'.peers.get q = some peer → peer = {} := by
      intro peer hp; rcases hs' with rfl | rfl
      · rw [hnone] at hp; simp at hp
      · simp [Map.get_put] at hp; exact hp.symm
    have e6 : ∀ p, s.infos.get p ≠ none → p ≠ q := by intro p hpi e; exact hpi (by rw [e]; exact hinfo)
    refine ⟨?_, ?_, ?_, ?_, by rw [e3, e2]; exact h.idle, by rw [e1]; exact h.size⟩
    · refine ⟨by rw [e1]; exact h.want.len, ?_, ?_⟩
      · intro p i hi
        rw [e2] at hi
        have hne := e6 p (by rw [hi]; simp)
        obtain ⟨peer, a, b⟩ := h.want.peers p i hi
        refine ⟨peer, by rw [e4 p hne]; exact a, ?_⟩
        simp only [saidEv, hne, if_false]
        rw [e1]; exact b
      · intro p i r hi hr
        rw [e2] at hi
        have hne := e6 p (by rw [hi]; simp)
        simp only [saidEv, hne, if_false]
        unfold missing
        rw [e1]
        exact h.want.ent p i r hi hr
    · intro p peer hpp
      simp only [phaseEv, saidEv]
      by_cases e : p = q
      · subst e
        rw [e5 peer hpp]
        simp
      · rw [e4 p e] at hpp
        simp only [e, if_false]
        rw [e1]
        exact h.ph p peer hpp
    · intro p hpi
      rw [e2] at hpi
      simp only [phaseEv, e6 p hpi, if_false]
      exact h.known p hpi
    · intro p hp i
      simp only [phaseEv, saidEv] at hp ⊢
      by_cases e : p = q
      · simp [e]
      · simp only [e, if_false] at hp ⊢
        exact h.mute p hp i
  split
  · exact base s (Or.inl rfl)
  · exact base _ (Or.inr rfl)

theorem handshake_w {s s' : St} {f : Nat → Phase} {sd : Nat → Nat → Bool} {q : Nat} {as : List Act} (h : W s f sd)
    (hs : handshake s q = .ok (s', as)) : StepW s f sd (.handshake q) s' as := by
  have same : s.peers.get q = none ∨ f q ≠ .opened → W s (phaseEv f (.handshake q)) (saidEv sd (.handshake q)) := by
    intro hc
    have hfp : ∀ p, s.peers.get p ≠ none → phaseEv f (.handshake q) p = f p := by
      intro p hp
      simp only [phaseEv]
      split
      · next e =>
        obtain ⟨rfl, e⟩ := e
        rcases hc with hc | hc
        · exact absurd hc hp
        · exact absurd e hc
      · rfl
    refine ⟨h.want, ?_, ?_, ?_, h.idle, h.size⟩
    · intro p peer hp
      rw [hfp p (by rw [hp]; simp)]
      exact h.ph p peer hp
    · intro p hp
      simp only [phaseEv]
      split
      · simp
      · exact h.known p hp
    · intro p hp i
      simp only [phaseEv] at hp
      split at hp
      · next e => exact h.mute p (Or.inl e.2) i
      · exact h.mute p hp i
  unfold handshake at hs
  cases hp : s.peers.get q with
  | none =>
    simp only [hp, Res.ok.injEq, Prod.mk.injEq] at hs
    obtain ⟨rfl, rfl⟩ := hs
    exact ⟨same (Or.inl hp), asked_nil _ _⟩
  | some peer =>
    simp only [hp] at hs
    obtain ⟨a, b, c, -⟩ := h.ph q peer hp
    by_cases hact : peer.action = .opened
    · rw [if_pos hact] at hs
      have hfq : f q = .opened := by
        by_contra hne; exact (c hne).1 hact
      have hinfo : s.infos.get q = none := by
        by_contra hne; exact h.known q hne hfq
      have hW : W { s with peers := s.peers.put q { peer with
            action := .established, pieces := Progress.init peer.pieces s.files.info.piecesCount } }
          (phaseEv f (.handshake q)) (saidEv sd (.handshake q)) := by
        have hne : ∀ p, s.infos.get p ≠ none → p ≠ q := by intro p hpi e; exact hpi (by rw [e]; exact hinfo)
        rw [(b hfq).2]
        refine ⟨⟨h.want.len, ?_, h.want.ent⟩, ?_, ?_, ?_, h.idle, h.size⟩
        · intro p i hi
          have := hne p (by rw [hi]; simp)
          simp only [Map.get_put, this, if_false]
          exact h.want.peers p i hi
        · intro p peer' hp'
          simp only [Map.get_put] at hp'
          simp only [phaseEv, saidEv]
          by_cases e : p = q
          · subst e
            simp only [if_true, Option.some.injEq] at hp'
            subst hp'
            simp only [hfq, and_self, if_true]
            refine ⟨by simp, by simp, fun _ => ⟨by simp, honest_init _ _⟩, fun _ => by simp [Progress.init]⟩
          · simp only [e, if_false, false_and] at hp' ⊢
            exact h.ph p peer' hp'
        · intro p hpi
          simp only [phaseEv, hne p hpi, false_and, if_false]
          exact h.known p hpi
        · intro p hpp i
          simp only [phaseEv] at hpp
          split at hpp
          · next e => exact h.mute p (Or.inl e.2) i
          · exact h.mute p hpp i
      split at hs
      · cases hb : toBitfield s.files.progress with
        | ub => rw [hb] at hs; simp at hs
        | diverge => rw [hb] at hs; simp at hs
        | ok d =>
          rw [hb] at hs
          simp only [Res.bind_ok, Res.pure_eq, Res.ok.injEq, Prod.mk.injEq] at hs
          obtain ⟨rfl, rfl⟩ := hs
          exact ⟨hW, asked_inert (by simp [Inert])⟩
      · simp only [Res.pure_eq, Res.ok.injEq, Prod.mk.injEq] at hs
        obtain ⟨rfl, rfl⟩ := hs
        exact ⟨hW, asked_nil _ _⟩
    · rw [if_neg hact] at hs
      simp only [Res.ok.injEq, Prod.mk.injEq] at hs
      obtain ⟨rfl, rfl⟩ := hs
      refine ⟨same (Or.inr ?_), asked_nil _ _⟩
      intro e
      exact hact (b e).1

theorem touch_w {s : St} {f : Nat → Phase} {sd : Nat → Nat → Bool} {p : Nat} {peer : Peer} (h : W s f sd)
    (hp : s.peers.get p = some peer) (hf : f p ≠ .opened) (hr : s.running = true) :
    W { s with infos := touch s.infos p } f sd := by
  have hcase : ∀ x i, (touch s.infos p).get x = some i → s.infos.get x = some i ∨ (x = p ∧ i = {}) := by
    intro x i hx
    unfold touch at hx
    cases hi : s.infos.get p with
    | some i0 => rw [hi] at hx; exact Or.inl hx
    | none =>
      rw [hi] at hx
      simp only [Map.get_put] at hx
      by_cases e : x = p
      · simp only [e, if_true, Option.some.injEq] at hx; exact Or.inr ⟨e, hx.symm⟩
      · rw [if_neg e] at hx; exact Or.inl hx
  refine ⟨⟨h.want.len, ?_, ?_⟩, h.ph, ?_, h.mute, by rw [hr]; simp, h.size⟩
  · intro x i hx
    rcases hcase x i hx with hx | ⟨rfl, rfl⟩
    · exact h.want.peers x i hx
    · exact ⟨peer, hp, ((h.ph x peer hp).2.2.1 hf).2⟩
  · intro x i r hx hr
    rcases hcase x i hx with hx | ⟨rfl, rfl⟩
    · exact h.want.ent x i r hx hr
    · simp at hr
  · intro x hx
    cases hi : (touch s.infos p).get x with
    | none => exact absurd hi hx
    | some i =>
      rcases hcase x i hi with hx | ⟨rfl, rfl⟩
      · exact h.known x (by rw [hx]; simp)
      · exact hf

/-- The object of the connection changes. -/
theorem receive_w {s : St} {f : Nat → Phase} {sd : Nat → Nat → Bool} {q : Nat} {peer0 peer : Peer} {m : Msg}
    (h : W s f sd) (hp : s.peers.get q = some peer0) (hpol : politeEv f (.message q m)) (hr : receive peer0 m = .ok peer) :
    W { s with peers := s.peers.put q peer } (phaseEv f (.message q m)) (saidEv sd (.message q m)) ∧
    phaseEv f (.message q m) q ≠ .opened := by
  have hfq : f q = .greeted ∨ f q = .spoken := by
    cases m with
    | bitfield d => exact Or.inl hpol
    | «have» k => exact hpol.1
    | choke => exact hpol
    | unchoke => exact hpol
    | piece b d => exact hpol
    | other => exact hpol
  have hno : f q ≠ .opened := by rcases hfq with e | e <;> rw [e] <;> simp
  have hnn : f q ≠ .none := by rcases hfq with e | e <;> rw [e] <;> simp
  obtain ⟨a, b, c, d⟩ := h.ph q peer0 hp
  -- nothing is said about pieces
  have plain : peer.pieces = peer0.pieces → peer.action = peer0.action → W { s with peers := s.peers.put q peer } f sd := by
    intro e1 e2
    refine h.near ⟨rfl, rfl, ?_, fun _ h => h⟩ ⟨h.want.len, ?_, h.want.ent⟩
    · intro p peer' hpp
      simp only [Map.get_put] at hpp
      by_cases e : p = q
      · simp only [e, if_true, Option.some.injEq] at hpp
        subst hpp
        exact ⟨peer0, by rw [e]; exact hp, e1, Or.inl e2⟩
      · rw [if_neg e] at hpp; exact ⟨peer', hpp, rfl, Or.inl rfl⟩
    · intro p i hi
      obtain ⟨pe, g1, g2⟩ := h.want.peers p i hi
      simp only [Map.get_put]
      by_cases e : p = q
      · subst e
        rw [hp] at g1
        simp only [Option.some.injEq] at g1
        subst g1
        exact ⟨peer, by simp, by rw [e1]; exact g2⟩
      · exact ⟨pe, by simp [e, g1], g2⟩
  -- the pieces of the peer change
  have change : ∀ g : Nat → Bool, peer.action = peer0.action → Honest s.files.info.piecesCount peer.pieces g →
      (∀ i, s.infos.get q = some i → ∀ r ∈ i.current, sd q r.idx = true → g r.idx = true) →
      W { s with peers := s.peers.put q peer } (fun p => if p = q then .spoken else f p)
        (fun p i => if p = q then g i else sd p i) := by
    intro g e2 hg hmono
    refine ⟨⟨h.want.len, ?_, ?_⟩, ?_, ?_, ?_, h.idle, h.size⟩
    · intro p i hi
      simp only [Map.get_put]
      by_cases e : p = q
      · exact ⟨peer, by simp [e], by simpa [e] using hg⟩
      · obtain ⟨pe, g1, g2⟩ := h.want.peers p i hi
        exact ⟨pe, by simp [e, g1], by simpa [e] using g2⟩
    · intro p i r hi hr
      obtain ⟨x1, x2⟩ := h.want.ent p i r hi hr
      refine ⟨x1, ?_⟩
      by_cases e : p = q
      · subst e
        simp only [if_true]
        exact hmono i hi r hr x2
      · simpa [e] using x2
    · intro p peer' hpp
      simp only [Map.get_put] at hpp
      by_cases e : p = q
      · simp only [e, if_true, Option.some.injEq] at hpp
        subst hpp
        refine ⟨by simp [e], by simp [e], fun _ => ⟨by rw [e2]; exact (c hno).1, by simpa [e] using hg⟩, by simp [e]⟩
      · rw [if_neg e] at hpp
        simp only [e, if_false]
        exact h.ph p peer' hpp
    · intro p hpi
      by_cases e : p = q
      · simp [e]
      · simp only [e, if_false]; exact h.known p hpi
    · intro p hpp i
      by_cases e : p = q
      · simp [e] at hpp
      · simp only [e, if_false] at hpp ⊢; exact h.mute p hpp i
  cases m with
  | choke =>
    simp only [receive, Res.ok.injEq] at hr
    subst hr
    exact ⟨plain rfl rfl, hno⟩
  | unchoke =>
    simp only [receive, Res.ok.injEq] at hr
    subst hr
    exact ⟨plain rfl rfl, hno⟩
  | piece b' d' =>
    simp only [receive, Res.ok.injEq] at hr
    subst hr
    exact ⟨plain rfl rfl, hno⟩
  | other =>
    simp only [receive, Res.ok.injEq] at hr
    subst hr
    exact ⟨plain rfl rfl, hno⟩
  | «have» k =>
    simp only [receive] at hr
    cases ha : addPiece peer0.pieces k with
    | ub => rw [ha] at hr; simp at hr
    | diverge => rw [ha] at hr; simp at hr
    | ok pp =>
      rw [ha] at hr
      simp only [Res.bind_ok, Res.pure_eq, Res.ok.injEq] at hr
      subst hr
      have := change (fun i => sd q i || i == k) rfl (honest_add (c hno).2 hpol.2 ha) (by
        intro i _ r _ hs; simp [hs])
      refine ⟨?_, by simp [phaseEv]⟩
      have e : saidEv sd (.message q (.have k)) = fun p i => if p = q then sd q i || i == k else sd p i := by
        funext p i
        simp only [saidEv]
        by_cases e : p = q
        · simp [e]
        · simp [e]
      rw [e]
      exact this
  | bitfield d' =>
    simp only [receive] at hr
    have hg : f q = .greeted := hpol
    cases ha : fromBitfieldData peer0.pieces d' with
    | ub => rw [ha] at hr; simp at hr
    | diverge => rw [ha] at hr; simp at hr
    | ok pp =>
      rw [ha] at hr
      simp only [Res.bind_ok, Res.pure_eq, Res.ok.injEq] at hr
      subst hr
      have := change (bit d') rfl (honest_bitfield (c hno).2 (d hg) h.size.1 h.size.2 ha).1 (by
        intro i _ r _ hs
        rw [h.mute q (Or.inr hg)] at hs
        simp at hs)
      exact ⟨this, by simp [phaseEv]⟩

theorem message_w {s s' : St} {f : Nat → Phase} {sd : Nat → Nat → Bool} {q : Nat} {m : Msg} {as : List Act} (hI : Inv s)
    (h : W s f sd) (hpol : politeEv f (.message q m)) (hs : message s q m = .ok (s', as)) :
    StepW s f sd (.message q m) s' as := by
  unfold message at hs
  cases hp : s.peers.get q with
  | none =>
    simp only [hp, Res.ok.injEq, Prod.mk.injEq] at hs
    obtain ⟨rfl, rfl⟩ := hs
    refine ⟨?_, asked_nil _ _⟩
    have hinfo := h.noInfo hp
    have h1 : ∀ p, p ≠ q → phaseEv f (.message q m) p = f p := by
      intro p hpq; cases m <;> simp [phaseEv, hpq]
    have h2 : ∀ p, p ≠ q → saidEv sd (.message q m) p = sd p := by
      intro p hpq; cases m <;> funext i <;> simp [saidEv, hpq]
    have h3 : ∀ p, s.infos.get p ≠ none → p ≠ q := by intro p hpi e; exact hpi (by rw [e]; exact hinfo)
    refine ⟨⟨h.want.len, ?_, ?_⟩, ?_, ?_, ?_, h.idle, h.size⟩
    · intro p i hi
      rw [h2 p (h3 p (by rw [hi]; simp))]
      exact h.want.peers p i hi
    · intro p i r hi hr
      rw [h2 p (h3 p (by rw [hi]; simp))]
      exact h.want.ent p i r hi hr
    · intro p peer hpp
      have hne : p ≠ q := by rintro rfl; rw [hp] at hpp; simp at hpp
      rw [h1 p hne, h2 p hne]
      exact h.ph p peer hpp
    · intro p hpi
      rw [h1 p (h3 p hpi)]
      exact h.known p hpi
    · intro p hpp i
      by_cases e : p = q
      · subst e
        cases m with
        | «have» k => simp [phaseEv] at hpp
        | bitfield d => simp [phaseEv] at hpp
        | choke => exact h.mute p hpp i
        | unchoke => exact h.mute p hpp i
        | piece b d => exact h.mute p hpp i
        | other => exact h.mute p hpp i
      · rw [h1 p e] at hpp
        rw [h2 p e]
        exact h.mute p hpp i
  | some peer0 =>
    simp only [hp] at hs
    cases hr : receive peer0 m with
    | ub => rw [hr] at hs; simp at hs
    | diverge => rw [hr] at hs; simp at hs
    | ok peer =>
      rw [hr] at hs
      simp only [Res.bind_ok] at hs
      obtain ⟨hW, hno⟩ := receive_w h hp hpol hr
      have hq1 : Quiet s { s with peers := s.peers.put q peer } := Quiet.of_eq rfl rfl rfl rfl
      have hI1 := hq1.inv hI
      by_cases hrun : s.running = true
      · simp only [hrun, if_true] at hs
        rw [show ({ s with peers := s.peers.put q peer, running := true } : St) = { s with peers := s.peers.put q peer } by
          rw [← hrun]] at hs
        have hp1 : ({ s with peers := s.peers.put q peer } : St).peers.get q = some peer := by simp [Map.get_put]
        have hr1 : ({ s with peers := s.peers.put q peer } : St).running = true := hrun
        generalize ({ s with peers := s.peers.put q peer } : St) = s1 at hs hI1 hW hp1 hr1
        generalize hf' : phaseEv f (.message q m) = f' at hW hno
        generalize hsd' : saidEv sd (.message q m) = sd' at hW
        unfold StepW
        rw [hf', hsd']
        unfold messageReceived at hs
        cases hcn : countAvailable s1.files.info.piecesCount peer.pieces m with
        | ub => rw [hcn] at hs; simp at hs
        | diverge => rw [hcn] at hs; simp at hs
        | ok u =>
          rw [hcn] at hs
          simp only [Res.bind_ok] at hs
          by_cases hfin : selectedFinished s1.files.progress = true
          · simp only [hfin, if_true] at hs
            split at hs
            · next hc =>
              simp only [Res.pure_eq, Res.ok.injEq, Prod.mk.injEq] at hs
              obtain ⟨rfl, rfl⟩ := hs
              refine ⟨hW.near ⟨rfl, rfl, ?_, fun _ h => h⟩ ⟨hW.want.len, ?_, hW.want.ent⟩, asked_inert (by simp [Inert])⟩
              · intro p peer' hpp
                simp only [Map.get_put] at hpp
                by_cases e : p = q
                · simp only [e, if_true, Option.some.injEq] at hpp
                  subst hpp
                  exact ⟨peer, by rw [e]; exact hp1, rfl, Or.inr ⟨rfl, Or.inr hc.1⟩⟩
                · rw [if_neg e] at hpp; exact ⟨peer', hpp, rfl, Or.inl rfl⟩
              · intro p i hi
                obtain ⟨pe, g1, g2⟩ := hW.want.peers p i hi
                simp only [Map.get_put]
                by_cases e : p = q
                · subst e
                  rw [hp1] at g1
                  simp only [Option.some.injEq] at g1
                  subst g1
                  exact ⟨{ peer with action := .closed }, by simp, g2⟩
                · exact ⟨pe, by simp [e, g1], g2⟩
            · simp only [Res.pure_eq, Res.ok.injEq, Prod.mk.injEq] at hs
              obtain ⟨rfl, rfl⟩ := hs
              exact ⟨hW, asked_nil _ _⟩
          · simp only [hfin, Bool.false_eq_true, if_false] at hs
            have evalCase : evaluate { s1 with infos := touch s1.infos q } q = .ok (s', as) → W s' f' sd' ∧ Asked s' sd' as := by
              intro he
              have hW2 := touch_w hW hp1 hno hr1
              obtain ⟨y1, y2, y3, -⟩ := evaluate_want ((touch_quiet s1 q).inv hI1) hW2.want he
              exact ⟨hW2.near y2 y1, y3⟩
            cases m with
            | piece b delta =>
              obtain ⟨y1, y2, y3⟩ := piece_want hI1 hW.want hs
              exact ⟨hW.near y2 y1, y3⟩
            | unchoke =>
              obtain ⟨y1, y2, y3⟩ := unchoke_want hI1 hW.want hs
              exact ⟨hW.near y2 y1, y3⟩
            | «have» idx =>
              simp only at hs
              cases hm : missing s1 idx with
              | ub => rw [hm] at hs; simp at hs
              | diverge => rw [hm] at hs; simp at hs
              | ok w =>
                rw [hm] at hs
                simp only [Res.bind_ok] at hs
                split at hs
                · exact evalCase hs
                · simp only [Res.pure_eq, Res.ok.injEq, Prod.mk.injEq] at hs
                  obtain ⟨rfl, rfl⟩ := hs
                  exact ⟨hW, asked_nil _ _⟩
            | bitfield d =>
              simp only at hs
              cases hm : hasWanted s1 peer.pieces s1.sorted with
              | ub => rw [hm] at hs; simp at hs
              | diverge => rw [hm] at hs; simp at hs
              | ok w =>
                rw [hm] at hs
                simp only [Res.bind_ok] at hs
                split at hs
                · exact evalCase hs
                · simp only [Res.pure_eq, Res.ok.injEq, Prod.mk.injEq] at hs
                  obtain ⟨rfl, rfl⟩ := hs
                  exact ⟨hW, asked_nil _ _⟩
            | choke =>
              simp only [Res.pure_eq, Res.ok.injEq, Prod.mk.injEq] at hs
              obtain ⟨rfl, rfl⟩ := hs
              exact ⟨hW, asked_nil _ _⟩
            | other =>
              simp only [Res.pure_eq, Res.ok.injEq, Prod.mk.injEq] at hs
              obtain ⟨rfl, rfl⟩ := hs
              exact ⟨hW, asked_nil _ _⟩
      · simp only [hrun, Bool.false_eq_true, if_false, Res.pure_eq, Res.ok.injEq, Prod.mk.injEq] at hs
        obtain ⟨rfl, rfl⟩ := hs
        have hrf : s.running = false := by simpa using hrun
        rw [show ({ s with peers := s.peers.put q peer, running := false } : St) = { s with peers := s.peers.put q peer } by
          rw [← hrf]]
        exact ⟨hW, asked_nil _ _⟩

theorem closed_w {s : St} {f : Nat → Phase} {sd : Nat → Nat → Bool} {q : Nat} (h : W s f sd) :
    StepW s f sd (.closed q) { connectionClosed s q with peers := s.peers.del q } [] := by
  have e1 : (connectionClosed s q).files = s.files := (closed_same s q).1
  have e2 : ∀ p, p ≠ q → (connectionClosed s q).infos.get p = s.infos.get p := by
    intro p hp
    unfold connectionClosed
    cases hi : s.infos.get q with
    | none => rfl
    | some i => simp [Map.get_del, hp]
  have e3 : (connectionClosed s q).infos.get q = none := by
    unfold connectionClosed
    cases hi : s.infos.get q with
    | none => exact hi
    | some i => simp [Map.get_del]
  have e4 : (connectionClosed s q).running = s.running := by
    unfold connectionClosed; split <;> rfl
  have e5 : ∀ p, (connectionClosed s q).infos.get p ≠ none → p ≠ q := by rintro p hp rfl; exact hp e3
  refine ⟨⟨⟨?_, ?_, ?_⟩, ?_, ?_, ?_, ?_, ?_⟩, asked_nil _ _⟩
  · dsimp only; rw [e1]; exact h.want.len
  · intro p i hi
    have hne := e5 p (by rw [hi]; simp)
    dsimp only at hi ⊢
    rw [e2 p hne] at hi
    simp only [Map.get_del, hne, if_false]
    rw [e1]
    exact h.want.peers p i hi
  · intro p i r hi hr
    have hne := e5 p (by rw [hi]; simp)
    dsimp only at hi
    rw [e2 p hne] at hi
    unfold missing
    dsimp only
    rw [e1]
    exact h.want.ent p i r hi hr
  · intro p peer hp
    simp only [Map.get_del] at hp
    by_cases e : p = q
    · simp [e] at hp
    · rw [if_neg e] at hp
      simp only [phaseEv, e, if_false, saidEv]
      rw [e1]
      exact h.ph p peer hp
  · intro p hp
    have hne := e5 p hp
    dsimp only at hp
    rw [e2 p hne] at hp
    simp only [phaseEv, hne, if_false]
    exact h.known p hp
  · intro p hp i
    simp only [phaseEv] at hp
    by_cases e : p = q
    · simp [e] at hp
    · simp only [e, if_false] at hp
      exact h.mute p hp i
  · intro hr p
    dsimp only at hr ⊢
    rw [e4] at hr
    by_cases e : p = q
    · rw [e]; exact e3
    · rw [e2 p e]; exact h.idle hr p
  · dsimp only; rw [e1]; exact h.size

theorem stop_w {s : St} {f : Nat → Phase} {sd : Nat → Nat → Bool} (h : W s f sd) (hI : Inv s) :
    StepW s f sd .stop (stop s) [] := by
  have hf : (stop s).files = s.files := by
    change ((s.peers.map (·.1)).foldl connectionClosed s).files = _
    exact (closedAll_inv (s.peers.map (·.1)) hI).2
  refine ⟨⟨⟨by rw [hf]; exact h.want.len, ?_, ?_⟩, ?_, ?_, ?_, ?_, by rw [hf]; exact h.size⟩, asked_nil _ _⟩
  · intro p i hi; simp [stop, Map.get] at hi
  · intro p i r hi; simp [stop, Map.get] at hi
  · intro p peer hp; simp [stop, Map.get] at hp
  · intro p hp; simp [stop, Map.get] at hp
  · intro p hp; simp [phaseEv] at hp
  · intro _ p; simp [stop, Map.get]

/-- Only the entries' other fields, and connections of known or established peers, change. -/
theorem near_want {s s' : St} {sd : Nat → Nat → Bool} (h : Want s sd) (hn : Near s s')
    (hl : s'.files.progress.pieces.length = s.files.progress.pieces.length)
    (hm : ∀ j, missing s j = .ok true → missing s' j = .ok true)
    (hp : ∀ p peer, s.peers.get p = some peer → ∃ peer', s'.peers.get p = some peer' ∧ peer'.pieces = peer.pieces)
    (hb : ∀ p i', s'.infos.get p = some i' → ∃ i, s.infos.get p = some i ∧ i'.current = i.current) : Want s' sd := by
  refine h.of hl hn.info (fun _ _ _ _ _ h => hm _ h) ?_ ?_
  · intro p i hi
    obtain ⟨i0, e1, -⟩ := hb p i hi
    obtain ⟨peer, e2, e3⟩ := h.peers p i0 e1
    obtain ⟨peer', e4, e5⟩ := hp p peer e2
    exact ⟨peer', e4, by rw [e5]; exact e3⟩
  · intro p i hi r hr
    obtain ⟨i0, e1, e2⟩ := hb p i hi
    exact ⟨i0, e1, ⟨r, by rw [← e2]; exact hr, rfl⟩, fun h => h⟩

/-- What `refreshSources` and `finish` do to the connections. -/
structure Fade (s s' : St) : Prop where
  files : s'.files = s.files
  near : Near s s'
  fwd : ∀ p peer, s.peers.get p = some peer → ∃ peer', s'.peers.get p = some peer' ∧ peer'.pieces = peer.pieces
  ent : ∀ p i', s'.infos.get p = some i' → ∃ i, s.infos.get p = some i ∧ i'.current = i.current

theorem Fade.refl (s : St) : Fade s s :=
  ⟨rfl, Near.refl s, fun _ peer h => ⟨peer, h, rfl⟩, fun _ i h => ⟨i, h, rfl⟩⟩

theorem Fade.trans {a b c : St} (h : Fade a b) (h' : Fade b c) : Fade a c where
  files := h'.files.trans h.files
  near := h.near.trans h'.near
  fwd := by
    intro p peer hp
    obtain ⟨q, q1, q2⟩ := h.fwd p peer hp
    obtain ⟨r, r1, r2⟩ := h'.fwd p q q1
    exact ⟨r, r1, r2.trans q2⟩
  ent := by
    intro p i hi
    obtain ⟨j, j1, j2⟩ := h'.ent p i hi
    obtain ⟨k, k1, k2⟩ := h.ent p j j1
    exact ⟨k, k1, j2.trans k2⟩

theorem Fade.want {s s' : St} {sd : Nat → Nat → Bool} (h : Fade s s') (hw : Want s sd) : Want s' sd :=
  near_want hw h.near (by rw [h.files]) (fun j hj => by unfold missing; rw [h.files]; exact hj) h.fwd h.ent

theorem Fade.put {s : St} {p : Nat} {info info' : PeerReq} (hi : s.infos.get p = some info)
    (hc : info'.current = info.current) : Fade s { s with infos := s.infos.put p info' } := by
  have hx : ∀ x i, (s.infos.put p info').get x = some i → ∃ j, s.infos.get x = some j ∧ i.current = j.current := by
    intro x i hx
    simp only [Map.get_put] at hx
    by_cases e : x = p
    · simp only [e, if_true, Option.some.injEq] at hx
      subst hx
      exact ⟨info, by rw [e]; exact hi, hc⟩
    · rw [if_neg e] at hx; exact ⟨i, hx, rfl⟩
  refine ⟨rfl, ⟨rfl, rfl, fun _ peer h => ⟨peer, h, rfl, Or.inl rfl⟩, ?_⟩, fun _ peer h => ⟨peer, h, rfl⟩, hx⟩
  intro x hne
  cases hg : (s.infos.put p info').get x with
  | none => exact absurd hg hne
  | some i =>
    obtain ⟨j, e, -⟩ := hx x i hg
    rw [e]; simp

theorem Fade.mapAll {s : St} {g : Nat → PeerReq → PeerReq} (hc : ∀ p i, (g p i).current = i.current) :
    Fade s { s with infos := s.infos.mapAll g } := by
  refine ⟨rfl, ⟨rfl, rfl, fun _ peer h => ⟨peer, h, rfl, Or.inl rfl⟩, ?_⟩, fun _ peer h => ⟨peer, h, rfl⟩, ?_⟩
  · intro x hx
    simp only [Map.get_mapAll, ne_eq, Option.map_eq_none_iff] at hx
    exact hx
  · intro x i hx
    simp only [Map.get_mapAll, Option.map_eq_some_iff] at hx
    obtain ⟨j, e, rfl⟩ := hx
    exact ⟨j, e, hc x j⟩

theorem Fade.close {s : St} {p : Nat}
    (hk : ∀ peer, s.peers.get p = some peer → s.infos.get p ≠ none ∨ peer.action = .established ∨ peer.action = .closed) :
    Fade s { s with peers := closePeer s.peers p } := by
  unfold closePeer
  cases hp : s.peers.get p with
  | none => exact Fade.refl s
  | some peer =>
    refine ⟨rfl, ⟨rfl, rfl, ?_, fun _ h => h⟩, ?_, fun _ i h => ⟨i, h, rfl⟩⟩
    · intro x q hq
      simp only [Map.get_put] at hq
      by_cases e : x = p
      · simp only [e, if_true, Option.some.injEq] at hq
        subst hq
        refine ⟨peer, by rw [e]; exact hp, rfl, ?_⟩
        rcases hk peer hp with h | h | h
        · exact Or.inr ⟨rfl, Or.inl (by rw [e]; exact h)⟩
        · exact Or.inr ⟨rfl, Or.inr h⟩
        · exact Or.inl h.symm
      · rw [if_neg e] at hq; exact ⟨q, hq, rfl, Or.inl rfl⟩
    · intro x q hq
      simp only [Map.get_put]
      by_cases e : x = p
      · rw [e, hp] at hq
        simp only [Option.some.injEq] at hq
        subst hq
        exact ⟨{ peer with action := .closed }, by simp only [e, if_true], rfl⟩
      · exact ⟨q, by simp [e, hq], rfl⟩

theorem refreshSource_fade (c : Check) (n : Nat) (s : St) (p : Nat) : Fade s (refreshSource c n s p).1 := by
  unfold refreshSource
  cases hi : s.infos.get p with
  | none => exact Fade.refl s
  | some info =>
    cases c with
    | success => exact Fade.put hi rfl
    | error => exact Fade.refl s
    | mismatch =>
      simp only
      have h1 : Fade s { s with infos := s.infos.put p { info with suspicion := u32 (info.suspicion + 1) } } :=
        Fade.put hi rfl
      have hi1 : ({ s with infos := s.infos.put p { info with suspicion := u32 (info.suspicion + 1) } } : St).infos.get p =
          some { info with suspicion := u32 (info.suspicion + 1) } := by simp [Map.get_put]
      split
      · split
        · have h2 : Fade { s with infos := s.infos.put p { info with suspicion := u32 (info.suspicion + 1) } }
              { s with infos := (s.infos.put p { info with suspicion := u32 (info.suspicion + 1) }).mapAll fun _ i =>
                if i.group = info.group then { i with group := 0 } else i } := by
            apply Fade.mapAll
            intro _ i; split <;> rfl
          refine (h1.trans h2).trans (Fade.close ?_)
          intro peer _
          left
          dsimp only at hi1 ⊢
          rw [Map.get_mapAll, hi1]; simp
        · refine h1.trans (Fade.close ?_)
          intro peer _
          left
          rw [hi1]; simp
      · exact h1.trans (Fade.put hi1 rfl)

theorem refreshSources_fade (c : Check) (n : Nat) (l : List Nat) : ∀ (s : St), Fade s (refreshSources c n l s).1 := by
  induction l with
  | nil => intro s; exact Fade.refl s
  | cons p l ih =>
    intro s
    exact (refreshSource_fade c n s p).trans (ih _)

theorem check_w {sha : List UInt8 → List UInt8} {hashes : List (List UInt8)} {s s' : St} {f : Nat → Phase}
    {sd : Nat → Nat → Bool} {k : Nat} {data : Option (List UInt8)} {as : List Act} (h : W s f sd)
    (hs : check sha hashes s k data = .ok (s', as)) : StepW s f sd (.check k data) s' as := by
  unfold check at hs
  cases hk : s.checks[k]? with
  | none =>
    simp only [hk, Res.ok.injEq, Prod.mk.injEq] at hs
    obtain ⟨rfl, rfl⟩ := hs
    exact ⟨h, asked_nil _ _⟩
  | some x =>
    obtain ⟨idx, q⟩ := x
    simp only [hk] at hs
    cases hr : rd hashes idx with
    | ub => rw [hr] at hs; simp at hs
    | diverge => rw [hr] at hs; simp at hs
    | ok hash =>
      rw [hr] at hs
      simp only [Res.bind_ok] at hs
      have hinert := (pieceChecked_quiet hs).2
      refine ⟨?_, asked_inert hinert⟩
      change W s' f sd
      generalize checkResult sha hash data = c at hs
      unfold pieceChecked at hs
      simp only at hs
      -- after the progress is changed
      have key : ∀ (prog : PP) (ch cn : Nat) (fr : List Nat) (fi gi : Nat) (s2 : St),
          prog.pieces.length = s.files.progress.pieces.length →
          (∀ j : Nat, s.files.progress.pieces[j]? = some 0 → prog.pieces[j]? = some 0) →
          s2 = (refreshSources c q.sources.length q.sources { s with
            checks := s.checks.eraseIdx k
            checking := ch
            fresh := fr
            files := { s.files with progress := prog }
            groupIdx := gi }).1 → W { s2 with finishes := fi } f sd := by
        intro prog ch cn fr fi gi s2 hl hm e
        have hn : Near s { s with
            checks := s.checks.eraseIdx k
            checking := ch
            fresh := fr
            files := { s.files with progress := prog }
            groupIdx := gi } := ⟨rfl, rfl, fun _ peer h => ⟨peer, h, rfl, Or.inl rfl⟩, fun _ h => h⟩
        have hw : Want { s with
            checks := s.checks.eraseIdx k
            checking := ch
            fresh := fr
            files := { s.files with progress := prog }
            groupIdx := gi } sd :=
          near_want h.want hn hl (fun j hj => by rw [missing_true] at hj ⊢; exact hm j hj) (fun _ peer h => ⟨peer, h, rfl⟩)
            (fun _ i h => ⟨i, h, rfl⟩)
        have hf := refreshSources_fade c q.sources.length q.sources { s with
            checks := s.checks.eraseIdx k
            checking := ch
            fresh := fr
            files := { s.files with progress := prog }
            groupIdx := gi }
        rw [← e] at hf
        have hw2 := (h.near hn hw).near hf.near (hf.want hw)
        have hn3 : Near s2 { s2 with finishes := fi } :=
          ⟨rfl, rfl, fun _ peer h => ⟨peer, h, rfl, Or.inl rfl⟩, fun _ h => h⟩
        exact hw2.near hn3 (near_want hw2.want hn3 rfl (fun _ h => h) (fun _ peer h => ⟨peer, h, rfl⟩)
          (fun _ i h => ⟨i, h, rfl⟩))
      by_cases hc : c = .success
      · simp only [hc, if_true, Res.pure_eq, Res.bind_ok, Res.ok.injEq, Prod.mk.injEq] at hs
        rw [← hs.1]
        exact key s.files.progress _ 0 _ _ _ _ rfl (fun _ h => h) (by rw [hc])
      · simp only [hc, if_false] at hs
        cases hrm : removePiece s.files.progress idx with
        | ub => rw [hrm] at hs; simp at hs
        | diverge => rw [hrm] at hs; simp at hs
        | ok prog =>
          rw [hrm] at hs
          simp only [Res.bind_ok, Res.pure_eq, Res.ok.injEq, Prod.mk.injEq] at hs
          obtain ⟨r1, r2⟩ := removePiece_keep hrm
          rw [← hs.1]
          exact key prog _ 0 _ _ _ _ r1 r2 rfl

theorem finish_w {s s' : St} {f : Nat → Phase} {sd : Nat → Nat → Bool} {as : List Act} (h : W s f sd)
    (hs : finish s = .ok (s', as)) : StepW s f sd .finish s' as := by
  unfold finish at hs
  split at hs
  · simp only [Res.ok.injEq, Prod.mk.injEq] at hs
    obtain ⟨rfl, rfl⟩ := hs
    exact ⟨h, asked_nil _ _⟩
  · simp only [Res.ok.injEq, Prod.mk.injEq] at hs
    obtain ⟨rfl, rfl⟩ := hs
    have hfold : ∀ (ps : List Nat) (t : St), (∀ p ∈ ps, t.infos.get p ≠ none) →
        Fade t { t with peers := ps.foldl closePeer t.peers } := by
      intro ps
      induction ps with
      | nil => intro t _; exact Fade.refl t
      | cons p ps ih =>
        intro t ht
        have h1 : Fade t { t with peers := closePeer t.peers p } := Fade.close fun _ _ => Or.inl (ht p (by simp))
        exact h1.trans (ih { t with peers := closePeer t.peers p } fun x hx => ht x (List.mem_cons_of_mem _ hx))
    have hn0 : Fade s { s with finishes := s.finishes - 1 } :=
      ⟨rfl, ⟨rfl, rfl, fun _ peer h => ⟨peer, h, rfl, Or.inl rfl⟩, fun _ h => h⟩, fun _ peer h => ⟨peer, h, rfl⟩,
        fun _ i h => ⟨i, h, rfl⟩⟩
    have hF := hn0.trans (hfold ((s.infos.map (·.1)).filter fun p => match s.peers.get p with
      | some peer => peer.action = .established ∧ finished peer.pieces
      | none => false) { s with finishes := s.finishes - 1 } (by
        intro p hp
        obtain ⟨x, hx, rfl⟩ := List.mem_map.1 (List.mem_of_mem_filter hp)
        obtain ⟨b, hb⟩ := Map.mem_get (m := s.infos) (x := x.1) (a := x.2) hx
        dsimp only
        rw [hb]; simp))
    refine ⟨h.near hF.near (hF.want h.want), asked_inert ?_⟩
    intro a ha
    rcases List.mem_append.1 ha with ha | ha
    · obtain ⟨x, -, rfl⟩ := List.mem_map.1 ha; trivial
    · simp only [List.mem_singleton] at ha; rw [ha]; trivial

theorem refresh_w {s t s' : St} {f : Nat → Phase} {sd : Nat → Nat → Bool} {order : List (Nat × Nat)} {as : List Act}
    (hI : Inv t) (h : W s f sd) (hi : t.files.info = s.files.info)
    (hl : t.files.progress.pieces.length = s.files.progress.pieces.length)
    (hn : t.infos = s.infos) (hp : t.peers = s.peers) (hr : t.running = true)
    (hs : refreshSelection t order = .ok (s', as)) : W s' f sd ∧ Asked s' sd as := by
  obtain ⟨w1, w2, w3⟩ := refresh_want (sd := sd) hI (by rw [hl, hi]; exact h.want.len)
    (by rw [hn, hp, hi]; exact h.want.peers) (by rw [hn]; exact fun p i r a b => (h.want.ent p i r a b).2) hs
  refine ⟨⟨w1, ?_, ?_, h.mute, ?_, ?_⟩, w3⟩
  · intro p peer hpp
    obtain ⟨q, q1, q2, q3⟩ := w2.bwd p peer hpp
    rw [hp] at q1
    obtain ⟨a, b, c, d⟩ := h.ph p q q1
    rw [w2.info, hi, q2]
    refine ⟨a, ?_, ?_, d⟩
    · intro e
      refine ⟨?_, (b e).2⟩
      rcases q3 with q3 | ⟨-, q3 | q3⟩
      · rw [q3]; exact (b e).1
      · rw [hn] at q3; exact absurd e (h.known p q3)
      · rw [(b e).1] at q3; simp at q3
    · intro e
      refine ⟨?_, (c e).2⟩
      rcases q3 with q3 | ⟨q3, -⟩
      · rw [q3]; exact (c e).1
      · rw [q3]; simp
  · intro p hpi
    have := w2.infos p hpi
    rw [hn] at this
    exact h.known p this
  · intro e
    rw [w2.running, hr] at e; simp at e
  · rw [w2.info, hi]; exact h.size

theorem step_inert_tick {sha : List UInt8 → List UInt8} {hashes : List (List UInt8)} {s s' : St} {as : List Act}
    (h : step sha hashes s .tick = .ok (s', as)) : ∀ a ∈ as, Inert a := by
  simp only [step] at h
  split at h
  · simp only [Res.ok.injEq, Prod.mk.injEq] at h
    obtain ⟨rfl, rfl⟩ := h
    intro a ha
    unfold announce at ha
    obtain ⟨x, -, hx⟩ := List.mem_flatMap.1 ha
    obtain ⟨y, -, rfl⟩ := List.mem_map.1 hx
    trivial
  · simp only [Res.ok.injEq, Prod.mk.injEq] at h
    obtain ⟨rfl, rfl⟩ := h
    simp

theorem step_w {sha : List UInt8 → List UInt8} {hashes : List (List UInt8)} {s s' : St} {f : Nat → Phase}
    {sd : Nat → Nat → Bool} {e : Ev} {as : List Act} (hI : Inv s) (h : W s f sd) (hpol : politeEv f e)
    (hs : step sha hashes s e = .ok (s', as)) : StepW s f sd e s' as := by
  -- states that differ in what does not matter
  have plain : ∀ s2 : St, s2.files = s.files → s2.infos = s.infos → s2.peers = s.peers → s2.running = s.running →
      W s2 f sd := by
    intro s2 e1 e2 e3 e4
    have hn : Near s s2 := ⟨by rw [e1], e4, fun p peer hp => ⟨peer, by rw [← e3]; exact hp, rfl, Or.inl rfl⟩,
      fun p hp => by rw [← e2]; exact hp⟩
    exact h.near hn (near_want h.want hn (by rw [e1]) (fun j hj => by unfold missing; rw [e1]; exact hj)
      (fun p peer hp => ⟨peer, by rw [e3]; exact hp, rfl⟩) (fun p i hi => ⟨i, by rw [← e2]; exact hi, rfl⟩))
  cases e with
  | connect p =>
    simp only [step, Res.ok.injEq, Prod.mk.injEq] at hs
    obtain ⟨rfl, rfl⟩ := hs
    exact connect_w h hpol
  | handshake p => exact handshake_w h hs
  | message p m => exact message_w hI h hpol hs
  | closed p =>
    simp only [step, Res.ok.injEq, Prod.mk.injEq] at hs
    obtain ⟨rfl, rfl⟩ := hs
    exact closed_w h
  | check k data => exact check_w h hs
  | finish => exact finish_w h hs
  | select idx v => exact absurd hpol (by simp [politeEv])
  | setPriority idx pr =>
    simp only [step, Res.ok.injEq, Prod.mk.injEq] at hs
    obtain ⟨rfl, rfl⟩ := hs
    exact ⟨plain _ rfl rfl rfl rfl, asked_nil _ _⟩
  | refresh order =>
    simp only [step] at hs
    split at hs
    · next hc => exact refresh_w hI h rfl rfl rfl rfl hc.1 hs
    · simp only [Res.ok.injEq, Prod.mk.injEq] at hs
      obtain ⟨rfl, rfl⟩ := hs
      exact ⟨h, asked_nil _ _⟩
  | selectFile idx v order =>
    simp only [step] at hs
    cases ht : select s idx v with
    | ub => rw [ht] at hs; simp at hs
    | diverge => rw [ht] at hs; simp at hs
    | ok t =>
      rw [ht] at hs
      simp only [Res.bind_ok] at hs
      have hl := select_len ht
      obtain ⟨fl, -, e, hf⟩ := select_spec ht
      have hq : Quiet s t := by rw [e]; exact Quiet.of_eq rfl rfl hf rfl
      split at hs
      · next hrun =>
        split at hs
        · exact refresh_w (hq.inv hI) h hq.info hl (by rw [e]) (by rw [e]) hrun hs
        · simp only [Res.pure_eq, Res.ok.injEq, Prod.mk.injEq] at hs
          obtain ⟨rfl, rfl⟩ := hs
          exact ⟨h, asked_nil _ _⟩
      · next hrun =>
        simp only [Res.pure_eq, Res.ok.injEq, Prod.mk.injEq] at hs
        obtain ⟨rfl, rfl⟩ := hs
        refine ⟨?_, asked_nil _ _⟩
        have hrun' : s.running = false := by
          rw [e] at hrun; simpa using hrun
        have hno := h.idle hrun'
        have hti : t.infos = s.infos := by rw [e]
        have htp : t.peers = s.peers := by rw [e]
        refine ⟨⟨by rw [hl, hq.info]; exact h.want.len, ?_, ?_⟩, ?_, ?_, h.mute, ?_, by rw [hq.info]; exact h.size⟩
        · intro p i hi; rw [hti, hno p] at hi; simp at hi
        · intro p i r hi; rw [hti, hno p] at hi; simp at hi
        · rw [htp, hq.info]; exact h.ph
        · intro p hp; rw [hti] at hp; exact absurd (hno p) hp
        · intro _; rw [hti]; exact hno
  | sort order =>
    simp only [step, Res.ok.injEq, Prod.mk.injEq] at hs
    obtain ⟨rfl, rfl⟩ := hs
    refine ⟨?_, asked_nil _ _⟩
    split
    · exact plain _ rfl rfl rfl rfl
    · exact h
  | tick =>
    have hinert := fun a b => (step_inert_tick (sha := sha) (hashes := hashes) hs a b)
    simp only [step] at hs
    split at hs
    · simp only [Res.ok.injEq, Prod.mk.injEq] at hs
      obtain ⟨rfl, rfl⟩ := hs
      exact ⟨plain _ rfl rfl rfl rfl, asked_inert hinert⟩
    · simp only [Res.ok.injEq, Prod.mk.injEq] at hs
      obtain ⟨rfl, rfl⟩ := hs
      exact ⟨h, asked_nil _ _⟩
  | start order =>
    simp only [step] at hs
    split at hs
    · simp only [Res.ok.injEq, Prod.mk.injEq] at hs
      obtain ⟨rfl, rfl⟩ := hs
      exact ⟨h, asked_nil _ _⟩
    · have hq : Quiet s { s with running := true } := Quiet.of_eq rfl rfl rfl rfl
      exact refresh_w (hq.inv hI) h rfl rfl rfl rfl rfl hs
  | stop =>
    simp only [step, Res.ok.injEq, Prod.mk.injEq] at hs
    obtain ⟨rfl, rfl⟩ := hs
    exact stop_w h hI

theorem w_fresh {s : St} (h : Fresh s) (hl : s.files.progress.pieces.length = s.files.info.piecesCount)
    (hs : 0 < s.files.info.piecesCount ∧ s.files.info.piecesCount ≤ 16777216) :
    W s (fun _ => .none) fun _ _ => false := by
  obtain ⟨-, h2, h3, -⟩ := h
  refine ⟨⟨hl, ?_, ?_⟩, ?_, ?_, ?_, ?_, hs⟩
  · intro p i hi; rw [h2] at hi; simp [Map.get] at hi
  · intro p i r hi; rw [h2] at hi; simp [Map.get] at hi
  · intro p peer hp; rw [h3] at hp; simp [Map.get] at hp
  · intro p hp; rw [h2] at hp; simp [Map.get] at hp
  · intro p hp; simp at hp
  · intro _ p; rw [h2]; simp [Map.get]

theorem run_w {sha : List UInt8 → List UInt8} {hashes : List (List UInt8)} (es : List Ev) :
    ∀ {s s' : St} {h : History} (f : Nat → Phase) (sd : Nat → Nat → Bool), Inv s → W s f sd → politeFrom f es →
      run sha hashes s es = .ok (s', h) → Inv s' ∧ W s' (es.foldl phaseEv f) (es.foldl saidEv sd) := by
  induction es with
  | nil =>
    intro s s' h f sd hI hw _ hr
    simp only [run, Res.ok.injEq, Prod.mk.injEq] at hr
    obtain ⟨rfl, rfl⟩ := hr
    exact ⟨hI, hw⟩
  | cons e es ih =>
    intro s s' h f sd hI hw hpol hr
    unfold run at hr
    cases ht : step sha hashes s e with
    | ub => rw [ht] at hr; simp at hr
    | diverge => rw [ht] at hr; simp at hr
    | ok t =>
      rw [ht] at hr
      simp only [Res.bind_ok] at hr
      cases hu : run sha hashes t.1 es with
      | ub => rw [hu] at hr; simp at hr
      | diverge => rw [hu] at hr; simp at hr
      | ok u =>
        rw [hu] at hr
        simp only [Res.bind_ok, Res.pure_eq, Res.ok.injEq, Prod.mk.injEq] at hr
        obtain ⟨rfl, rfl⟩ := hr
        have h1 := step_ok hI (s' := t.1) (as := t.2) ht
        have h2 := step_w hI hw hpol.1 (s' := t.1) (as := t.2) ht
        exact ih _ _ h1.inv h2.1 hpol.2 hu

theorem politeFrom_append (f : Nat → Phase) (es fs : List Ev) :
    politeFrom f (es ++ fs) ↔ politeFrom f es ∧ politeFrom (es.foldl phaseEv f) fs := by
  induction es generalizing f with
  | nil => simp [politeFrom]
  | cons e es ih => simp [politeFrom, ih, and_assoc]

end Verif.Downloader
