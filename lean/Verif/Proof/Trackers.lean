import Verif.Spec.Trackers
/-! Lemmas for C41 and C65. -/

namespace Verif.Trackers
open Verif

theorem takeWhile_stop {α} (p : α → Bool) (a : List α) (x : α) (b : List α) (ha : ∀ y ∈ a, p y = true) (hx : p x = false) :
    (a ++ x :: b).takeWhile p = a := by
  induction a with
  | nil => simp [hx]
  | cons y a ih =>
    simp only [List.cons_append, List.takeWhile_cons, ha y (by simp), if_true]
    rw [ih (fun z hz => ha z (by simp [hz]))]

theorem takeWhile_end {α} (p : α → Bool) (a : List α) (ha : ∀ y ∈ a, p y = true) : a.takeWhile p = a := by
  induction a with
  | nil => rfl
  | cons y a ih => rw [List.takeWhile_cons, ha y (by simp), if_pos rfl, ih (fun z hz => ha z (by simp [hz]))]

/-- The part behind the protocol. -/
theorem parse_rest {s protocol rest : List UInt8} (h : Uri.splitProtocol s = (protocol, rest)) (host : List UInt8) (port : Option (List UInt8)) (path : List UInt8)
    (hr : rest = host ++ Spec.portText port ++ path)
    (hh : ∀ b ∈ host, b ≠ chr ':' ∧ b ≠ chr '/') (hp : ∀ p, port = some p → ∀ b ∈ p, b ≠ chr '/')
    (hpath : path = [] ∨ path.head? = some (chr '/')) :
    Uri.parse s = ⟨protocol, host, port.getD [], path⟩ := by
  have hauth : rest.takeWhile (· != chr '/') = host ++ Spec.portText port := by
    rw [hr]
    have hall : ∀ y ∈ host ++ Spec.portText port, (y != chr '/') = true := by
      intro y hy
      rcases List.mem_append.mp hy with hy | hy
      · simpa using (hh y hy).2
      · cases port with
        | none => cases hy
        | some p =>
          rcases List.mem_cons.mp hy with rfl | hy
          · decide
          · simpa using hp p rfl y hy
    rcases hpath with rfl | hpath
    · rw [List.append_nil]; exact takeWhile_end _ _ hall
    · cases path with
      | nil => cases hpath
      | cons x path =>
        cases hpath
        exact takeWhile_stop _ _ _ _ hall (by decide)
  have hhost : (host ++ Spec.portText port).takeWhile (· != chr ':') = host := by
    have hall : ∀ y ∈ host, (y != chr ':') = true := fun y hy => by simpa using (hh y hy).1
    cases port with
    | none => show (host ++ []).takeWhile _ = host; rw [List.append_nil]; exact takeWhile_end _ _ hall
    | some p => exact takeWhile_stop _ _ _ _ hall (by decide)
  unfold Uri.parse
  rw [h]
  simp only [hauth, hhost]
  congr 1
  · cases port <;> simp [Spec.portText]
  · rw [hr]; simp

theorem split_protocol {protocol rest : List UInt8} (hp : ∀ b ∈ protocol, b ≠ chr ':') (h0 : ∃ b bs, rest = b :: bs ∧ b ≠ 0) :
    Uri.splitProtocol (protocol ++ ascii "://" ++ rest) = (protocol, rest) := by
  obtain ⟨b, bs, rfl, hb⟩ := h0
  have h1 : (protocol ++ ascii "://" ++ b :: bs).takeWhile (· != chr ':') = protocol := by
    rw [List.append_assoc]
    exact takeWhile_stop _ _ (chr ':') _ (fun y hy => by simpa using hp y hy) (by decide)
  have h2 : ∀ l, (ascii "://" ++ b :: l).takeWhile (· != 0) = ascii "://" ++ b :: l.takeWhile (· != 0) := by
    intro l
    show (58 :: 47 :: 47 :: b :: l : List UInt8).takeWhile _ = _
    simp [hb]; rfl
  unfold Uri.splitProtocol
  simp only [h1]
  rw [List.append_assoc, List.drop_left, h2]
  rw [if_pos]
  · rfl
  · refine ⟨?_, rfl⟩
    show 3 < (58 :: 47 :: 47 :: b :: _ : List UInt8).length
    simp

/-! ### Adding -/

theorem findHost_some {ts : List Info} {h : List UInt8} {k : Nat} (e : findHost ts h = some k) : ∃ t, ts[k]? = some t ∧ t.uri.host = h := by
  unfold findHost at e
  obtain ⟨hk, h1, _⟩ := List.findIdx?_eq_some_iff_getElem.mp e
  exact ⟨ts[k], by simp [hk], by simpa using h1⟩

theorem findHost_none {ts : List Info} {h : List UInt8} (e : findHost ts h = none) : ∀ t ∈ ts, t.uri.host ≠ h := by
  unfold findHost at e
  rw [List.findIdx?_eq_none_iff] at e
  intro t ht
  simpa using e t ht

/-- The four ways `addTracker` ends. -/
inductive Added (ts : List Info) (addr : List UInt8) : List Info × Status → Prop where
  | fresh (h1 : (Uri.parse addr).port ≠ [] ∨ (Uri.parse addr).protocol = ascii "https")
      (h2 : (Uri.parse addr).port ≠ [] → findHost ts (Uri.parse addr).host = none ∨ ∃ k i, findHost ts (Uri.parse addr).host = some k ∧ ts[k]? = some i ∧ i.uri.port ≠ (Uri.parse addr).port) :
      Added ts addr (ts ++ [{ uri := Uri.parse addr, fullAddress := addr }], .success)
  | merged (k : Nat) (i : Info) (h1 : (Uri.parse addr).port ≠ []) (h2 : ts[k]? = some i) (h3 : i.uri.host = (Uri.parse addr).host)
      (h4 : i.uri.port = (Uri.parse addr).port) (h5 : mergeable i { uri := Uri.parse addr, fullAddress := addr } = true) :
      Added ts addr (ts.set k (Trackers.merged i), .success)
  | exists (k : Nat) (i : Info) (h1 : (Uri.parse addr).port ≠ []) (h2 : ts[k]? = some i) (h3 : i.uri.host = (Uri.parse addr).host)
      (h4 : i.uri.port = (Uri.parse addr).port) (h5 : mergeable i { uri := Uri.parse addr, fullAddress := addr } = false) :
      Added ts addr (ts, .alreadyExists)
  | invalid (h1 : (Uri.parse addr).port = []) (h2 : (Uri.parse addr).protocol ≠ ascii "https") : Added ts addr (ts, .invalidInput)

theorem added (ts : List Info) (addr : List UInt8) : Added ts addr (addTracker ts addr) := by
  unfold addTracker
  simp only
  split
  · next h =>
    split
    · next e => exact .fresh (.inl h) (fun _ => .inl e)
    · next k e =>
      obtain ⟨t, e1, e2⟩ := findHost_some e
      rw [e1]
      simp only
      split
      · next hp =>
        split
        · next hm => exact .merged k t h e1 e2 hp hm
        · next hm => exact .exists k t h e1 e2 hp (by simpa using hm)
      · next hp => exact .fresh (.inl h) (fun _ => .inr ⟨k, t, e, e1, hp⟩)
  · next h =>
    have h : (Uri.parse addr).port = [] := by simpa using h
    split
    · next hs => exact .fresh (.inr hs) (fun h' => absurd h h')
    · next hs => exact .invalid h hs

/-- Nothing known about a place is forgotten. -/
theorem addTracker_keeps {ts : List Info} {addr : List UInt8} {t : Info} (h : t ∈ ts) :
    ∃ t' ∈ (addTracker ts addr).1, t'.uri.host = t.uri.host ∧ t'.uri.port = t.uri.port ∧ t'.fullAddress = t.fullAddress := by
  have H := added ts addr
  generalize addTracker ts addr = r at H ⊢
  cases H with
  | fresh => exact ⟨t, List.mem_append_left _ h, rfl, rfl, rfl⟩
  | merged k i h1 h2 h3 h4 h5 =>
    obtain ⟨j, hj, e⟩ := List.mem_iff_getElem.mp h
    obtain ⟨hk, e2⟩ := List.getElem?_eq_some_iff.mp h2
    by_cases hjk : k = j
    · subst hjk
      refine ⟨Trackers.merged i, ?_, ?_⟩
      · exact List.mem_iff_getElem.mpr ⟨k, by simpa using hk, by simp⟩
      · rw [e2] at e; subst e; exact ⟨rfl, rfl, rfl⟩
    · exact ⟨t, List.mem_iff_getElem.mpr ⟨j, by simpa using hj, by rw [List.getElem_set_ne hjk]; exact e⟩, rfl, rfl, rfl⟩
  | «exists» => exact ⟨t, h, rfl, rfl, rfl⟩
  | invalid => exact ⟨t, h, rfl, rfl, rfl⟩

theorem addTrackers_keeps {addrs : List (List UInt8)} : ∀ {ts : List Info} {t : Info}, t ∈ ts →
    ∃ t' ∈ addTrackers ts addrs, t'.uri.host = t.uri.host ∧ t'.uri.port = t.uri.port ∧ t'.fullAddress = t.fullAddress := by
  induction addrs with
  | nil => intro ts t h; exact ⟨t, h, rfl, rfl, rfl⟩
  | cons a addrs ih =>
    intro ts t h
    obtain ⟨t1, h1, e1, e2, e3⟩ := addTracker_keeps (addr := a) h
    obtain ⟨t2, h2, f1, f2, f3⟩ := ih h1
    exact ⟨t2, h2, f1.trans e1, f2.trans e2, f3.trans e3⟩

theorem addTracker_present {ts : List Info} {addr : List UInt8} (h : (Uri.parse addr).port ≠ [] ∨ (Uri.parse addr).protocol = ascii "https") :
    ∃ t ∈ (addTracker ts addr).1, t.uri.host = (Uri.parse addr).host ∧ t.uri.port = (Uri.parse addr).port := by
  have H := added ts addr
  generalize addTracker ts addr = r at H ⊢
  cases H with
  | fresh => exact ⟨_, List.mem_append_right _ (List.mem_singleton.mpr rfl), rfl, rfl⟩
  | merged k i h1 h2 h3 h4 h5 =>
    obtain ⟨hk, e2⟩ := List.getElem?_eq_some_iff.mp h2
    exact ⟨Trackers.merged i, List.mem_iff_getElem.mpr ⟨k, by simpa using hk, by simp⟩, h3, h4⟩
  | «exists» k i h1 h2 h3 h4 => exact ⟨i, List.mem_of_getElem? h2, h3, h4⟩
  | invalid h1 h2 => rcases h with h | h; exact absurd h1 h; exact absurd h h2

theorem addTrackers_present {addrs : List (List UInt8)} {a : List UInt8} (h : (Uri.parse a).port ≠ [] ∨ (Uri.parse a).protocol = ascii "https") :
    ∀ {ts : List Info}, a ∈ addrs → ∃ t ∈ addTrackers ts addrs, t.uri.host = (Uri.parse a).host ∧ t.uri.port = (Uri.parse a).port := by
  induction addrs with
  | nil => intro ts h; cases h
  | cons b addrs ih =>
    intro ts hm
    rcases List.mem_cons.mp hm with rfl | hm
    · obtain ⟨t, h1, e1, e2⟩ := addTracker_present (ts := ts) h
      obtain ⟨t', h2, f1, f2, _⟩ := addTrackers_keeps (addrs := addrs) h1
      exact ⟨t', h2, f1.trans e1, f2.trans e2⟩
    · exact ih hm

/-- What a list of trackers says about the addresses given. -/
def Genuine (addrs : List (List UInt8)) (t : Info) : Prop :=
  t.fullAddress ∈ addrs ∧ t.uri.host = (Uri.parse t.fullAddress).host ∧ t.uri.port = (Uri.parse t.fullAddress).port ∧ t.uri.path = (Uri.parse t.fullAddress).path ∧
    (t.uri.port ≠ [] ∨ t.uri.protocol = ascii "https") ∧
    ((t.httpFallback = false ∧ t.uri.protocol = (Uri.parse t.fullAddress).protocol) ∨
      (t.httpFallback = true ∧ t.uri.protocol = ascii "udp" ∧ ∃ u ∈ addrs, ∃ v ∈ addrs, Spec.place u = (t.uri.host, t.uri.port) ∧ Spec.place v = (t.uri.host, t.uri.port) ∧
        (Uri.parse u).protocol = ascii "udp" ∧ (Uri.parse v).protocol = ascii "http"))

theorem Genuine.mono {a b : List (List UInt8)} {t : Info} (hs : ∀ x ∈ a, x ∈ b) (h : Genuine a t) : Genuine b t := by
  obtain ⟨h1, h2, h3, h4, h5, h6⟩ := h
  refine ⟨hs _ h1, h2, h3, h4, h5, ?_⟩
  rcases h6 with h6 | ⟨e1, e2, u, hu, v, hv, e3⟩
  · exact .inl h6
  · exact .inr ⟨e1, e2, u, hs u hu, v, hs v hv, e3⟩

theorem addTracker_genuine {addrs : List (List UInt8)} {ts : List Info} (hts : ∀ t ∈ ts, Genuine addrs t) (a : List UInt8) :
    ∀ t ∈ (addTracker ts a).1, Genuine (addrs ++ [a]) t := by
  have hmono : ∀ t ∈ ts, Genuine (addrs ++ [a]) t := fun t ht => (hts t ht).mono (fun x hx => List.mem_append_left _ hx)
  have H := added ts a
  generalize addTracker ts a = r at H ⊢
  cases H with
  | fresh h1 h2 =>
    intro t ht
    rcases List.mem_append.mp ht with ht | ht
    · exact hmono t ht
    · rw [List.mem_singleton.mp ht]
      exact ⟨List.mem_append_right _ (List.mem_singleton.mpr rfl), rfl, rfl, rfl, h1, .inl ⟨rfl, rfl⟩⟩
  | merged k i h1 h2 h3 h4 h5 =>
    intro t ht
    rcases List.mem_or_eq_of_mem_set ht with ht | rfl
    · exact hmono t ht
    · obtain ⟨g1, g2, g3, g4, g5, g6⟩ := hts i (List.mem_of_getElem? h2)
      refine ⟨List.mem_append_left _ g1, g2, g3, g4, .inl (by rw [← h4] at h1; exact h1), .inr ⟨rfl, rfl, ?_⟩⟩
      have hp : Spec.place a = (i.uri.host, i.uri.port) := by rw [Spec.place, h3, h4]
      rcases g6 with ⟨f1, f2⟩ | ⟨_, _, u, hu, v, hv, e⟩
      · simp only [mergeable, Bool.and_eq_true, Bool.or_eq_true, beq_iff_eq] at h5
        obtain ⟨⟨c1, c2⟩, _⟩ := h5
        have hpi : Spec.place i.fullAddress = (i.uri.host, i.uri.port) := by rw [Spec.place, g2, g3]
        have ne : ascii "http" ≠ ascii "udp" := by decide
        rcases c1 with c1 | c1
        · rcases c2 with c2 | c2
          · exact absurd (c1.symm.trans c2) ne
          · exact ⟨a, by simp, i.fullAddress, List.mem_append_left _ g1, hp, hpi, c2, by rw [← f2]; exact c1⟩
        · rcases c2 with c2 | c2
          · exact ⟨i.fullAddress, List.mem_append_left _ g1, a, by simp, hpi, hp, by rw [← f2]; exact c2, c1⟩
          · exact absurd (c1.symm.trans c2) ne
      · exact ⟨u, List.mem_append_left _ hu, v, List.mem_append_left _ hv, e⟩
  | «exists» => exact hmono
  | invalid => exact hmono

theorem addTrackers_genuine (addrs : List (List UInt8)) : ∀ (done : List (List UInt8)) {ts : List Info}, (∀ t ∈ ts, Genuine done t) →
    ∀ t ∈ addTrackers ts addrs, Genuine (done ++ addrs) t := by
  induction addrs with
  | nil => intro done ts h; simpa [addTrackers] using h
  | cons a addrs ih =>
    intro done ts h
    have := ih (done ++ [a]) (addTracker_genuine h a)
    rwa [List.append_assoc] at this

/-- One entry per host. -/
theorem addTracker_once {done : List (List UInt8)} {ts : List Info} {a : List UInt8} (hg : ∀ t ∈ ts, Genuine done t)
    (hp : (Uri.parse a).port = [] → (Uri.parse a).protocol ≠ ascii "https")
    (hc : ∀ b ∈ done, (Uri.parse b).host = (Uri.parse a).host → (Uri.parse b).port ≠ [] → (Uri.parse a).port ≠ [] → (Uri.parse b).port = (Uri.parse a).port)
    (hport : ∀ t ∈ ts, t.uri.port ≠ [])
    (h : ts.Pairwise (fun x y => x.uri.host ≠ y.uri.host)) :
    (addTracker ts a).1.Pairwise (fun x y => x.uri.host ≠ y.uri.host) ∧ ∀ t ∈ (addTracker ts a).1, t.uri.port ≠ [] := by
  have H := added ts a
  generalize addTracker ts a = r at H ⊢
  cases H with
  | fresh h1 h2 =>
    have hpa : (Uri.parse a).port ≠ [] := by
      intro e
      rcases h1 with h1 | h1
      · exact h1 e
      · exact hp e h1
    refine ⟨?_, ?_⟩
    · rw [List.pairwise_append]
      refine ⟨h, List.pairwise_singleton _ _, ?_⟩
      intro x hx y hy
      rw [List.mem_singleton.mp hy]
      rcases h2 hpa with h2 | ⟨k, i, h2, h3, h4⟩
      · exact findHost_none h2 x hx
      · obtain ⟨t, e1, e2⟩ := findHost_some h2
        rw [h3] at e1; cases e1
        have hi := List.mem_of_getElem? h3
        obtain ⟨g1, g2, g3, _⟩ := hg i hi
        exact absurd (g3.trans (hc _ g1 (g2.symm.trans e2) (by rw [← g3]; exact hport i hi) hpa)) h4
    · intro t ht
      rcases List.mem_append.mp ht with ht | ht
      · exact hport t ht
      · rw [List.mem_singleton.mp ht]; exact hpa
  | merged k i h1 h2 h3 h4 h5 =>
    obtain ⟨hk, e2⟩ := List.getElem?_eq_some_iff.mp h2
    refine ⟨?_, ?_⟩
    · rw [List.pairwise_iff_getElem] at h ⊢
      intro x y hx hy hxy
      have hx' : x < ts.length := by simpa using hx
      have hy' : y < ts.length := by simpa using hy
      have key : ∀ z (hz : z < (ts.set k (Trackers.merged i)).length) (hz' : z < ts.length), (ts.set k (Trackers.merged i))[z].uri.host = ts[z].uri.host := by
        intro z hz hz'
        by_cases hzk : k = z
        · subst hzk; rw [List.getElem_set_self]; rw [e2]; rfl
        · rw [List.getElem_set_ne hzk]
      rw [key x hx hx', key y hy hy']
      exact h x y hx' hy' hxy
    · intro t ht
      rcases List.mem_or_eq_of_mem_set ht with ht | rfl
      · exact hport t ht
      · show i.uri.port ≠ []; rw [h4]; exact h1
  | «exists» => exact ⟨h, hport⟩
  | invalid => exact ⟨h, hport⟩

theorem addTrackers_once (addrs : List (List UInt8)) : ∀ (done : List (List UInt8)) {ts : List Info}, (∀ t ∈ ts, Genuine done t) →
    (∀ a ∈ addrs, (Uri.parse a).port = [] → (Uri.parse a).protocol ≠ ascii "https") →
    (∀ a ∈ done ++ addrs, ∀ b ∈ done ++ addrs, (Uri.parse b).host = (Uri.parse a).host → (Uri.parse b).port ≠ [] → (Uri.parse a).port ≠ [] → (Uri.parse b).port = (Uri.parse a).port) →
    (∀ t ∈ ts, t.uri.port ≠ []) → ts.Pairwise (fun x y => x.uri.host ≠ y.uri.host) →
    (addTrackers ts addrs).Pairwise (fun x y => x.uri.host ≠ y.uri.host) := by
  induction addrs with
  | nil => intro done ts _ _ _ _ h; exact h
  | cons a addrs ih =>
    intro done ts hg hp hc hport h
    obtain ⟨h1, h2⟩ := addTracker_once (a := a) hg (hp a (by simp)) (fun b hb => hc a (by simp) b (by simp [hb])) hport h
    exact ih (done ++ [a]) (addTracker_genuine hg a) (fun b hb => hp b (by simp [hb]))
      (fun x hx y hy => hc x (by simpa using hx) y (by simpa using hy)) h2 h1

/-! ### Fallback -/

theorem mergeable_iff {i j : Info} (hc : i.comm = none) (hi : i.uri.protocol = ascii "udp" ∨ i.uri.protocol = ascii "http")
    (hj : j.uri.protocol = ascii "udp" ∨ j.uri.protocol = ascii "http") : mergeable i j = true ↔ i.uri.protocol ≠ j.uri.protocol := by
  have ne : ascii "http" ≠ ascii "udp" := by decide
  unfold mergeable
  rw [hc]
  rcases hi with e | e <;> rcases hj with f | f <;> rw [e, f] <;> decide

/-- A tracker is known under all the protocols its addresses had. -/
def Both (host : List UInt8) (done : List (List UInt8)) (t : Info) : Prop :=
  t.comm = none ∧ (t.uri.host = host → (t.uri.protocol = ascii "udp" ∨ t.uri.protocol = ascii "http") ∧
    ((t.httpFallback = true ∧ t.uri.protocol = ascii "udp") ∨
      ∀ a ∈ done, (Uri.parse a).port ≠ [] → (Uri.parse a).host = host → (Uri.parse a).protocol = t.uri.protocol))

theorem addTracker_both {host : List UInt8} {done : List (List UInt8)} {ts : List Info} {a : List UInt8} (hb : ∀ t ∈ ts, Both host done t)
    (hg : ∀ t ∈ ts, Genuine done t) (hnew : ∀ b ∈ done, (Uri.parse b).port ≠ [] → (Uri.parse b).host = host → ∃ t ∈ ts, t.uri.host = host)
    (hd : ts.Pairwise (fun x y => x.uri.host ≠ y.uri.host))
    (hprot : (Uri.parse a).host = host → (Uri.parse a).protocol = ascii "udp" ∨ (Uri.parse a).protocol = ascii "http")
    (hc : ∀ b ∈ done, (Uri.parse b).host = (Uri.parse a).host → (Uri.parse b).port ≠ [] → (Uri.parse a).port ≠ [] → (Uri.parse b).port = (Uri.parse a).port)
    (hport : ∀ t ∈ ts, t.uri.port ≠ []) :
    ∀ t ∈ (addTracker ts a).1, Both host (done ++ [a]) t := by
  have other : ∀ t ∈ ts, (t.uri.host = host → (Uri.parse a).port ≠ [] → (Uri.parse a).host = host → (t.httpFallback = true ∧ t.uri.protocol = ascii "udp") ∨ (Uri.parse a).protocol = t.uri.protocol) →
      Both host (done ++ [a]) t := by
    intro t ht ha
    obtain ⟨h1, h2⟩ := hb t ht
    refine ⟨h1, fun e => ⟨(h2 e).1, ?_⟩⟩
    rcases (h2 e).2 with h3 | h3
    · exact .inl h3
    · by_cases hx : (Uri.parse a).port ≠ [] ∧ (Uri.parse a).host = host
      · rcases ha e hx.1 hx.2 with h4 | h4
        · exact .inl h4
        · right
          intro b hb' hp he
          rcases List.mem_append.mp hb' with hb' | hb'
          · exact h3 b hb' hp he
          · rw [List.mem_singleton.mp hb']; exact h4
      · right
        intro b hb' hp he
        rcases List.mem_append.mp hb' with hb' | hb'
        · exact h3 b hb' hp he
        · rw [List.mem_singleton.mp hb'] at hp he; exact absurd ⟨hp, he⟩ hx
  have H := added ts a
  generalize addTracker ts a = r at H ⊢
  cases H with
  | fresh h1 h2 =>
    have hno : (Uri.parse a).port ≠ [] → ∀ t ∈ ts, t.uri.host ≠ (Uri.parse a).host := by
      intro hpa t ht
      rcases h2 hpa with h2 | ⟨k, i, h2, h3, h4⟩
      · exact findHost_none h2 t ht
      · obtain ⟨t', e1, e2⟩ := findHost_some h2
        rw [h3] at e1; cases e1
        have hi := List.mem_of_getElem? h3
        obtain ⟨g1, g2, g3, _⟩ := hg i hi
        exact absurd (g3.trans (hc _ g1 (g2.symm.trans e2) (by rw [← g3]; exact hport i hi) hpa)) h4
    intro t ht
    rcases List.mem_append.mp ht with ht | ht
    · exact other t ht (fun e hp he => absurd (e.trans he.symm) (hno hp t ht))
    · rw [List.mem_singleton.mp ht]
      refine ⟨rfl, fun e => ⟨hprot e, .inr ?_⟩⟩
      intro b hb' hp he
      rcases List.mem_append.mp hb' with hb' | hb'
      · obtain ⟨t', ht', e'⟩ := hnew b hb' hp he
        have hpa : (Uri.parse a).port ≠ [] := by
          rcases h1 with h1 | h1
          · exact h1
          · have := hprot e
            rw [h1] at this
            exact absurd this (by decide)
        exact absurd (e'.trans e.symm) (hno hpa t' ht')
      · rw [List.mem_singleton.mp hb']
  | merged k i h1 h2 h3 h4 h5 =>
    obtain ⟨hk, e2⟩ := List.getElem?_eq_some_iff.mp h2
    have hi := List.mem_of_getElem? h2
    intro t ht
    obtain ⟨j, hj, e⟩ := List.mem_iff_getElem.mp ht
    by_cases hjk : k = j
    · subst hjk
      rw [List.getElem_set_self] at e
      subst e
      exact ⟨(hb i hi).1, fun _ => ⟨.inl rfl, .inl ⟨rfl, rfl⟩⟩⟩
    · rw [List.getElem_set_ne hjk] at e
      have hj' : j < ts.length := by simpa using hj
      have htm : t ∈ ts := e ▸ List.getElem_mem hj'
      refine other t htm (fun e' _ he => ?_)
      exfalso
      have hh : t.uri.host = i.uri.host := by rw [e', h3, he]
      rw [List.pairwise_iff_getElem] at hd
      rcases Nat.lt_or_gt_of_ne hjk with hlt | hlt
      · exact hd k j hk hj' hlt (by rw [e, e2]; exact hh.symm)
      · exact hd j k hj' hk hlt (by rw [e, e2]; exact hh)
  | «exists» k i h1 h2 h3 h4 h5 =>
    obtain ⟨hk, e2⟩ := List.getElem?_eq_some_iff.mp h2
    have hi := List.mem_of_getElem? h2
    intro t ht
    refine other t ht (fun e' hp he => ?_)
    have hti : t = i := by
      obtain ⟨j, hj, e⟩ := List.mem_iff_getElem.mp ht
      have hh : t.uri.host = i.uri.host := by rw [e', h3, he]
      rw [List.pairwise_iff_getElem] at hd
      rcases Nat.lt_trichotomy j k with hlt | rfl | hlt
      · exact absurd (by rw [e, e2]; exact hh) (hd j k hj hk hlt)
      · rw [← e, e2]
      · exact absurd (by rw [e, e2]; exact hh.symm) (hd k j hk hj hlt)
    subst hti
    obtain ⟨b1, b2⟩ := hb t ht
    have := mergeable_iff (i := t) (j := { uri := Uri.parse a, fullAddress := a }) b1 (b2 e').1 (hprot he)
    right
    apply Classical.byContradiction
    intro hne
    rw [this.mpr (fun e => hne e.symm)] at h5
    cases h5
  | invalid h1 h2 => exact fun t ht => other t ht (fun _ hp _ => absurd h1 hp)

theorem addTrackers_both (host : List UInt8) (addrs : List (List UInt8)) : ∀ (done : List (List UInt8)) {ts : List Info}, (∀ t ∈ ts, Both host done t) → (∀ t ∈ ts, Genuine done t) →
    (∀ b ∈ done, (Uri.parse b).port ≠ [] → (Uri.parse b).host = host → ∃ t ∈ ts, t.uri.host = host) →
    (∀ a ∈ addrs, (Uri.parse a).port = [] → (Uri.parse a).protocol ≠ ascii "https") →
    (∀ a ∈ addrs, (Uri.parse a).host = host → (Uri.parse a).protocol = ascii "udp" ∨ (Uri.parse a).protocol = ascii "http") →
    (∀ a ∈ done ++ addrs, ∀ b ∈ done ++ addrs, (Uri.parse b).host = (Uri.parse a).host → (Uri.parse b).port ≠ [] → (Uri.parse a).port ≠ [] → (Uri.parse b).port = (Uri.parse a).port) →
    (∀ t ∈ ts, t.uri.port ≠ []) → ts.Pairwise (fun x y => x.uri.host ≠ y.uri.host) →
    ∀ t ∈ addTrackers ts addrs, Both host (done ++ addrs) t := by
  induction addrs with
  | nil => intro done ts hb _ _ _ _ _ _ _; simpa [addTrackers] using hb
  | cons a addrs ih =>
    intro done ts hb hg hnew hp hprot hc hport hd
    have hc' : ∀ b ∈ done, (Uri.parse b).host = (Uri.parse a).host → (Uri.parse b).port ≠ [] → (Uri.parse a).port ≠ [] → (Uri.parse b).port = (Uri.parse a).port :=
      fun b hb => hc a (by simp) b (by simp [hb])
    obtain ⟨h1, h2⟩ := addTracker_once (a := a) hg (hp a (by simp)) hc' hport hd
    have := ih (done ++ [a]) (addTracker_both hb hg hnew hd (hprot a (by simp)) hc' hport) (addTracker_genuine hg a) ?_
      (fun b hb => hp b (by simp [hb])) (fun b hb => hprot b (by simp [hb])) (fun x hx y hy => hc x (by simpa using hx) y (by simpa using hy)) h2 h1
    · rwa [List.append_assoc] at this
    · intro b hb' hpb heb
      rcases List.mem_append.mp hb' with hb' | hb'
      · obtain ⟨t, ht, e⟩ := hnew b hb' hpb heb
        obtain ⟨t', ht', e', _⟩ := addTracker_keeps (addr := a) ht
        exact ⟨t', ht', e'.trans e⟩
      · rw [List.mem_singleton.mp hb'] at hpb heb
        obtain ⟨t, ht, e, _⟩ := addTracker_present (ts := ts) (.inl hpb)
        exact ⟨t, ht, e.trans heb⟩

end Verif.Trackers
