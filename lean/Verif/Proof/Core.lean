import Verif.Spec.Core
import Verif.Proof.Trackers
/-! Lemmas for C47. -/

namespace Verif.Torrents
open Verif Verif.Spec.Torrents

theorem bindOkC {α β : Type} {m : Res α} {f : α → Res β} {b : β} (h : m.bind f = .ok b) : ∃ a, m = .ok a ∧ f a = .ok b := by
  cases m with
  | ok a => exact ⟨a, rfl, h⟩
  | ub => cases h
  | diverge => cases h

/-- The torrents and those on their way. -/
def allOf (s : Sys) : List Tor := s.torrents ++ s.pending.map (·.2)

structure Inv (s : Sys) : Prop where
  ids : ((allOf s).map (·.id)).Nodup
  fresh : ∀ t ∈ allOf s, t.id < s.fresh
  hashes : ((allOf s).map (·.info.hash)).Nodup
  keys : (s.files.map (·.1)).Nodup
  right : ∀ h i, (h, Content.good i) ∈ s.files → i.hash = h
  kept : ∀ t ∈ s.torrents, t.full = false → t.utm = false → Kept s t.info.hash
  sure : ∀ t ∈ allOf s, t.known = false → t.utm = true ∨ t.full = false
  list : s.up = false → ∀ h ∈ s.list, ∀ p ∈ s.pending, p.2.info.hash ≠ h
  down : s.up = false → s.torrents = []
  sound : ∀ p ∈ s.pending, p.2.known = true ∨ p.2.utm = true

theorem fileOf_mem {fs : List (Hash × Content)} {h : Hash} {c : Content} (e : fileOf fs h = some c) : (h, c) ∈ fs := by
  simp only [fileOf, Option.map_eq_some_iff] at e
  obtain ⟨⟨a, b⟩, h1, rfl⟩ := e
  have := List.mem_of_find?_eq_some h1
  have h2 := List.find?_some h1
  simp only [beq_iff_eq] at h2
  subst h2
  exact this

theorem mem_fileOf {fs : List (Hash × Content)} {h : Hash} {c : Content} (hk : (fs.map (·.1)).Nodup) (e : (h, c) ∈ fs) : fileOf fs h = some c := by
  induction fs with
  | nil => cases e
  | cons f fs ih =>
    rw [List.map_cons, List.nodup_cons] at hk
    rcases List.mem_cons.1 e with e | e
    · subst e
      simp [fileOf]
    · have hn : f.1 ≠ h := by
        intro hf
        exact hk.1 (hf ▸ List.mem_map.2 ⟨_, e, rfl⟩)
      have := ih hk.2 e
      simp only [fileOf, List.find?_cons, beq_eq_false_iff_ne.2 hn] at this ⊢
      exact this

theorem dropFile_keys {fs : List (Hash × Content)} (h : Hash) (hk : (fs.map (·.1)).Nodup) : ((dropFile fs h).map (·.1)).Nodup :=
  hk.sublist (List.filter_sublist.map _)

theorem mem_dropFile {fs : List (Hash × Content)} {h : Hash} {f : Hash × Content} : f ∈ dropFile fs h ↔ f ∈ fs ∧ f.1 ≠ h := by
  simp [dropFile]

theorem putFile_eq (fs : List (Hash × Content)) (h : Hash) (c : Content) : putFile fs h c = (h, c) :: dropFile fs h := rfl

theorem putFile_keys {fs : List (Hash × Content)} (h : Hash) (c : Content) (hk : (fs.map (·.1)).Nodup) : ((putFile fs h c).map (·.1)).Nodup := by
  rw [putFile_eq, List.map_cons, List.nodup_cons]
  refine ⟨fun hm => ?_, dropFile_keys h hk⟩
  obtain ⟨f, hf, he⟩ := List.mem_map.1 hm
  exact (mem_dropFile.1 hf).2 he

theorem mem_putFile {fs : List (Hash × Content)} {h : Hash} {c : Content} {f : Hash × Content} :
    f ∈ putFile fs h c ↔ f = (h, c) ∨ (f ∈ fs ∧ f.1 ≠ h) := by
  rw [putFile_eq, List.mem_cons, mem_dropFile]

theorem inj_of_nodup {α β : Type} {f : α → β} : ∀ {l : List α}, (l.map f).Nodup → ∀ {a b : α}, a ∈ l → b ∈ l → f a = f b → a = b
  | [], _, a, _, ha, _, _ => by cases ha
  | t :: ts, hn, a, b, ha, hb, e => by
    rw [List.map_cons, List.nodup_cons] at hn
    rcases List.mem_cons.1 ha with ea | ha' <;> rcases List.mem_cons.1 hb with eb | hb'
    · rw [ea, eb]
    · exact absurd (List.mem_map.2 ⟨b, hb', by rw [← e, ea]⟩) hn.1
    · exact absurd (List.mem_map.2 ⟨a, ha', by rw [e, eb]⟩) hn.1
    · exact inj_of_nodup hn.2 ha' hb' e

/-- A torrent is known by its object. -/
theorem eq_of_id {ts : List Tor} (h : (ts.map (·.id)).Nodup) {a b : Tor} (ha : a ∈ ts) (hb : b ∈ ts) (e : a.id = b.id) : a = b :=
  inj_of_nodup h ha hb e

/-- ... and by its hash. -/
theorem eq_of_hash {ts : List Tor} (h : (ts.map (·.info.hash)).Nodup) {a b : Tor} (ha : a ∈ ts) (hb : b ∈ ts)
    (e : a.info.hash = b.info.hash) : a = b :=
  inj_of_nodup h ha hb e

theorem update_map {α : Type} (f : Tor → α) {ts : List Tor} {t t' : Tor} (hn : (ts.map (·.id)).Nodup) (ht : t ∈ ts) (hi : t'.id = t.id)
    (hf : f t' = f t) : (update ts t').map f = ts.map f := by
  rw [update, List.map_map]
  refine List.map_congr_left fun x hx => ?_
  simp only [Function.comp]
  split
  next he => rw [hf, eq_of_id hn hx ht (he.trans hi)]
  · rfl

theorem mem_update {ts : List Tor} {t' x : Tor} (h : x ∈ update ts t') : x = t' ∨ (x ∈ ts ∧ x.id ≠ t'.id) := by
  obtain ⟨y, hy, e⟩ := List.mem_map.1 h
  split at e
  · exact .inl e.symm
  next hne => exact .inr ⟨e ▸ hy, e ▸ hne⟩

theorem importLoop_spec : ∀ (us an : List (List UInt8)) (ts : List Trackers.Info) (b : Bool),
    ∃ new, (importLoop us an ts b).1 = an ++ new ∧ (∀ u ∈ new, u ∈ us ∧ u ∉ an) ∧ new.Nodup ∧ ((importLoop us an ts b).2.2 = true ↔ b = true ∨ new ≠ [])
  | [], an, ts, b => ⟨[], by simp [importLoop], by simp, by simp, by simp [importLoop]⟩
  | u :: us, an, ts, b => by
    simp only [importLoop]
    split
    · obtain ⟨new, h1, h2, h4, h3⟩ := importLoop_spec us an ts b
      exact ⟨new, h1, fun x hx => ⟨.tail _ (h2 x hx).1, (h2 x hx).2⟩, h4, h3⟩
    next hc =>
      split
      next ts' _ =>
        obtain ⟨new, h1, h2, h4, h3⟩ := importLoop_spec us (an ++ [u]) ts' true
        refine ⟨u :: new, by rw [h1]; simp, fun x hx => ?_, ?_, by rw [h3]; simp⟩
        · rcases List.mem_cons.1 hx with rfl | hx
          · exact ⟨.head _, by simpa using hc⟩
          · exact ⟨.tail _ (h2 x hx).1, fun h => (h2 x hx).2 (by simp [h])⟩
        · exact List.nodup_cons.2 ⟨fun h => (h2 u h).2 (by simp), h4⟩
      next ts' _ _ _ =>
        obtain ⟨new, h1, h2, h4, h3⟩ := importLoop_spec us an ts' b
        exact ⟨new, h1, fun x hx => ⟨.tail _ (h2 x hx).1, (h2 x hx).2⟩, h4, h3⟩

theorem importLoop_keeps : ∀ (us an : List (List UInt8)) (ts : List Trackers.Info) (b : Bool), ∀ x ∈ ts,
    ∃ y ∈ (importLoop us an ts b).2.1, y.uri.host = x.uri.host ∧ y.uri.port = x.uri.port
  | [], an, ts, b, x, hx => ⟨x, hx, rfl, rfl⟩
  | u :: us, an, ts, b, x, hx => by
    simp only [importLoop]
    split
    · exact importLoop_keeps us an ts b x hx
    · obtain ⟨y, hy, e1, e2, _⟩ := Trackers.addTracker_keeps (addr := u) hx
      split
      next ts' he =>
        rw [he] at hy
        obtain ⟨z, hz, f1, f2⟩ := importLoop_keeps us (an ++ [u]) ts' true y hy
        exact ⟨z, hz, f1.trans e1, f2.trans e2⟩
      next ts' st _ he =>
        have hy' : y ∈ ts' := by rw [he] at hy; exact hy
        obtain ⟨z, hz, f1, f2⟩ := importLoop_keeps us an ts' b y hy'
        exact ⟨z, hz, f1.trans e1, f2.trans e2⟩

theorem importLoop_present : ∀ (us an : List (List UInt8)) (ts : List Trackers.Info) (b : Bool), ∀ u ∈ us,
    (Uri.parse u).port ≠ [] ∨ (Uri.parse u).protocol = ascii "https" →
    u ∈ an ∨ ∃ y ∈ (importLoop us an ts b).2.1, y.uri.host = (Uri.parse u).host ∧ y.uri.port = (Uri.parse u).port
  | [], an, ts, b, u, hu, _ => by cases hu
  | v :: us, an, ts, b, u, hu, hok => by
    simp only [importLoop]
    split
    next hc =>
      rcases List.mem_cons.1 hu with rfl | hu
      · exact .inl (by simpa using hc)
      · exact importLoop_present us an ts b u hu hok
    next hc =>
      have hnew : u = v → ∃ y ∈ (Trackers.addTracker ts v).1, y.uri.host = (Uri.parse u).host ∧ y.uri.port = (Uri.parse u).port := by
        rintro rfl
        exact Trackers.addTracker_present hok
      split
      next ts' he =>
        have hnew' : u = v → ∃ z ∈ (importLoop us (an ++ [v]) ts' true).2.1, z.uri.host = (Uri.parse u).host ∧ z.uri.port = (Uri.parse u).port := by
          intro e
          obtain ⟨y, hy, e1, e2⟩ := hnew e
          rw [he] at hy
          obtain ⟨z, hz, f1, f2⟩ := importLoop_keeps us (an ++ [v]) ts' true y hy
          exact ⟨z, hz, f1.trans e1, f2.trans e2⟩
        rcases List.mem_cons.1 hu with e | hu
        · exact .inr (hnew' e)
        · rcases importLoop_present us (an ++ [v]) ts' true u hu hok with k | k
          · rcases List.mem_append.1 k with k | k
            · exact .inl k
            · exact .inr (hnew' (List.mem_singleton.1 k))
          · exact .inr k
      next ts' st _ he =>
        rcases List.mem_cons.1 hu with e | hu
        · obtain ⟨y, hy, e1, e2⟩ := hnew e
          have hy' : y ∈ ts' := by rw [he] at hy; exact hy
          obtain ⟨z, hz, f1, f2⟩ := importLoop_keeps us an ts' b y hy'
          exact .inr ⟨z, hz, f1.trans e1, f2.trans e2⟩
        · exact importLoop_present us an ts' b u hu hok

/-- Reading the info in a sound folder. -/
theorem loadInfo_sound {fake : Hash → Hash} {fs : List (Hash × Content)} {t : Tor} {r : Bool × Tor}
    (hk : (fs.map (·.1)).Nodup) (hr : ∀ h i, (h, Content.good i) ∈ fs → i.hash = h)
    (ht : t.full = false → t.utm = false → ∃ i, (t.info.hash, Content.good i) ∈ fs) (h : loadInfo fake fs t = .ok r) :
    r.2.id = t.id ∧ r.2.info.hash = t.info.hash ∧ r.2.utm = t.utm ∧
      ((t.full = true ∧ r.2 = t) ∨ (t.utm = true ∧ r.2 = t) ∨ (r.1 = true ∧ r.2.full = true ∧ r.2.known = true)) := by
  unfold loadInfo at h
  split at h
  next hf => cases h; exact ⟨rfl, rfl, rfl, .inl ⟨hf, rfl⟩⟩
  next hf =>
    split at h
    next hu => cases h; exact ⟨rfl, rfl, rfl, .inr (.inl ⟨hu, rfl⟩)⟩
    next hu =>
      obtain ⟨i, hi⟩ := ht (by simpa using hf) (by simpa using hu)
      rw [mem_fileOf hk hi] at h
      simp only at h
      cases h
      exact ⟨rfl, hr _ _ hi, rfl, .inr (.inr ⟨rfl, rfl, rfl⟩)⟩

/-- A torrent of the list is replaced by one of the same hash, and its file perhaps by a good one; a file made without
info is only written for a magnet without metadata. -/
theorem Inv.update {s : Sys} (hs : Inv s) {t t' : Tor} (ht : t ∈ s.torrents) (hi : t'.id = t.id) (hh : t'.info.hash = t.info.hash)
    (hk : t'.full = false → t'.utm = false → Kept s t'.info.hash) (hu : t'.known = false → t'.utm = true ∨ t'.full = false)
    {fs : List (Hash × Content)}
    (hf : fs = s.files ∨ fs = putFile s.files t'.info.hash (.good t'.info) ∨
      ((t'.full = true ∨ t'.utm = true) ∧ ∃ b an, fs = putFile s.files t'.info.hash (.made b an))) :
    Inv { s with torrents := Torrents.update s.torrents t', files := fs } := by
  have hnT : (s.torrents.map (·.id)).Nodup := by
    have := hs.ids
    rw [allOf, List.map_append] at this
    exact (List.nodup_append.1 this).1
  have hnH : (s.torrents.map (·.info.hash)).Nodup := by
    have := hs.hashes
    rw [allOf, List.map_append] at this
    exact (List.nodup_append.1 this).1
  have hmem : ∀ x ∈ Torrents.update s.torrents t' ++ s.pending.map (·.2), x = t' ∨ x ∈ allOf s := by
    intro x hx
    rcases List.mem_append.1 hx with hx | hx
    · rcases mem_update hx with e | ⟨e, _⟩
      · exact .inl e
      · exact .inr (List.mem_append_left _ e)
    · exact .inr (List.mem_append_right _ hx)
  have hta : t ∈ allOf s := List.mem_append_left _ ht
  refine ⟨?_, ?_, ?_, ?_, ?_, ?_, ?_, hs.list, ?_, hs.sound⟩
  · have := hs.ids
    rw [allOf, List.map_append] at this ⊢
    rw [update_map (·.id) hnT ht hi hi]
    exact this
  · intro x hx
    rcases hmem x hx with rfl | hx
    · rw [hi]; exact hs.fresh t hta
    · exact hs.fresh x hx
  · have := hs.hashes
    rw [allOf, List.map_append] at this ⊢
    rw [update_map (·.info.hash) hnT ht hi hh]
    exact this
  · rcases hf with rfl | rfl | ⟨_, b, an, rfl⟩
    · exact hs.keys
    · exact putFile_keys _ _ hs.keys
    · exact putFile_keys _ _ hs.keys
  · intro h i hm
    rcases hf with rfl | rfl | ⟨_, b, an, rfl⟩
    · exact hs.right h i hm
    · rcases mem_putFile.1 hm with e | ⟨e, _⟩
      · cases e; rfl
      · exact hs.right h i e
    · rcases mem_putFile.1 hm with e | ⟨e, _⟩
      · cases e
      · exact hs.right h i e
  · intro x hx hxf hxu
    rcases mem_update hx with rfl | ⟨hxm, hxi⟩
    · rcases hf with rfl | rfl | ⟨hp, b, an, rfl⟩
      · exact hk hxf hxu
      · exact ⟨_, mem_putFile.2 (.inl rfl)⟩
      · rcases hp with hp | hp
        · rw [hp] at hxf; cases hxf
        · rw [hp] at hxu; cases hxu
    · obtain ⟨i, him⟩ := hs.kept x hxm hxf hxu
      have hne : x.info.hash ≠ t'.info.hash := by
        intro e
        exact hxi (hi ▸ congrArg Tor.id (eq_of_hash hnH hxm ht (e.trans hh)))
      rcases hf with rfl | rfl | ⟨_, b, an, rfl⟩
      · exact ⟨i, him⟩
      · exact ⟨i, mem_putFile.2 (.inr ⟨him, hne⟩)⟩
      · exact ⟨i, mem_putFile.2 (.inr ⟨him, hne⟩)⟩
  · intro x hx
    rcases hmem x hx with rfl | hx
    · exact hu
    · exact hs.sure x hx
  · intro hup
    have := hs.down hup
    rw [this] at ht
    cases ht

theorem getTorrent_some {ts : List Tor} {h : Hash} {t : Tor} (e : getTorrent ts h = some t) : t ∈ ts ∧ t.info.hash = h :=
  ⟨List.mem_of_find?_eq_some e, by simpa using List.find?_some e⟩

theorem getTorrent_none {ts : List Tor} {h : Hash} (e : getTorrent ts h = none) : ∀ t ∈ ts, t.info.hash ≠ h := by
  intro t ht
  simpa using List.find?_eq_none.1 e t ht

theorem Inv.load {fake : Hash → Hash} {s : Sys} (hs : Inv s) {t : Tor} (ht : t ∈ s.torrents) {r : Bool × Tor} (h : loadInfo fake s.files t = .ok r) :
    r.2.id = t.id ∧ r.2.info.hash = t.info.hash ∧ r.2.utm = t.utm ∧ (r.2.full = false → r.2.utm = false → Kept s r.2.info.hash) ∧
      (r.2.known = false → r.2.utm = true ∨ r.2.full = false) ∧ (r.2.full = true ∨ r.2.utm = true) := by
  obtain ⟨h1, h2, h3, h4⟩ := loadInfo_sound hs.keys hs.right (hs.kept t ht) h
  refine ⟨h1, h2, h3, ?_, ?_, ?_⟩
  · rcases h4 with ⟨_, e⟩ | ⟨_, e⟩ | ⟨_, e, _⟩
    · rw [e]; exact hs.kept t ht
    · rw [e]; exact hs.kept t ht
    · rw [e]; intro hh; cases hh
  · rcases h4 with ⟨_, e⟩ | ⟨_, e⟩ | ⟨_, _, e⟩
    · rw [e]; exact hs.sure t (List.mem_append_left _ ht)
    · rw [e]; exact hs.sure t (List.mem_append_left _ ht)
    · rw [e]; intro hh; cases hh
  · rcases h4 with ⟨hf, e⟩ | ⟨hf, e⟩ | ⟨_, e, _⟩
    · rw [e]; exact .inl hf
    · rw [e]; exact .inr hf
    · exact .inl e

theorem Inv.merge {fake : Hash → Hash} {s s' : Sys} (hs : Inv s) {t : Tor} (ht : t ∈ s.torrents) {urls : List (List UInt8)} {o}
    (h : merge fake s t urls = .ok (s', o)) : Inv s' := by
  unfold Torrents.merge at h
  obtain ⟨r, h1, h⟩ := bindOkC h
  cases h
  unfold importTrackers at h1
  obtain ⟨l, h2, h1⟩ := bindOkC h1
  cases h1
  obtain ⟨a, b, c, d, e, f⟩ := hs.load ht h2
  let lo := importLoop urls l.2.info.announce l.2.trackers false
  refine hs.update (t' := { l.2 with info := { l.2.info with announce := lo.1 }, trackers := lo.2.1 }) ht a b d e ?_
  show (if lo.2.2 = true then _ else _) = _ ∨ _
  split
  · refine .inr ?_
    unfold contentOf
    cases hkn : l.2.known with
    | true => exact .inl rfl
    | false => exact .inr ⟨f, _, _, rfl⟩
  · exact .inl rfl

theorem Inv.pend {s : Sys} (hs : Inv s) {th : Nat} {t : Tor} (ht : t.id = s.fresh) (hu : t.known = false → t.utm = true)
    (hn : ∀ x ∈ s.torrents, x.info.hash ≠ t.info.hash) (hp : ∀ p ∈ s.pending, p.2.info.hash ≠ t.info.hash)
    (hl : s.up = true) : Inv { s with pending := s.pending ++ [(th, t)], fresh := s.fresh + 1 } := by
  have hall : allOf { s with pending := s.pending ++ [(th, t)], fresh := s.fresh + 1 } = allOf s ++ [t] := by
    simp [allOf]
  refine ⟨?_, ?_, ?_, hs.keys, hs.right, hs.kept, ?_, ?_, hs.down, ?_⟩
  · rw [hall, List.map_append, List.nodup_append]
    refine ⟨hs.ids, by simp, ?_⟩
    intro a ha b hb e
    obtain ⟨x, hx, rfl⟩ := List.mem_map.1 ha
    simp only [List.map_cons, List.map_nil, List.mem_singleton] at hb
    have := hs.fresh x hx
    omega
  · rw [hall]
    intro x hx
    rcases List.mem_append.1 hx with hx | hx
    · exact Nat.lt_succ_of_lt (hs.fresh x hx)
    · rw [List.mem_singleton.1 hx, ht]; exact Nat.lt_succ_self _
  · rw [hall, List.map_append, List.nodup_append]
    refine ⟨hs.hashes, by simp, ?_⟩
    intro a ha b hb e
    obtain ⟨x, hx, rfl⟩ := List.mem_map.1 ha
    simp only [List.map_cons, List.map_nil, List.mem_singleton] at hb
    rcases List.mem_append.1 hx with hx | hx
    · exact hn x hx (e.trans hb)
    · obtain ⟨p, hpm, rfl⟩ := List.mem_map.1 hx
      exact hp p hpm (e.trans hb)
  · rw [hall]
    intro x hx
    rcases List.mem_append.1 hx with hx | hx
    · exact hs.sure x hx
    · rw [List.mem_singleton.1 hx]; exact fun hh => .inl (hu hh)
  · intro hd
    rw [hl] at hd
    cases hd
  · intro q hq
    rcases List.mem_append.1 hq with hq | hq
    · exact hs.sound q hq
    · rw [List.mem_singleton.1 hq]
      cases hk : t.known with
      | true => exact .inl rfl
      | false => exact .inr (hu hk)

theorem Inv.push {s s' : Sys} {p : Nat × Tor} (hs : Inv s) (hp : p ∈ s.pending) {o}
    (h : push { s with pending := s.pending.filter fun q => q.1 != p.1 } p.2 = .ok (s', o)) : Inv s' := by
  unfold Torrents.push at h
  split at h
  next hup =>
    cases h
    have hnew : ∀ x ∈ s.torrents ++ [p.2] ++ (s.pending.filter fun q => q.1 != p.1).map (·.2), x ∈ allOf s := by
      intro x hx
      rcases List.mem_append.1 hx with hx | hx
      · rcases List.mem_append.1 hx with hx | hx
        · exact List.mem_append_left _ hx
        · rw [List.mem_singleton.1 hx]
          exact List.mem_append_right _ (List.mem_map.2 ⟨p, hp, rfl⟩)
      · obtain ⟨q, hq, rfl⟩ := List.mem_map.1 hx
        exact List.mem_append_right _ (List.mem_map.2 ⟨q, (List.mem_filter.1 hq).1, rfl⟩)
    have hperm : ∀ {α : Type} (f : Tor → α), ((allOf s).map f).Nodup →
        ((s.torrents ++ [p.2] ++ (s.pending.filter fun q => q.1 != p.1).map (·.2)).map f).Nodup := by
      intro α f hn
      rw [allOf, List.map_append, List.map_map, List.nodup_append] at hn
      obtain ⟨h1, h2, h3⟩ := hn
      rw [List.append_assoc, List.map_append, List.nodup_append]
      refine ⟨h1, ?_, ?_⟩
      · rw [List.singleton_append, List.map_cons, List.nodup_cons, List.map_map]
        refine ⟨fun hm => ?_, h2.sublist (List.filter_sublist.map _)⟩
        obtain ⟨q, hq, e⟩ := List.mem_map.1 hm
        have hq' := List.mem_filter.1 hq
        have := inj_of_nodup h2 hq'.1 hp e
        rw [this] at hq'
        simp at hq'
      · intro a ha b hb
        refine h3 a ha b ?_
        rw [List.singleton_append, List.map_cons, List.mem_cons, List.map_map] at hb
        rcases hb with rfl | hb
        · exact List.mem_map.2 ⟨p, hp, rfl⟩
        · obtain ⟨q, hq, e⟩ := List.mem_map.1 hb
          exact List.mem_map.2 ⟨q, (List.mem_filter.1 hq).1, e⟩
    have hpa : p.2 ∈ allOf s := List.mem_append_right _ (List.mem_map.2 ⟨p, hp, rfl⟩)
    have hne : ∀ x ∈ s.torrents, x.info.hash ≠ p.2.info.hash := by
      have := hs.hashes
      rw [allOf, List.map_append, List.nodup_append] at this
      exact fun x hx => this.2.2 _ (List.mem_map.2 ⟨x, hx, rfl⟩) _ (List.mem_map.2 ⟨p.2, List.mem_map.2 ⟨p, hp, rfl⟩, rfl⟩)
    refine ⟨hperm _ hs.ids, fun x hx => hs.fresh x (hnew x hx), hperm _ hs.hashes, ?_, ?_, ?_, fun x hx => hs.sure x (hnew x hx), ?_, ?_, ?_⟩
    · split
      · exact putFile_keys _ _ hs.keys
      · exact hs.keys
    · intro h i hm
      split at hm
      · rcases mem_putFile.1 hm with e | ⟨e, _⟩
        · cases e; rfl
        · exact hs.right h i e
      · exact hs.right h i hm
    · intro x hx hxf hxu
      rcases List.mem_append.1 hx with hx | hx
      · obtain ⟨i, hi⟩ := hs.kept x hx hxf hxu
        refine ⟨i, ?_⟩
        show _ ∈ (if p.2.known = true then _ else _)
        split
        · exact mem_putFile.2 (.inr ⟨hi, hne x hx⟩)
        · exact hi
      · rw [List.mem_singleton.1 hx] at hxu ⊢
        have hk := (hs.sound p hp).resolve_right (by simp [hxu])
        exact ⟨p.2.info, by show _ ∈ (if p.2.known = true then _ else _); rw [if_pos hk]; exact mem_putFile.2 (.inl rfl)⟩
    · intro hd; rw [hup] at hd; cases hd
    · intro hd; rw [hup] at hd; cases hd
    · intro q hq
      exact hs.sound q (List.mem_filter.1 hq).1
  · cases h

theorem remove_cases (s : Sys) (h : Hash) :
    (remove s h = (s, some (.invalidInput, none)) ∧ ∀ t ∈ s.torrents, t.info.hash ≠ h) ∨
    ∃ l t r, s.torrents = l ++ t :: r ∧ t.info.hash = h ∧ (∀ x ∈ l, x.info.hash ≠ h) ∧
      remove s h = ({ s with torrents := l ++ r, list := names (l ++ r), files := dropFile s.files h }, some (.success, none)) := by
  unfold remove
  split
  next e => exact .inl ⟨rfl, by simpa using List.findIdx?_eq_none_iff.1 e⟩
  next k e =>
    obtain ⟨hk, h1, h2⟩ := List.findIdx?_eq_some_iff_getElem.1 e
    refine .inr ⟨s.torrents.take k, s.torrents[k], s.torrents.drop (k + 1), ?_, by simpa using h1, ?_, ?_⟩
    · rw [← List.drop_eq_getElem_cons hk, List.take_append_drop]
    · intro x hx
      obtain ⟨j, hj, rfl⟩ := List.getElem_of_mem hx
      rw [List.length_take] at hj
      rw [List.getElem_take]
      simpa using h2 j (by omega)
    · rw [List.eraseIdx_eq_take_drop_succ]

theorem Inv.remove {s : Sys} (hs : Inv s) (h : Hash) : Inv (remove s h).1 := by
  rcases remove_cases s h with ⟨e, _⟩ | ⟨l, t, r, h1, h2, h3, e⟩
  · rw [e]; exact hs
  · rw [e]
    have hsub : (l ++ r ++ s.pending.map (·.2)).Sublist (allOf s) := by
      rw [allOf, h1]
      exact List.Sublist.append_right (List.Sublist.append_left (List.sublist_cons_self t r) l) _
    have hn := hs.hashes
    rw [allOf, h1, List.append_assoc, List.map_append, List.cons_append, List.map_cons, List.nodup_append, List.nodup_cons] at hn
    have hne : ∀ x ∈ l ++ r, x.info.hash ≠ h := by
      intro x hx
      rcases List.mem_append.1 hx with hx | hx
      · exact h3 x hx
      · intro e
        exact hn.2.1.1 (List.mem_map.2 ⟨x, List.mem_append_left _ hx, e.trans h2.symm⟩)
    refine ⟨hs.ids.sublist (hsub.map _), fun x hx => hs.fresh x (hsub.subset hx), hs.hashes.sublist (hsub.map _),
      dropFile_keys _ hs.keys, fun g i hm => hs.right g i (mem_dropFile.1 hm).1, ?_, fun x hx => hs.sure x (hsub.subset hx), ?_, ?_, hs.sound⟩
    · intro x hx hxf hxu
      have hxs : x ∈ s.torrents := by
        rw [h1]
        exact (List.Sublist.append_left (List.sublist_cons_self t r) l).subset hx
      obtain ⟨i, hi⟩ := hs.kept x hxs hxf hxu
      exact ⟨i, mem_dropFile.2 ⟨hi, hne x hx⟩⟩
    · intro hd
      have := hs.down hd
      rw [h1] at this
      simp at this
    · intro hd
      have := hs.down hd
      rw [h1] at this
      simp at this

/-- What `fromSaved` returns in a sound folder. -/
theorem fromSaved_sound {fake : Hash → Hash} {fs : List (Hash × Content)} {id : Nat} {h : Hash} {sv : Saved} {r : Option Tor}
    (hk : (fs.map (·.1)).Nodup) (hr : ∀ h i, (h, Content.good i) ∈ fs → i.hash = h)
    (hg : sv ≠ .absent → ∃ i, (h, Content.good i) ∈ fs) (e : fromSaved fake fs id h sv = .ok r) :
    match r with
    | none => sv = .absent
    | some t => sv ≠ .absent ∧ t.id = id ∧ t.info.hash = h ∧ t.utm = false ∧ (t.full = false ∨ t.known = true) := by
  cases sv with
  | absent => simp only [fromSaved] at e; cases e; rfl
  | plain => simp only [fromSaved] at e; cases e; exact ⟨by simp, rfl, rfl, rfl, .inl rfl⟩
  | started =>
    simp only [fromSaved] at e
    obtain ⟨l, h1, e⟩ := bindOkC e
    cases e
    obtain ⟨a, b, c, d⟩ := loadInfo_sound hk hr (fun _ _ => hg (by simp)) h1
    refine ⟨by simp, a, b, c, ?_⟩
    rcases d with ⟨d, _⟩ | ⟨d, _⟩ | ⟨_, _, d⟩
    · cases d
    · cases d
    · exact .inr d
  | unnamed =>
    simp only [fromSaved] at e
    obtain ⟨l, h1, e⟩ := bindOkC e
    obtain ⟨a, b, c, d⟩ := loadInfo_sound hk hr (fun _ _ => hg (by simp)) h1
    rcases d with ⟨d, _⟩ | ⟨d, _⟩ | ⟨d1, _, d⟩
    · cases d
    · cases d
    · rw [d1, if_pos rfl] at e
      cases e
      exact ⟨by simp, a, b, c, .inr d⟩

theorem loadAll_sound {fake : Hash → Hash} {saved : Hash → Saved} {fs : List (Hash × Content)}
    (hk : (fs.map (·.1)).Nodup) (hr : ∀ h i, (h, Content.good i) ∈ fs → i.hash = h) :
    ∀ {hs : List Hash} {id : Nat} {ts out : List Tor}, (∀ h ∈ hs, saved h ≠ .absent → ∃ i, (h, Content.good i) ∈ fs) →
      (ts.map (·.info.hash)).Nodup → (ts.map (·.id)).Nodup → (∀ t ∈ ts, t.id < id) → loadAll fake saved fs hs id ts = .ok out →
      (out.map (·.info.hash)).Nodup ∧ (out.map (·.id)).Nodup ∧ (∀ t ∈ out, t.id < id + hs.length) ∧
        (∀ t ∈ out, t ∈ ts ∨ (id ≤ t.id ∧ t.info.hash ∈ hs ∧ saved t.info.hash ≠ .absent ∧ t.utm = false ∧ (t.full = false ∨ t.known = true))) ∧
        ((∀ h ∈ hs, saved h ≠ .absent) → (ts.map (·.info.hash) ++ hs).Nodup → out.map (·.info.hash) = ts.map (·.info.hash) ++ hs)
  | [], id, ts, out, hg, h1, h2, h3, e => by
    simp only [loadAll] at e
    cases e
    exact ⟨h1, h2, h3, fun t ht => .inl ht, by simp⟩
  | h :: hs, id, ts, out, hg, h1, h2, h3, e => by
    simp only [loadAll] at e
    obtain ⟨r, hr1, e⟩ := bindOkC e
    have hf := fromSaved_sound hk hr (hg h (.head _)) hr1
    have hg' : ∀ x ∈ hs, saved x ≠ .absent → ∃ i, (x, Content.good i) ∈ fs := fun x hx => hg x (.tail _ hx)
    have h3' : ∀ t ∈ ts, t.id < id + 1 := fun t ht => Nat.lt_succ_of_lt (h3 t ht)
    cases r with
    | none =>
      simp only at e hf
      obtain ⟨a, b, c, d, f⟩ := loadAll_sound hk hr hg' h1 h2 h3' e
      refine ⟨a, b, fun t ht => ?_, fun t ht => ?_, fun hall => absurd hf (hall h (.head _))⟩
      · have := c t ht; simp only [List.length_cons]; omega
      · rcases d t ht with d | ⟨d0, d1, d2⟩
        · exact .inl d
        · exact .inr ⟨by omega, .tail _ d1, d2⟩
    | some t =>
      simp only at e hf
      obtain ⟨f1, f2, f3, f4, f5⟩ := hf
      split at e
      next hs1 =>
        obtain ⟨a, b, c, d, f⟩ := loadAll_sound hk hr hg' h1 h2 h3' e
        refine ⟨a, b, fun t ht => ?_, fun t ht => ?_, fun hall hn => ?_⟩
        · have := c t ht; simp only [List.length_cons]; omega
        · rcases d t ht with d | ⟨d0, d1, d2⟩
          · exact .inl d
          · exact .inr ⟨by omega, .tail _ d1, d2⟩
        · obtain ⟨x, hx⟩ := Option.isSome_iff_exists.1 hs1
          obtain ⟨hx1, hx2⟩ := getTorrent_some hx
          rw [List.nodup_append] at hn
          exact absurd (hx2.trans f3) (hn.2.2 _ (List.mem_map.2 ⟨x, hx1, rfl⟩) h (.head _))
      next hs1 =>
        have hnone : getTorrent ts t.info.hash = none := by simpa using hs1
        have hne := getTorrent_none hnone
        have h1' : ((ts ++ [t]).map (·.info.hash)).Nodup := by
          rw [List.map_append, List.nodup_append]
          refine ⟨h1, by simp, ?_⟩
          intro a ha b hb
          obtain ⟨x, hx, rfl⟩ := List.mem_map.1 ha
          simp only [List.map_cons, List.map_nil, List.mem_singleton] at hb
          rw [hb]
          exact hne x hx
        have h2' : ((ts ++ [t]).map (·.id)).Nodup := by
          rw [List.map_append, List.nodup_append]
          refine ⟨h2, by simp, ?_⟩
          intro a ha b hb
          obtain ⟨x, hx, rfl⟩ := List.mem_map.1 ha
          simp only [List.map_cons, List.map_nil, List.mem_singleton] at hb
          have := h3 x hx
          omega
        have h3'' : ∀ x ∈ ts ++ [t], x.id < id + 1 := by
          intro x hx
          rcases List.mem_append.1 hx with hx | hx
          · exact h3' x hx
          · rw [List.mem_singleton.1 hx]; omega
        obtain ⟨a, b, c, d, f⟩ := loadAll_sound hk hr hg' h1' h2' h3'' e
        refine ⟨a, b, fun t ht => ?_, fun x hx => ?_, fun hall hn => ?_⟩
        · have := c t ht; simp only [List.length_cons]; omega
        · rcases d x hx with d | ⟨d0, d1, d2⟩
          · rcases List.mem_append.1 d with d | d
            · exact .inl d
            · rw [List.mem_singleton.1 d, f3]
              exact .inr ⟨by omega, .head _, f1, f4, f5⟩
          · exact .inr ⟨by omega, .tail _ d1, d2⟩
        · rw [f (fun x hx => hall x (.tail _ hx)) (by rw [List.map_append]; simpa [f3] using hn)]
          simp [f3]

theorem Inv.step {fake : Hash → Hash} {s s' : Sys} {e : Ev} {o} (hs : Inv s) (he : SoundEv s e) (h : step fake s e = .ok (s', o)) : Inv s' := by
  have hnT : (s.torrents.map (·.id)).Nodup := by
    have := hs.ids
    rw [allOf, List.map_append] at this
    exact (List.nodup_append.1 this).1
  cases e with
  | launch saved =>
    simp only [Torrents.step] at h
    split at h
    · cases h; exact hs
    next hup =>
      have hup : s.up = false := by simpa using hup
      obtain ⟨ts, h1, h⟩ := bindOkC h
      cases h
      obtain ⟨a, b, c, d, _⟩ := loadAll_sound hs.keys hs.right he (by simp) (by simp) (by simp) h1
      have d : ∀ t ∈ ts, s.fresh ≤ t.id ∧ t.info.hash ∈ s.list ∧ saved t.info.hash ≠ .absent ∧ t.utm = false ∧ (t.full = false ∨ t.known = true) :=
        fun t ht => (d t ht).resolve_left (by simp)
      have hold : allOf s = s.pending.map (·.2) := by rw [allOf, hs.down hup]; rfl
      have hids := hs.ids
      have hhs := hs.hashes
      rw [hold] at hids hhs
      have hmem : ∀ x ∈ ts ++ s.pending.map (·.2), x ∈ ts ∨ x ∈ allOf s := by
        intro x hx
        rw [hold]
        exact List.mem_append.1 hx
      refine ⟨?_, ?_, ?_, hs.keys, hs.right, ?_, ?_, ?_, ?_, hs.sound⟩
      · show (((ts ++ s.pending.map (·.2))).map (·.id)).Nodup
        rw [List.map_append, List.nodup_append]
        refine ⟨b, hids, ?_⟩
        intro x hx y hy
        obtain ⟨t, ht, rfl⟩ := List.mem_map.1 hx
        obtain ⟨u, hu, rfl⟩ := List.mem_map.1 hy
        have h1 := (d t ht).1
        have h2 := hs.fresh u (by rw [hold]; exact hu)
        omega
      · intro x hx
        rcases hmem x hx with hx | hx
        · exact c x hx
        · exact Nat.lt_of_lt_of_le (hs.fresh x hx) (Nat.le_add_right _ _)
      · show (((ts ++ s.pending.map (·.2))).map (·.info.hash)).Nodup
        rw [List.map_append, List.nodup_append]
        refine ⟨a, hhs, ?_⟩
        intro x hx y hy
        obtain ⟨t, ht, rfl⟩ := List.mem_map.1 hx
        obtain ⟨u, hu, rfl⟩ := List.mem_map.1 hy
        obtain ⟨p, hp, rfl⟩ := List.mem_map.1 hu
        exact (hs.list hup _ (d t ht).2.1 p hp).symm
      · intro t ht _ _
        exact he _ (d t ht).2.1 (d t ht).2.2.1
      · intro x hx hk
        rcases hmem x hx with hx | hx
        · rcases (d x hx).2.2.2.2 with hf | hf
          · exact .inr hf
          · rw [hf] at hk; cases hk
        · exact hs.sure x hx hk
      · intro hd; cases hd
      · intro hd; cases hd
  | quit =>
    simp only [Torrents.step] at h
    split at h
    · cases h
      have hsub : (s.pending.map (·.2)).Sublist (allOf s) := List.sublist_append_right _ _
      refine ⟨hs.ids.sublist (hsub.map _), fun x hx => hs.fresh x (hsub.subset hx), hs.hashes.sublist (hsub.map _), hs.keys,
        hs.right, by simp, fun x hx => hs.sure x (hsub.subset hx), ?_, fun _ => rfl, hs.sound⟩
      intro _ h hh p hp
      obtain ⟨x, hx, rfl⟩ := List.mem_map.1 hh
      have := hs.hashes
      rw [allOf, List.map_append, List.nodup_append] at this
      exact (this.2.2 _ (List.mem_map.2 ⟨x, hx, rfl⟩) _ (List.mem_map.2 ⟨p.2, List.mem_map.2 ⟨p, hp, rfl⟩, rfl⟩)).symm
    · cases h; exact hs
  | crash =>
    cases h
    exact ⟨by simp [allOf], by simp [allOf], by simp [allOf], hs.keys, hs.right, by simp, by simp [allOf], by simp, fun _ => rfl, by simp⟩
  | file th i =>
    simp only [Torrents.step] at h
    split at h
    · cases h; exact hs
    · split at h
      next t ht => exact hs.merge (getTorrent_some ht).1 h
      next hn =>
        split at h
        · cases h; exact hs
        · cases h
          exact hs.pend (t := fromFile s.fresh i) rfl (by simp [fromFile]) (getTorrent_none hn) he.2 he.1
  | magnet th i =>
    simp only [Torrents.step] at h
    split at h
    · cases h; exact hs
    · split at h
      · cases h; exact hs
      next i =>
        split at h
        next t ht => exact hs.merge (getTorrent_some ht).1 h
        next hn =>
          cases h
          exact hs.pend (t := fromMagnet s.fresh i) rfl (by simp [fromMagnet]) (getTorrent_none hn) he.2 he.1
  | push th =>
    simp only [Torrents.step] at h
    split at h
    · cases h; exact hs
    next p hp =>
      have e : p.1 = th := by simpa using List.find?_some hp
      subst e
      exact hs.push (List.mem_of_find?_eq_some hp) h
  | remove g =>
    simp only [Torrents.step] at h
    have := hs.remove g
    rw [Res.ok.inj h] at this
    exact this
  | metadata id i =>
    simp only [Torrents.step] at h
    split at h
    · cases h; exact hs
    next t ht =>
      have hm := List.mem_of_find?_eq_some ht
      have hid : t.id = id := by simpa using List.find?_some ht
      split at h
      · cases h
        exact hs.update (t' := { t with full := true, known := true, info := { i with announce := t.info.announce } }) hm rfl
          (he t hm hid) (by simp) (by simp) (.inr (.inl rfl))
      · cases h; exact hs
  | load id =>
    simp only [Torrents.step] at h
    split at h
    · cases h; exact hs
    next t ht =>
      have hm := List.mem_of_find?_eq_some ht
      obtain ⟨r, h1, h⟩ := bindOkC h
      cases h
      obtain ⟨a, b, c, d, e, f⟩ := hs.load hm h1
      exact hs.update (fs := s.files) hm a b d e (.inl rfl)
  | disk g c =>
    obtain ⟨i, rfl, hi⟩ := he
    simp only [Torrents.step] at h
    cases h
    refine ⟨hs.ids, hs.fresh, hs.hashes, putFile_keys _ _ hs.keys, ?_, ?_, hs.sure, hs.list, hs.down, hs.sound⟩
    · intro h j hm
      rcases mem_putFile.1 hm with e | ⟨e, _⟩
      · cases e; exact hi
      · exact hs.right h j e
    · intro x hx hxf hxu
      by_cases hg : x.info.hash = g
      · exact ⟨i, mem_putFile.2 (.inl (by rw [hg]))⟩
      · obtain ⟨j, hj⟩ := hs.kept x hx hxf hxu
        exact ⟨j, mem_putFile.2 (.inr ⟨hj, hg⟩)⟩

theorem Inv.run {fake : Hash → Hash} : ∀ {evs : List Ev} {s s' : Sys}, Inv s → SoundRun fake s evs → run fake s evs = .ok s' → Inv s'
  | [], s, s', hs, _, h => by simp only [Torrents.run] at h; cases h; exact hs
  | e :: es, s, s', hs, hr, h => by
    simp only [Torrents.run] at h
    obtain ⟨⟨s1, o⟩, h1, h⟩ := bindOkC h
    exact Inv.run (hs.step hr.1 h1) (hr.2 s1 o h1) h

theorem inv_start : Inv {} :=
  ⟨by simp [allOf], by simp [allOf], by simp [allOf], by simp, by simp, by simp, by simp [allOf], by simp, by simp, by simp⟩

end Verif.Torrents
