import Verif.Proof.Core
import Verif.Proof.Trackers
import Verif.Spec.Trackers
/-!
C47: one torrent per info hash.

In a world without races, forged metadata and damaged state folders there is never more than one torrent per hash.
In every state a file or magnet of a known hash adds no torrent but brings its trackers to the one that is
there.  The failing corners are the `violated` theorems.
-/

namespace Verif
open Torrents Spec.Torrents

/-- C47 (partial: no two threads add the same hash at once, metadata and `.torrent` files have the hash they should
have, see `C47_race_violated`, `C47_metadata_violated`, `C47_missing_violated`): after every history there is at
most one torrent per hash. -/
theorem C47_unique_partial (fake : Hash → Hash) (evs : List Ev) (s : Sys) (hw : SoundRun fake {} evs) (h : run fake {} evs = .ok s) :
    OnePerHash s := by
  have := (Inv.run inv_start hw h).hashes
  rw [allOf, List.map_append] at this
  exact (List.nodup_append.1 this).1

/-- C47: adding a file whose hash is not there appends a torrent with what the file says, and nothing else changes
in the list; its `.torrent` file and its entry in the saved list are written. -/
theorem C47_new_file (fake : Hash → Hash) (s : Sys) (th : Nat) (i : Info) (hup : s.up = true) (hth : ∀ p ∈ s.pending, p.1 ≠ th)
    (hn : ∀ t ∈ s.torrents, t.info.hash ≠ i.hash) (hp : i.pieces ≠ 0) :
    ∃ s1 s2 t, step fake s (.file th i) = .ok (s1, none) ∧ s1.torrents = s.torrents ∧ step fake s1 (.push th) = .ok (s2, some (.success, some t.id)) ∧
      s2.torrents = s.torrents ++ [t] ∧ t.info = i ∧ t.trackers = Trackers.addTrackers [] i.announce ∧ s2.list = hashes s2 ∧ (i.hash, .good i) ∈ s2.files := by
  have h1 : (s.pending.any fun p => p.1 == th) = false := by simpa using hth
  have h2 : getTorrent s.torrents i.hash = none := by
    rw [getTorrent, List.find?_eq_none]; simpa using hn
  have h3 : (s.pending ++ [(th, fromFile s.fresh i)]).find? (fun p => p.1 == th) = some (th, fromFile s.fresh i) := by
    rw [List.find?_append, List.find?_eq_none.2 (by simpa using hth)]
    simp
  refine ⟨{ s with pending := s.pending ++ [(th, fromFile s.fresh i)], fresh := s.fresh + 1 },
    { s with pending := (s.pending ++ [(th, fromFile s.fresh i)]).filter fun q => q.1 != th, fresh := s.fresh + 1
             torrents := s.torrents ++ [fromFile s.fresh i], list := names (s.torrents ++ [fromFile s.fresh i])
             files := putFile s.files i.hash (.good i) },
    fromFile s.fresh i, ?_, ?_, ?_, ?_, rfl, rfl, ?_, ?_⟩
  · simp only [step, h1, h2, Bool.false_eq_true, if_false, hp]
  · rfl
  · simp only [step, h3, push, hup, if_true]
    rfl
  · rfl
  · rfl
  · exact mem_putFile.2 (.inl rfl)

/-- C47: the same for a magnet. -/
theorem C47_new_magnet (fake : Hash → Hash) (s : Sys) (th : Nat) (i : Info) (hup : s.up = true) (hth : ∀ p ∈ s.pending, p.1 ≠ th)
    (hn : ∀ t ∈ s.torrents, t.info.hash ≠ i.hash) :
    ∃ s1 s2 t, step fake s (.magnet th (some i)) = .ok (s1, none) ∧ s1.torrents = s.torrents ∧
      step fake s1 (.push th) = .ok (s2, some (.success, some t.id)) ∧
      s2.torrents = s.torrents ++ [t] ∧ t.info = i ∧ t.trackers = Trackers.addTrackers [] i.announce ∧ s2.list = hashes s2 ∧ s2.files = s.files := by
  have h1 : (s.pending.any fun p => p.1 == th) = false := by simpa using hth
  have h2 : getTorrent s.torrents i.hash = none := by
    rw [getTorrent, List.find?_eq_none]; simpa using hn
  have h3 : (s.pending ++ [(th, fromMagnet s.fresh i)]).find? (fun p => p.1 == th) = some (th, fromMagnet s.fresh i) := by
    rw [List.find?_append, List.find?_eq_none.2 (by simpa using hth)]
    simp
  refine ⟨{ s with pending := s.pending ++ [(th, fromMagnet s.fresh i)], fresh := s.fresh + 1 },
    { s with pending := (s.pending ++ [(th, fromMagnet s.fresh i)]).filter fun q => q.1 != th, fresh := s.fresh + 1
             torrents := s.torrents ++ [fromMagnet s.fresh i], list := names (s.torrents ++ [fromMagnet s.fresh i])
             files := s.files },
    fromMagnet s.fresh i, ?_, ?_, ?_, ?_, rfl, rfl, ?_, ?_⟩
  · simp only [step, h1, h2, Bool.false_eq_true, if_false]
  · rfl
  · simp only [step, h3, push, hup, if_true]
    rfl
  · rfl
  · rfl
  · rfl

/-- C47: a file without pieces, and a link that cannot be read, add nothing. -/
theorem C47_refused (fake : Hash → Hash) (s : Sys) (th : Nat) (i : Info) (hth : ∀ p ∈ s.pending, p.1 ≠ th) :
    (i.pieces = 0 → (∀ t ∈ s.torrents, t.info.hash ≠ i.hash) → step fake s (.file th i) = .ok (s, some (.invalidInput, none))) ∧
      step fake s (.magnet th none) = .ok (s, some (.invalidInput, none)) := by
  have h1 : (s.pending.any fun p => p.1 == th) = false := by simpa using hth
  refine ⟨fun hp hn => ?_, ?_⟩
  · have h2 : getTorrent s.torrents i.hash = none := by
      rw [getTorrent, List.find?_eq_none]; simpa using hn
    simp only [step, h1, h2, Bool.false_eq_true, if_false, hp, if_true]
  · simp only [step, h1, Bool.false_eq_true, if_false]

/-- C47: a listed torrent without name whose `.torrent` file is missing is left out at launch, and so is one without saved
state. -/
theorem C47_unnamed (fake : Hash → Hash) (saved : Hash → Saved) (s : Sys) (hu : s.up = false)
    (hs : ∀ h ∈ s.list, saved h = .absent ∨ (saved h = .unnamed ∧ ∀ f ∈ s.files, f.1 ≠ h)) :
    ∃ s', step fake s (.launch saved) = .ok (s', none) ∧ s'.torrents = [] := by
  have key : ∀ (hs : List Hash) (id : Nat), (∀ h ∈ hs, saved h = .absent ∨ (saved h = .unnamed ∧ ∀ f ∈ s.files, f.1 ≠ h)) →
      loadAll fake saved s.files hs id [] = .ok [] := by
    intro hs
    induction hs with
    | nil => intro id _; rfl
    | cons h hs ih =>
      intro id hh
      have e : fromSaved fake s.files id h (saved h) = .ok none := by
        rcases hh h (by simp) with k | ⟨k, hf⟩
        · rw [k]; rfl
        · have hn : fileOf s.files h = none := by
            simp only [fileOf, Option.map_eq_none_iff, List.find?_eq_none]
            intro f hm; simpa using hf f hm
          rw [k]
          simp [fromSaved, loadInfo, hn, Res.bind]
      simp only [loadAll, e, Res.bind]
      exact ih (id + 1) fun x hx => hh x (by simp [hx])
  refine ⟨_, by simp only [step, hu, Bool.false_eq_true, if_false, key s.list s.fresh hs, Res.bind]; rfl, rfl⟩

example : ∃ s', step id { list := [[1]], files := [([2], .good ⟨[2], 1, []⟩)] } (.launch fun _ => .unnamed) = .ok (s', none) ∧ s'.torrents = [] :=
  C47_unnamed _ _ _ rfl (by intro h hh; exact .inr ⟨rfl, by intro f hf; simp at hf hh; subst hf hh; decide⟩)

/-- C47: adding a file or magnet whose hash is there adds no torrent.  The call returns the torrent of that hash; the
others stay as they are.  If the torrent's info is in memory or being fetched, its announce list gets the new
addresses that can be used, in order and once each, and the result is Merged exactly if there are some; every address with a port, and every https address,
has a tracker afterwards unless it was in the announce list already; no tracker is lost. -/
theorem C47_merge (fake : Hash → Hash) (s s' : Sys) (th : Nat) (i : Info) (e : Ev) (o : Option (Status × Option Nat))
    (he : e = .file th i ∨ e = .magnet th (some i)) (hth : ∀ p ∈ s.pending, p.1 ≠ th) (hh : ∃ t ∈ s.torrents, t.info.hash = i.hash)
    (h : step fake s e = .ok (s', o)) :
    ∃ t t' st, t ∈ s.torrents ∧ t.info.hash = i.hash ∧ o = some (st, some t.id) ∧ t'.id = t.id ∧
      s'.torrents = s.torrents.map (fun x => if x.id = t.id then t' else x) ∧ s'.pending = s.pending ∧
      (t.full = true ∨ t.utm = true → t'.info.hash = t.info.hash ∧ t'.info.pieces = t.info.pieces ∧ ∃ new, t'.info.announce = t.info.announce ++ new ∧ (∀ u ∈ new, u ∈ i.announce ∧ u ∉ t.info.announce) ∧ new.Nodup ∧
        st = (if new = [] then .alreadyExists else .merged) ∧
        (∀ u ∈ i.announce, (Spec.place u).2 ≠ [] ∨ (Uri.parse u).protocol = ascii "https" →
          u ∈ t.info.announce ∨ ∃ x ∈ t'.trackers, (x.uri.host, x.uri.port) = Spec.place u) ∧
        ∀ x ∈ t.trackers, ∃ y ∈ t'.trackers, y.uri.host = x.uri.host ∧ y.uri.port = x.uri.port) := by
  have h1 : (s.pending.any fun p => p.1 == th) = false := by simpa using hth
  obtain ⟨t0, ht0, he0⟩ := hh
  have hsome : ∃ t, getTorrent s.torrents i.hash = some t := by
    refine Option.isSome_iff_exists.1 ?_
    rw [getTorrent, List.find?_isSome]
    exact ⟨t0, ht0, by simpa using he0⟩
  obtain ⟨t, ht⟩ := hsome
  obtain ⟨hm, hhash⟩ := getTorrent_some ht
  have h : merge fake s t i.announce = .ok (s', o) := by
    rcases he with rfl | rfl
    · simpa only [step, h1, Bool.false_eq_true, if_false, ht] using h
    · simpa only [step, h1, Bool.false_eq_true, if_false, ht] using h
  unfold merge importTrackers at h
  obtain ⟨r, h2, h⟩ := bindOkC h
  obtain ⟨l, h3, h2⟩ := bindOkC h2
  have hid : l.2.id = t.id := by
    unfold loadInfo at h3
    repeat' split at h3
    all_goals cases h3
    all_goals rfl
  generalize hlo : importLoop i.announce l.2.info.announce l.2.trackers false = lo at h2
  cases h2
  cases h
  refine ⟨t, { l.2 with info := { l.2.info with announce := lo.1 }, trackers := lo.2.1 },
    if lo.2.2 = true then .merged else .alreadyExists, hm, hhash, rfl, hid, ?_, rfl, ?_⟩
  · show Torrents.update _ _ = _
    rw [Torrents.update]
    refine List.map_congr_left fun x _ => ?_
    show (if x.id = l.2.id then _ else _) = _
    rw [hid]
  · intro hfull
    have hsame : l.2 = t := by
      unfold loadInfo at h3
      split at h3
      · cases h3; rfl
      next hf =>
        split at h3
        · cases h3; rfl
        next hu => rcases hfull with k | k <;> contradiction
    rw [hsame] at hlo ⊢
    obtain ⟨new, n1, n2, n4, n3⟩ := importLoop_spec i.announce t.info.announce t.trackers false
    rw [hlo] at n1 n3
    refine ⟨rfl, rfl, new, n1, n2, n4, ?_, ?_, ?_⟩
    · by_cases hn : new = []
      · have : lo.2.2 = false := by simpa [hn] using n3
        simp [hn, this]
      · have : lo.2.2 = true := n3.2 (.inr hn)
        simp [hn, this]
    · intro u hu hok
      rcases importLoop_present i.announce t.info.announce t.trackers false u hu hok with k | ⟨y, hy, e1, e2⟩
      · exact .inl k
      · rw [hlo] at hy
        exact .inr ⟨y, hy, by rw [e1, e2]; rfl⟩
    · intro x hx
      have := importLoop_keeps i.announce t.info.announce t.trackers false x hx
      rw [hlo] at this
      exact this

/-- C47: removing returns Success exactly if a torrent of the hash is there, and takes one out; the others keep
their order.  Otherwise nothing changes. -/
theorem C47_remove (fake : Hash → Hash) (s : Sys) (h : Hash) :
    ∃ s' st, step fake s (.remove h) = .ok (s', some (st, none)) ∧
      (((∀ t ∈ s.torrents, t.info.hash ≠ h) ∧ st = .invalidInput ∧ s' = s) ∨
        (st = .success ∧ s'.list = hashes s' ∧ (∀ c, (h, c) ∉ s'.files) ∧
          ∃ l t r, s.torrents = l ++ t :: r ∧ t.info.hash = h ∧ s'.torrents = l ++ r)) := by
  rcases remove_cases s h with ⟨e, hn⟩ | ⟨l, t, r, h1, h2, h3, e⟩
  · exact ⟨s, _, by rw [step, e], .inl ⟨hn, rfl, rfl⟩⟩
  · refine ⟨_, _, by rw [step, e], .inr ⟨rfl, rfl, ?_, l, t, r, h1, h2, rfl⟩⟩
    intro c hc
    exact (mem_dropFile.1 hc).2 rfl

/-- C47 (partial, conditions as in `C47_unique_partial`): after a removal that succeeded no torrent has the hash. -/
theorem C47_removed_partial (fake : Hash → Hash) (evs : List Ev) (s s' : Sys) (h : Hash) (hw : SoundRun fake {} evs) (hr : run fake {} evs = .ok s)
    (he : step fake s (.remove h) = .ok (s', some (.success, none))) : ∀ t ∈ s'.torrents, t.info.hash ≠ h := by
  have hu := C47_unique_partial fake evs s hw hr
  unfold OnePerHash hashes at hu
  obtain ⟨s1, st, e1, k⟩ := C47_remove fake s h
  rw [e1] at he
  cases he
  rcases k with ⟨_, k, _⟩ | ⟨_, _, _, l, t, r, k1, k2, k3⟩
  · cases k
  · rw [k1, List.map_append, List.map_cons, List.nodup_append, List.nodup_cons] at hu
    rw [k3]
    intro x hx e
    rcases List.mem_append.1 hx with hx | hx
    · exact hu.2.2 _ (List.mem_map.2 ⟨x, hx, rfl⟩) _ (.head _) (e.trans k2.symm)
    · exact hu.2.1.1 (List.mem_map.2 ⟨x, hx, e.trans k2.symm⟩)

/-- C47 (partial, conditions as in `C47_unique_partial`): if the client is ended and launched again and the state
folder has all files, the same torrents are there in the same order. -/
theorem C47_restart_partial (fake : Hash → Hash) (evs : List Ev) (s s1 s2 : Sys) (saved : Hash → Saved) (o1 o2 : Option (Status × Option Nat))
    (hw : SoundRun fake {} evs) (hr : run fake {} evs = .ok s) (hup : s.up = true) (hq : step fake s .quit = .ok (s1, o1))
    (hl : step fake s1 (.launch saved) = .ok (s2, o2)) (hs : SoundEv s1 (.launch saved)) (ha : ∀ t ∈ s.torrents, saved t.info.hash ≠ .absent) :
    hashes s2 = hashes s := by
  have hi := Inv.run inv_start hw hr
  have hu := C47_unique_partial fake evs s hw hr
  simp only [step, hup, if_true] at hq
  cases hq
  simp only [step, Bool.false_eq_true, if_false] at hl
  obtain ⟨ts, h1, hl⟩ := bindOkC hl
  cases hl
  have := (loadAll_sound hi.keys hi.right hs (by simp) (by simp) (by simp) h1).2.2.2.2 (by
    intro h hh
    obtain ⟨t, ht, rfl⟩ := List.mem_map.1 hh
    exact ha t ht) (by simpa [names, OnePerHash, hashes] using hu)
  simpa [hashes, names] using this

/-! ### Where it fails -/

private def hA : Hash := List.replicate 20 1
private def hB : Hash := List.replicate 20 2
private def hF : Hash := List.replicate 20 3
private def tA : List UInt8 := ascii "udp://a.org:80"
private def tB : List UInt8 := ascii "udp://b.org:80"

/-- Two threads add the same file at the same time: both find nothing, both append. -/
theorem C47_race_violated :
    ∃ s, run id {} [.launch fun _ => .absent, .file 1 ⟨hA, 1, [tA]⟩, .file 2 ⟨hA, 1, [tA]⟩, .push 1, .push 2] = .ok s ∧ hashes s = [hA, hA] :=
  ⟨_, rfl, rfl⟩

/-- A peer answers the request for the metadata of a magnet with the info dictionary of another torrent that is
there: the magnet takes its hash (see C22). -/
theorem C47_metadata_violated :
    ∃ s, run id {} [.launch fun _ => .absent, .file 1 ⟨hA, 1, [tA]⟩, .push 1, .magnet 1 (some ⟨hB, 0, []⟩), .push 1, .metadata 1 ⟨hA, 1, []⟩] = .ok s ∧
      hashes s = [hA, hA] :=
  ⟨_, rfl, rfl⟩

/-- The `.torrent` file of a torrent is lost.  Adding the file again, with a further tracker, returns Merged, but what is
written has an info dictionary without pieces, so after the next start the torrent has another hash, and
adding the file adds a second torrent. -/
theorem C47_missing_violated :
    ∃ s, run (fun _ => hF) {} [.launch fun _ => .absent, .file 1 ⟨hA, 1, [tA]⟩, .push 1, .quit, .disk hA none, .launch fun _ => .plain] = .ok s ∧
      hashes s = [hA] ∧
      ∃ s1, step (fun _ => hF) s (.file 1 ⟨hA, 1, [tA, tB]⟩) = .ok (s1, some (.merged, some 1)) ∧
      ∃ s2, run (fun _ => hF) s1 [.quit, .launch fun _ => .started] = .ok s2 ∧ hashes s2 = [hF] ∧
      ∃ s3, run (fun _ => hF) s2 [.file 1 ⟨hA, 1, [tA]⟩, .push 1] = .ok s3 ∧ hashes s3 = [hF, hA] :=
  ⟨_, rfl, rfl, _, rfl, _, rfl, rfl, _, rfl, rfl⟩

/-- Data that is no torrent file has the hash 0, and is taken for the torrent with that hash if there is one. -/
theorem C47_garbage_violated :
    ∃ s s', run id {} [.launch fun _ => .absent, .magnet 1 (some ⟨List.replicate 20 0, 0, []⟩), .push 1] = .ok s ∧
      step id s (.file 1 ⟨List.replicate 20 0, 0, []⟩) = .ok (s', some (.alreadyExists, some 0)) :=
  ⟨_, _, rfl, rfl⟩

/-! ### The hypotheses can be met -/

example : ∃ s, run id {} [.launch fun _ => .absent, .file 1 ⟨hA, 1, [tA]⟩, .push 1, .magnet 2 (some ⟨hB, 0, [tB]⟩), .push 2, .metadata 1 ⟨hB, 1, []⟩] = .ok s ∧
    SoundRun id {} [.launch fun _ => .absent, .file 1 ⟨hA, 1, [tA]⟩, .push 1, .magnet 2 (some ⟨hB, 0, [tB]⟩), .push 2, .metadata 1 ⟨hB, 1, []⟩] ∧
    hashes s = [hA, hB] ∧ s.up = true ∧ s.pending = [] := by
  refine ⟨_, rfl, ?_, rfl, rfl, rfl⟩
  refine ⟨(by intro h hh; cases hh), fun s o e => ?_⟩
  cases e
  refine ⟨⟨rfl, (by intro p hp; cases hp)⟩, fun s o e => ?_⟩
  cases e
  refine ⟨trivial, fun s o e => ?_⟩
  cases e
  refine ⟨⟨rfl, (by intro p hp; cases hp)⟩, fun s o e => ?_⟩
  cases e
  refine ⟨trivial, fun s o e => ?_⟩
  cases e
  refine ⟨(by simp only [SoundEv]; decide +kernel), fun s o e => trivial⟩

/-- A duplicate of a loaded torrent, with a new tracker and an old one. -/
example : ∃ s s', run id {} [.launch fun _ => .absent, .file 1 ⟨hA, 1, [tA]⟩, .push 1] = .ok s ∧ (∃ t ∈ s.torrents, t.info.hash = hA ∧ t.full = true) ∧
    step id s (.magnet 1 (some ⟨hA, 0, [tA, tB]⟩)) = .ok (s', some (.merged, some 0)) :=
  ⟨_, _, rfl, by decide, rfl⟩

example : ∃ s s' s1 s2, run id {} [.launch fun _ => .absent, .file 1 ⟨hA, 1, [tA]⟩, .push 1] = .ok s ∧
    step id s (.remove hA) = .ok (s', some (.success, none)) ∧ step id s .quit = .ok (s1, none) ∧
    step id s1 (.launch fun _ => .plain) = .ok (s2, none) ∧ SoundEv s1 (.launch fun _ => .plain) := by
  refine ⟨_, _, _, _, rfl, rfl, rfl, rfl, ?_⟩
  intro h hh _
  rw [List.mem_singleton.1 hh]
  exact ⟨⟨hA, 1, [tA]⟩, .head _⟩

end Verif
