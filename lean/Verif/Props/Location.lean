import Verif.Proof.Location

/-! C90: the files of a torrent lie below its location.  C91: moving a torrent moves its files.  C92: deleting a torrent's files deletes these
and nothing else.  C93: the room a torrent still needs. -/

namespace Verif
open Location Spec.Location

/-! ### C90 -/

/-- The files of a torrent whose names are names lie below the location of the torrent, at the place the torrent file says.
Missing for the full property: names like ".." or with a separator, which torrent files may hold (`C90_up_violated`). -/
theorem C90_below_partial (f : Metafile.FileName) (hf : Named f) (p : List UInt8) (h : ∀ c ∈ p, c ≠ 0) :
    fullPath f p = resolve p ++ f.path ++ [f.name] :=
  full_place hf h

/-! Non-vacuity. -/
example : fullPath ⟨ascii "f", [ascii "n", ascii "d"]⟩ (ascii "/a/b") = [ascii "a", ascii "b", ascii "n", ascii "d", ascii "f"] := by
  decide +kernel

/-- Two files with names lie at the same place only if they have the same names.  Missing as in `C90_below_partial`
(`C90_same_violated`). -/
theorem C90_distinct_partial (f g : Metafile.FileName) (hf : Named f) (hg : Named g) (p : List UInt8) (h : ∀ c ∈ p, c ≠ 0)
    (he : fullPath f p = fullPath g p) : f = g := by
  rw [full_place hf h, full_place hg h, List.append_assoc, List.append_assoc, List.append_cancel_left_eq] at he
  have h1 := congrArg List.getLast? he
  simp at h1
  have h2 := congrArg List.dropLast he
  simp at h2
  cases f; cases g
  simp only [Metafile.FileName.mk.injEq]
  exact ⟨h1, h2⟩

/-! Non-vacuity: there are files with names. -/
example : Named ⟨ascii "f", [ascii "n"]⟩ := by simp [Named, Plain, ascii]

/-- The location given at the start is the same place as the location kept, which ends with a separator.  A backslash in it is taken for a separator. -/
theorem C90_location_partial (p : List UInt8) (h : ∀ c ∈ p, c ≠ 0 ∧ c ≠ 92) : resolve (init p) = resolve p ∧ Location (init p) := by
  have hm : p.map (fun c => if c = 92 then 47 else c) = p := by
    refine (List.map_congr_left ?_).trans (List.map_id p)
    intro c hc
    rw [if_neg (h c hc).2]; rfl
  rw [init, hm]
  exact ⟨slash_resolve (fun c hc => (h c hc).1), slash_location (fun c hc => (h c hc).1)⟩

/-! Non-vacuity. -/
example : init (ascii "/a\\b") = ascii "/a/b/" := by decide +kernel

/-- A torrent file with a path of "..": its file lies above the location of the torrent.  Likewise with a separator in a name. -/
theorem C90_up_violated :
    (Metafile.parse 1000 id (ascii "d4:infod5:filesld6:lengthi5e4:pathl2:..2:..3:etceee4:name1:x12:piece lengthi16e6:pieces0:ee") [0]).map'
      (fun m => m.info.files.map (fun f => fullPath f (ascii "/home/dl"))) = .ok [[ascii "home", ascii "etc"]] ∧
    (Metafile.parse 1000 id (ascii "d4:infod6:lengthi5e4:name6:../etc12:piece lengthi16e6:pieces0:ee") [0]).map'
      (fun m => m.info.files.map (fun f => fullPath f (ascii "/home/dl"))) = .ok [[ascii "home", ascii "etc"]] := by
  decide +kernel

/-- Two files of a torrent at the same place: one overwrites the other. -/
theorem C90_same_violated :
    fullPath ⟨ascii "f", [ascii "n"]⟩ (ascii "/a/") = fullPath ⟨ascii "f", [ascii "n", ascii "."]⟩ (ascii "/a/") ∧
    fullPath ⟨ascii "f", [ascii "n"]⟩ (ascii "/a/") = fullPath ⟨ascii "n/f", []⟩ (ascii "/a/") := by
  decide +kernel

/-! ### C91 -/

/-- Moving to a folder that is there: if the answer is success, everything of the torrent that was at the old location is at the new one, with
its contents, and no longer at the old one if the places differ; nothing else changes.
Missing for the full property: torrents of one file, which are hardly ever moved (`C91_single_violated`), and folders that are not there
(`C91_new_violated`). -/
theorem C91_moved_partial (fs fs' : Fs) (ht : Tree fs) (st st' : Storage) (p : List UInt8) (hp : ∀ c ∈ p, c ≠ 0) (hl : Location st.path)
    (hn : Plain st.name) (hd : folderThere fs (slash p) = true) (hf : st.files ≠ []) (hne : st.path ≠ slash p)
    (h : setPath fs st p true = (.success, fs', st')) :
    st' = { st with path := slash p } ∧
    (∀ f ∈ st.files, Named f → Rooted st f → ∀ x, get fs (fullPath f st.path) = some x → get fs' (fullPath f st'.path) = some x) ∧
    (resolve st.path ≠ resolve p → ∀ r, get fs' (resolve st.path ++ st.name :: r) = none) ∧
    (∀ q, ¬ (resolve p ++ [st.name]) <+: q → ¬ (resolve st.path ++ [st.name]) <+: q → get fs' q = get fs q) := by
  have hsl := slash_location hp
  have hsr := slash_resolve hp
  unfold setPath relocate at h
  rw [if_neg hne, if_pos hd, if_pos (by simp [hf])] at h
  unfold moveFiles at h
  rw [root_place hn hsl, root_place hn hl, hsr] at h
  by_cases htk : taken fs st (resolve p ++ [st.name])
  · rw [if_pos htk] at h; simp at h
  · rw [if_neg htk] at h
    have hfile : ∀ f ∈ st.files, Named f → Rooted st f → ∃ r, fullPath f st.path = resolve st.path ++ [st.name] ++ r ∧
        fullPath f (slash p) = resolve p ++ [st.name] ++ r := by
      intro f hfm hfn ⟨r, hr⟩
      refine ⟨r, ?_, ?_⟩
      · rw [full_place hfn hl.1, List.append_assoc, hr]; simp
      · rw [full_place hfn hsl.1, hsr, List.append_assoc, hr]; simp
    by_cases hpr : present fs (resolve st.path ++ [st.name])
    · rw [if_pos hpr] at h
      cases hre : rename fs (resolve st.path ++ [st.name]) (resolve p ++ [st.name]) with
      | none => rw [hre] at h; simp at h
      | some fs2 =>
        rw [hre] at h
        simp only [Prod.mk.injEq, true_and] at h
        obtain ⟨rfl, rfl⟩ := h
        obtain ⟨h1, h2, h3⟩ := rename_spec ht hre
        refine ⟨rfl, ?_, ?_, h2⟩
        · intro f hfm hfn hfr x hx
          obtain ⟨r, e1, e2⟩ := hfile f hfm hfn hfr
          rw [e1] at hx
          show get fs2 (fullPath f (slash p)) = some x
          rw [e2, h1]; exact hx
        · intro hdf r
          have := h3 (by intro he; exact hdf (List.append_cancel_right he)) r
          simpa using this
    · rw [if_neg hpr] at h
      simp only [Prod.mk.injEq, true_and] at h
      obtain ⟨rfl, rfl⟩ := h
      have hnone : get fs (resolve st.path ++ [st.name]) = none := by
        cases hg : get fs (resolve st.path ++ [st.name]) with
        | none => rfl
        | some x => exfalso; apply hpr; simp [present, hg]
      have hall : ∀ r, get fs (resolve st.path ++ [st.name] ++ r) = none := by
        intro r
        by_cases hr : r = []
        · subst hr; simpa using hnone
        · cases hg : get fs (resolve st.path ++ [st.name] ++ r) with
          | none => rfl
          | some x =>
            have := above_dir ht _ r (by rw [hg]; simp) hr
            rw [hnone] at this; simp at this
      refine ⟨rfl, ?_, ?_, fun _ _ _ => rfl⟩
      · intro f hfm hfn hfr x hx
        obtain ⟨r, e1, e2⟩ := hfile f hfm hfn hfr
        rw [e1, hall] at hx; simp at hx
      · intro _ r
        have := hall r
        simpa using this

/-- A torrent of more than one file is moved to a folder that is there if there is nothing by its name or an empty folder, and the folder is not
inside of what is moved. -/
theorem C91_moves_partial (fs : Fs) (st : Storage) (p : List UInt8) (hp : ∀ c ∈ p, c ≠ 0) (hl : Location st.path)
    (hn : Plain st.name) (hd : folderThere fs (slash p) = true) (hf : 1 < st.files.length)
    (hfree : get fs (resolve p ++ [st.name]) = none ∨
      get fs (resolve p ++ [st.name]) = some .dir ∧ (∀ q r x, get fs (resolve p ++ st.name :: q :: r) ≠ some x) ∧
        ∀ c, get fs (resolve st.path ++ [st.name]) ≠ some (.file c))
    (hin : ¬ (resolve st.path ++ [st.name]) <+: resolve p) :
    (setPath fs st p true).1 = .success ∧ (setPath fs st p true).2.2 = { st with path := slash p } := by
  have hsl := slash_location hp
  have hsr := slash_resolve hp
  unfold setPath
  by_cases hne : st.path = slash p
  · rw [if_pos hne]
    exact ⟨rfl, by cases st; simp only at hne; rw [hne]⟩
  · rw [if_neg hne]
    have hm : ∃ fs', moveFiles fs st (slash p) = (.success, fs') := by
      unfold moveFiles
      rw [root_place hn hsl, root_place hn hl, hsr]
      have hem : ∀ q r x, (∀ q r x, get fs (resolve p ++ st.name :: q :: r) ≠ some x) → (x, r) ∈ fs → q = resolve p ++ [st.name] → inside q x = false := by
        intro q r x he hm hq
        cases hb : inside q x with
        | false => rfl
        | true =>
          unfold inside at hb
          simp only [Bool.and_eq_true, decide_eq_true_eq] at hb
          obtain ⟨t, ht⟩ := List.isPrefixOf_iff_prefix.1 hb.1
          cases t with
          | nil => rw [← ht] at hb; simp at hb
          | cons a t =>
            exfalso
            have hx : x = resolve p ++ st.name :: a :: t := by rw [← ht, hq]; simp
            obtain ⟨y, hy⟩ := get_of_mem hm
            exact he a t y (by rw [← hx]; exact hy)
      have hie : get fs (resolve p ++ [st.name]) = some .dir → (∀ q r x, get fs (resolve p ++ st.name :: q :: r) ≠ some x) →
          isEmpty fs (resolve p ++ [st.name]) = true := by
        intro hg he
        unfold isEmpty
        rw [hg]
        simp only [Bool.not_eq_true', List.any_eq_false]
        rintro ⟨x, r⟩ hm
        simp [hem _ r x he hm rfl]
      rw [if_neg (by
        unfold taken; rw [if_neg (by omega)]
        rcases hfree with hfree | ⟨h1, h2, -⟩
        · simp [present, hfree]
        · simp [hie h1 h2])]
      by_cases hpr : present fs (resolve st.path ++ [st.name])
      · rw [if_pos hpr]
        have hmay : mayRename fs (resolve st.path ++ [st.name]) (resolve p ++ [st.name]) = true := by
          have hdd : get fs (resolve p) = some .dir := by
            unfold folderThere at hd
            simp only [Bool.and_eq_true, decide_eq_true_eq] at hd
            rw [hsr] at hd; exact hd.2
          have hins : inside (resolve st.path ++ [st.name]) (resolve p ++ [st.name]) = false := by
            cases hb : inside (resolve st.path ++ [st.name]) (resolve p ++ [st.name]) with
            | false => rfl
            | true =>
              unfold inside at hb
              simp only [Bool.and_eq_true, decide_eq_true_eq] at hb
              obtain ⟨hb1, hb2⟩ := hb
              have hb1 := List.isPrefixOf_iff_prefix.1 hb1
              exfalso; apply hin
              refine List.prefix_of_prefix_length_le hb1 (List.prefix_append _ _) ?_
              simp at hb2 ⊢; omega
          unfold mayRename
          rw [hins]
          unfold present at hpr
          cases hg : get fs (resolve st.path ++ [st.name]) with
          | none => rw [hg] at hpr; simp at hpr
          | some x =>
            rcases hfree with hfree | ⟨h1, h2, h3⟩
            · rw [hfree]; simp [hdd]
            · rw [h1]
              cases x with
              | dir => simp [hdd, hie h1 h2]
              | file c => exact absurd hg (h3 c)
        have hren : ∃ fs', rename fs (resolve st.path ++ [st.name]) (resolve p ++ [st.name]) = some fs' := by
          unfold rename
          by_cases hc : resolve st.path ++ [st.name] = resolve p ++ [st.name] ∧ present fs (resolve st.path ++ [st.name]) = true
          · rw [if_pos hc]; exact ⟨_, rfl⟩
          · rw [if_neg hc, if_pos hmay]; exact ⟨_, rfl⟩
        obtain ⟨fs', hren⟩ := hren
        rw [hren]
        exact ⟨_, rfl⟩
      · rw [if_neg hpr]; exact ⟨_, rfl⟩
    obtain ⟨fs', hm⟩ := hm
    have : relocate fs st (slash p) true = (.success, fs') := by
      unfold relocate
      rw [if_pos hd, if_pos (by simp; intro h0; rw [h0] at hf; simp at hf), hm]
    rw [this]
    exact ⟨rfl, rfl⟩

/-- A torrent of more than one file is not moved if something is in the folder of its name: the answer is that the place is taken, nothing
changes. -/
theorem C91_occupied_partial (fs : Fs) (st : Storage) (p : List UInt8) (hp : ∀ c ∈ p, c ≠ 0) (hn : Plain st.name)
    (hd : folderThere fs (slash p) = true) (hf : 1 < st.files.length) (hne : st.path ≠ slash p)
    (h1 : get fs (resolve p ++ [st.name]) = some .dir) (q : List UInt8) (r : Place) (x : Node)
    (h2 : get fs (resolve p ++ st.name :: q :: r) = some x) : setPath fs st p true = (.notEmpty, fs, st) := by
  have hm : moveFiles fs st (slash p) = (.notEmpty, fs) := by
    unfold moveFiles
    rw [root_place hn (slash_location hp), slash_resolve hp, if_pos]
    unfold taken
    rw [if_neg (by omega)]
    simp only [present, h1, isEmpty, Option.isSome_some, Bool.not_not, Bool.true_and, List.any_eq_true]
    refine ⟨_, get_mem (by simp) h2, ?_⟩
    unfold inside
    simp only [Bool.and_eq_true, decide_eq_true_eq]
    exact ⟨List.isPrefixOf_iff_prefix.2 ⟨q :: r, by simp⟩, by simp⟩
  unfold setPath relocate
  rw [if_neg hne, if_pos hd, if_pos (by simp; intro h0; rw [h0] at hf; simp at hf), hm]

/-! Non-vacuity. -/
example : setPath [([ascii "a"], .dir), ([ascii "b"], .dir), ([ascii "b", ascii "n"], .dir), ([ascii "b", ascii "n", ascii "f"], .file [1])]
    ⟨ascii "/a/", ascii "n", [⟨ascii "f", [ascii "n"]⟩, ⟨ascii "g", [ascii "n"]⟩]⟩ (ascii "/b") true =
      (.notEmpty, [([ascii "a"], .dir), ([ascii "b"], .dir), ([ascii "b", ascii "n"], .dir), ([ascii "b", ascii "n", ascii "f"], .file [1])],
        ⟨ascii "/a/", ascii "n", [⟨ascii "f", [ascii "n"]⟩, ⟨ascii "g", [ascii "n"]⟩]⟩) := by
  decide +kernel

/-- If the location cannot be changed nothing changes. -/
theorem C91_failed_partial (fs : Fs) (st : Storage) (p : List UInt8) (move : Bool) (h : (setPath fs st p move).1 ≠ .success) :
    (setPath fs st p move).2 = (fs, st) := by
  have hr : (relocate fs st (slash p) move).1 ≠ .success → (relocate fs st (slash p) move).2 = fs := by
    unfold relocate moveFiles
    intro h
    repeat' split
    all_goals first | rfl | skip
    all_goals simp_all
  unfold setPath at h ⊢
  split
  · rfl
  · rename_i hne
    rw [if_neg hne] at h
    rcases hrl : relocate fs st (slash p) move with ⟨s, fs'⟩
    rw [hrl] at h hr
    cases s with
    | success => simp at h
    | invalidPath => simp only at hr ⊢; rw [hr (by simp)]
    | notEmpty => simp only at hr ⊢; rw [hr (by simp)]
    | allocationProblem => simp only at hr ⊢; rw [hr (by simp)]

/-- Without moving nothing that was there is lost or changed. -/
theorem C91_kept_partial (fs : Fs) (st : Storage) (p : List UInt8) :
    ∀ q x, get fs q = some x → get (setPath fs st p false).2.1 q = some x := by
  intro q x hx
  have hr : get (relocate fs st (slash p) false).2 q = some x := by
    unfold relocate
    split
    · simpa using hx
    · split
      · rename_i h; exact createPath_keeps h q x hx
      · exact hx
  unfold setPath
  split
  · exact hx
  · split
    · rename_i h; rw [h] at hr; exact hr
    · rename_i h; rw [h] at hr; exact hr

/-- Non-vacuity: a folder with two files is moved. -/
example : setPath [([ascii "a"], .dir), ([ascii "b"], .dir), ([ascii "a", ascii "n"], .dir), ([ascii "a", ascii "n", ascii "f"], .file [1])]
    ⟨ascii "/a/", ascii "n", [⟨ascii "f", [ascii "n"]⟩, ⟨ascii "g", [ascii "n"]⟩]⟩ (ascii "/b") true =
      (.success, [([ascii "a"], .dir), ([ascii "b"], .dir), ([ascii "b", ascii "n"], .dir), ([ascii "b", ascii "n", ascii "f"], .file [1])],
        ⟨ascii "/b/", ascii "n", [⟨ascii "f", [ascii "n"]⟩, ⟨ascii "g", [ascii "n"]⟩]⟩) := by
  decide +kernel

/-- A torrent of one file is never moved to a folder that has no such file yet: the answer is that the place is taken (the size of a file that is
not there is all ones). -/
theorem C91_single_violated (fs : Fs) (st : Storage) (p : List UInt8) (h1 : st.files.length = 1) (hd : folderThere fs (slash p) = true)
    (hne : st.path ≠ slash p) (hfree : get fs (rootPath st.name (slash p)) = none) :
    setPath fs st p true = (.notEmpty, fs, st) := by
  have hm : relocate fs st (slash p) true = (.notEmpty, fs) := by
    unfold relocate moveFiles
    rw [if_pos hd, if_pos (by simp; intro h0; rw [h0] at h1; simp at h1), if_pos]
    unfold taken
    rw [if_pos h1]
    simp [fileSize, hfree]
  unfold setPath
  rw [if_neg hne, hm]

/-! Non-vacuity. -/
example : setPath [([ascii "a"], .dir), ([ascii "b"], .dir), ([ascii "a", ascii "f"], .file [1])]
    ⟨ascii "/a/", ascii "f", [⟨ascii "f", []⟩]⟩ (ascii "/b") true =
      (.notEmpty, [([ascii "a"], .dir), ([ascii "b"], .dir), ([ascii "a", ascii "f"], .file [1])], ⟨ascii "/a/", ascii "f", [⟨ascii "f", []⟩]⟩) := by
  decide +kernel

/-- Moving to a folder that is not there: it is made and the answer is success, but the files stay where they were. -/
theorem C91_new_violated :
    setPath [([ascii "a"], .dir), ([ascii "a", ascii "n"], .dir), ([ascii "a", ascii "n", ascii "f"], .file [1])]
      ⟨ascii "/a/", ascii "n", [⟨ascii "f", [ascii "n"]⟩, ⟨ascii "g", [ascii "n"]⟩]⟩ (ascii "/b/c") true =
        (.success,
          [([ascii "b", ascii "c"], .dir), ([ascii "b"], .dir),
            ([ascii "a"], .dir), ([ascii "a", ascii "n"], .dir), ([ascii "a", ascii "n", ascii "f"], .file [1])],
          ⟨ascii "/b/c/", ascii "n", [⟨ascii "f", [ascii "n"]⟩, ⟨ascii "g", [ascii "n"]⟩]⟩) := by
  decide +kernel

/-! ### C92 -/

/-- After deleting there is no file at the place of any of the torrent's files. -/
theorem C92_gone_partial (fs : Fs) (st : Storage) : ∀ f ∈ st.files, ∀ c, get (deleteAll fs st) (fullPath f st.path) ≠ some (.file c) := by
  intro f hf c h
  unfold deleteAll at h
  dsimp only at h
  split at h
  · by_cases hq : fullPath f st.path = []
    · rw [hq] at h; simp [Verif.Location.get] at h
    · rw [removeAll_get _ _ _ hq] at h
      split at h
      · simp at h
      · exact removes_gone st.files st.path fs f hf c h
  · exact removes_gone st.files st.path fs f hf c h

/-- Deleting a torrent of more files removes its folder. -/
theorem C92_folder_partial (fs : Fs) (st : Storage) (hl : Location st.path) (hn : Plain st.name) (hf : 1 < st.files.length) :
    ∀ r, get (deleteAll fs st) (resolve st.path ++ st.name :: r) = none := by
  intro r
  unfold deleteAll
  dsimp only
  rw [if_pos hf, removeAll_get _ _ _ (by simp), root_place hn hl, if_pos]
  exact ⟨r, by simp⟩

/-- Deleting removes nothing but what lies at the places of the torrent's files and, for more files, in the folder by the torrent's name.
Missing for the full property: other files in this folder (`C92_foreign_violated`), names that are no names (`C92_noname_violated`,
`C92_up_violated`), the folder of a torrent of one file (`C92_left_violated`). -/
theorem C92_others_partial (fs : Fs) (st : Storage) (hl : Location st.path) (hn : Plain st.name) (q : Place)
    (h1 : ∀ f ∈ st.files, q ≠ fullPath f st.path) (h2 : 1 < st.files.length → ¬ (resolve st.path ++ [st.name]) <+: q) :
    get (deleteAll fs st) q = get fs q := by
  have hr := removes_other st.files st.path fs q h1
  unfold deleteAll
  dsimp only
  split
  · rename_i hf
    by_cases hq : q = []
    · rw [hq]; rfl
    · rw [removeAll_get _ _ _ hq, root_place hn hl, if_neg (h2 hf)]
      exact hr
  · exact hr

/-! Non-vacuity: one of two files in the location is of the torrent. -/
example : get (deleteAll [([ascii "f"], .file [1]), ([ascii "g"], .file [2])] ⟨ascii "/", ascii "f", [⟨ascii "f", []⟩]⟩) [ascii "f"] = none ∧
    get (deleteAll [([ascii "f"], .file [1]), ([ascii "g"], .file [2])] ⟨ascii "/", ascii "f", [⟨ascii "f", []⟩]⟩) [ascii "g"] = some (.file [2]) := by
  decide +kernel

/-- Every file in the folder of the torrent is deleted, whether it is one of the torrent's or not. -/
theorem C92_foreign_violated (fs : Fs) (st : Storage) (hl : Location st.path) (hn : Plain st.name) (hf : 1 < st.files.length)
    (f : Metafile.FileName) (h : Named f) (hr : Rooted st f) : get (deleteAll fs st) (fullPath f st.path) = none := by
  obtain ⟨r, hr⟩ := hr
  rw [full_place h hl.1, List.append_assoc, hr]
  exact C92_folder_partial fs st hl hn hf r

/-! Non-vacuity: a file of the user. -/
example : get (deleteAll [([ascii "n"], .dir), ([ascii "n", ascii "mine"], .file [2])]
    ⟨ascii "/", ascii "n", [⟨ascii "f", [ascii "n"]⟩, ⟨ascii "g", [ascii "n"]⟩]⟩) [ascii "n", ascii "mine"] = none := by decide +kernel

/-- Deleting a torrent without a name that has more files deletes everything at its location. -/
theorem C92_noname_violated (fs : Fs) (st : Storage) (hn : st.name = []) (hf : 1 < st.files.length) :
    ∀ r, resolve st.path ++ r ≠ [] → get (deleteAll fs st) (resolve st.path ++ r) = none := by
  intro r hr
  unfold deleteAll
  dsimp only
  rw [if_pos hf, removeAll_get _ _ _ hr, if_pos]
  rw [rootPath, hn, List.append_nil]
  exact List.prefix_append _ _

/-! Non-vacuity. -/
example : get (deleteAll [([ascii "a"], .dir), ([ascii "a", ascii "mine"], .file [2])]
    ⟨ascii "/a/", [], [⟨ascii "f", [[]]⟩, ⟨ascii "g", [[]]⟩]⟩) [ascii "a", ascii "mine"] = none := by decide +kernel

/-- Deleting a torrent by the name of "..", which is read from its file, deletes what is beside its location. -/
theorem C92_up_violated :
    (Metafile.parse 1000 id (ascii "d4:infod5:filesld6:lengthi5e4:pathl1:aeed6:lengthi5e4:pathl1:beee4:name2:..12:piece lengthi16e6:pieces0:ee") [0]).map'
      (fun m => get (deleteAll [([ascii "home"], .dir), ([ascii "home", ascii "dl"], .dir), ([ascii "home", ascii "mine"], .file [1])]
        ⟨ascii "/home/dl/", m.info.name, m.info.files⟩) [ascii "home", ascii "mine"]) = .ok none := by
  decide +kernel

/-- The folder of a torrent of one file stays. -/
theorem C92_left_violated :
    get (deleteAll [([ascii "n"], .dir), ([ascii "n", ascii "f"], .file [2])] ⟨ascii "/", ascii "n", [⟨ascii "f", [ascii "n"]⟩]⟩) [ascii "n"] = some .dir := by
  decide +kernel

/-! ### C93 -/

/-- The room a selection needs is the sum of the sizes, the room missing is the sum of what the files on disk are shorter, and there is enough
room exactly if not less is available than missing.
Missing for the full property: the available room is that of the root and not that of the location (`C93_mount_violated`); folders at the places of
files (`C93_folder_violated`). -/
theorem C93_room_partial (fs : Fs) (space : Place → Option (Nat × Nat)) (st : Storage) (sel : List (Nat × Nat)) (path : List UInt8)
    (hi : ∀ s ∈ sel, s.1 < st.files.length) (hd : ∀ f ∈ st.files, get fs (fullPath f path) ≠ some .dir)
    (hs : (sel.map (·.2)).sum < 2 ^ 64) (full available : Nat) (hsp : ∀ p, space p = some (full, available)) :
    ∃ v, validatePath fs space st sel path = .ok v ∧ v.required = (sel.map (·.2)).sum ∧
      v.missing = (sel.map (fun s => s.2 - onDisk fs (fullPath ((st.files[s.1]?).getD ⟨[], []⟩) path))).sum ∧
      v.full = full ∧ v.available = available ∧ v.enough = some (decide (v.missing ≤ available)) := by
  unfold validatePath
  rw [needLoop_ok fs st path sel hi hd {} (by simpa using hs) (by simp), Res.bind_ok, hsp []]
  refine ⟨_, rfl, by simp, by simp, rfl, rfl, ?_⟩
  simp only [Option.some.injEq]
  rw [← decide_not]
  exact decide_eq_decide.2 Nat.not_lt

/-- The sizes told of the files are their sizes on disk.  Missing as in `C93_room_partial`. -/
theorem C93_allocated_partial (fs : Fs) (st : Storage) (hd : ∀ f ∈ st.files, get fs (fullPath f st.path) ≠ some .dir) :
    allocated fs st = st.files.map (fun f => onDisk fs (fullPath f st.path)) := by
  unfold allocated
  refine List.map_congr_left ?_
  intro f hf
  have := hd f hf
  unfold present fileSize onDisk
  cases hg : get fs (fullPath f st.path) with
  | none => simp
  | some x =>
    cases x with
    | dir => exact absurd hg this
    | file c => simp

/-! Non-vacuity. -/
example : validatePath [([ascii "f"], .file [1, 2, 3])] (fun _ => some (100, 6)) ⟨ascii "/", ascii "f", [⟨ascii "f", []⟩]⟩ [(0, 10)] (ascii "/") =
    .ok { missing := 7, required := 10, full := 100, available := 6, enough := some false } ∧
    allocated [([ascii "f"], .file [1, 2, 3])] ⟨ascii "/", ascii "f", [⟨ascii "f", []⟩]⟩ = [3] := by decide +kernel

/-- The room is that of the root: where another disk is at the location, the answer is wrong both ways. -/
theorem C93_mount_violated :
    validatePath [([ascii "m"], .dir)] (fun p => if p.head? = some (ascii "m") then some (100, 6) else some (1000, 900))
      ⟨ascii "/m/", ascii "f", [⟨ascii "f", []⟩]⟩ [(0, 10)] (ascii "/m/") =
        .ok { missing := 10, required := 10, full := 1000, available := 900, enough := some true } ∧
    validatePath [([ascii "m"], .dir)] (fun p => if p.head? = some (ascii "m") then some (1000, 900) else some (100, 6))
      ⟨ascii "/m/", ascii "f", [⟨ascii "f", []⟩]⟩ [(0, 10)] (ascii "/m/") =
        .ok { missing := 10, required := 10, full := 100, available := 6, enough := some false } := by decide +kernel

/-- A folder at the place of a file is taken for a file that is large enough. -/
theorem C93_folder_violated :
    validatePath [([ascii "f"], .dir)] (fun _ => some (100, 6)) ⟨ascii "/", ascii "f", [⟨ascii "f", []⟩]⟩ [(0, 10)] (ascii "/") =
      .ok { missing := 0, required := 10, full := 100, available := 6, enough := some true } ∧
    allocated [([ascii "f"], .dir)] ⟨ascii "/", ascii "f", [⟨ascii "f", []⟩]⟩ = [2 ^ 64 - 1] := by decide +kernel

end Verif
