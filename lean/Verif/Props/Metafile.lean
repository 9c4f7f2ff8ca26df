import Verif.Proof.Metafile

/-! C74: a saved torrent file says what was saved.  C78: a torrent file is read as it was written.

`Metafile.parse fuel sha1 data after` reads the file `data`; `after` is what is in memory behind it (the parser looks at one byte there, see
C02). -/

namespace Verif
open Metafile Bencode Spec.Metafile

/-! ### C78 -/

/-- Every torrent file — a dictionary with an info dictionary, with other keys at any places — is read as it was written: the trackers, the name,
the pieces, the paths and the lengths of all files, whether it is private, who made it and when; the torrent id is the hash of the info
dictionary.  How the files lie on the pieces is C04.
Missing for the full property: a value that is the text "info" (`C03_value_named_info_violated`); more than 65534 values in the file
(`C78_many_files_violated`); a name with a zero (`C78_name_violated`); a path without parts; numbers that do not fit (`C78_length_violated`). -/
theorem C78_read_partial {kvs ikvs : List (List UInt8 × BVal)} {t : Torrent} (ht : IsTorrent kvs ikvs t) (hu : Usual t)
    (hf : (BVal.dict kvs).fits) (hc : (BVal.dict kvs).count < 65536) (hval : ∀ kv ∈ kvs, kv.2 ≠ .str (ascii "info"))
    (hs : t.lengths.sum < 2 ^ 64) (sha1 : List UInt8 → List UInt8) (after : List UInt8) (ha : after ≠ []) (fuel : Nat)
    (hfuel : (BVal.dict kvs).enc.length + after.length ≤ fuel) :
    ∃ m, Metafile.parse fuel sha1 (BVal.dict kvs).enc after = .ok m ∧
      m.announce = t.announce.getD [] ∧ m.announceList = t.trackers ∧ m.createdBy = t.createdBy.getD [] ∧ m.creationDate = t.date.getD 0 ∧
      m.info.name = t.name ∧ m.info.pieces = t.pieces ∧ (m.info.isPrivate = true ↔ t.priv.getD 0 ≠ 0) ∧
      m.info.files.map (fun f => f.path ++ [f.name]) = t.paths ∧ m.info.layout.files.map (·.size) = t.lengths ∧
      m.info.layout.fullSize = t.lengths.sum ∧
      m.info.layout.pieceSize = t.pieceLength ∧ m.info.layout.piecesCount = t.pieces.length ∧
      m.info.hash = some (sha1 (BVal.dict ikvs).enc) ∧ m.info.data = (BVal.dict ikvs).enc := by
  obtain ⟨m, h1, h2, h3, h4, h5, h6, h7, h8⟩ := parse_at ht hu hf (by simpa [BVal.count] using hc) hval sha1 after ha fuel hfuel
  obtain ⟨l, hl, l1, l2, l3, l4⟩ := parseInfo_ok t hu.length.1 hs
  have he : m.info.layout = l := by
    have := h6.layout.symm.trans hl
    simpa using this
  exact ⟨m, h1, h2, h3, h4, h5, h6.name, h6.pieces, h6.priv, h6.paths, by rw [he]; exact l1, by rw [he]; exact l4,
    by rw [he]; exact l2, by rw [he]; exact l3, h7, h8⟩

/-- An info dictionary received from peers is read in the same way. -/
theorem C78_info_partial {ikvs : List (List UInt8 × BVal)} {t : Torrent} (ht : IsInfo ikvs t) (hu : Usual t)
    (hf : (BVal.dict ikvs).fits) (hc : (BVal.dict ikvs).count < 65536) (hs : t.lengths.sum < 2 ^ 64)
    (sha1 : List UInt8 → List UInt8) (after : List UInt8) (ha : after ≠ []) (fuel : Nat)
    (hfuel : (BVal.dict ikvs).enc.length ≤ fuel) :
    ∃ i, Metafile.parseTorrentInfo fuel sha1 (BVal.dict ikvs).enc after = .ok i ∧
      i.name = t.name ∧ i.pieces = t.pieces ∧ (i.isPrivate = true ↔ t.priv.getD 0 ≠ 0) ∧
      i.files.map (fun f => f.path ++ [f.name]) = t.paths ∧ i.layout.files.map (·.size) = t.lengths ∧
      i.layout.fullSize = t.lengths.sum ∧ i.layout.pieceSize = t.pieceLength ∧ i.layout.piecesCount = t.pieces.length ∧
      i.hash = some (sha1 (BVal.dict ikvs).enc) := by
  obtain ⟨i, h1, h6, h7, -⟩ := parseInfo_at ht hu hf hc sha1 after ha fuel hfuel
  obtain ⟨l, hl, l1, l2, l3, l4⟩ := parseInfo_ok t hu.length.1 hs
  have he : i.layout = l := by
    have := h6.layout.symm.trans hl
    simpa using this
  exact ⟨i, h1, h6.name, h6.pieces, h6.priv, h6.paths, by rw [he]; exact l1, by rw [he]; exact l4,
    by rw [he]; exact l2, by rw [he]; exact l3, h7⟩

/-! Non-vacuity: a torrent with two files, two trackers and keys of others. -/
section
/-- A hash of a piece. -/
private def piece : List UInt8 := List.replicate 20 7
private def exInfo : List (List UInt8 × BVal) :=
  [(ascii "files", .list [.dict [(ascii "length", .int 5), (ascii "path", .list [.str (ascii "a"), .str (ascii "b")])],
      .dict [(ascii "path", .list [.str (ascii "c")]), (ascii "attr", .str []), (ascii "length", .int 9)]]),
    (ascii "name", .str (ascii "N")), (ascii "piece length", .int 16), (ascii "pieces", .str piece), (ascii "private", .int 1)]
private def exFile : List (List UInt8 × BVal) :=
  [(ascii "announce", .str (ascii "u")), (ascii "announce-list", .list [.list [.str (ascii "u")], .list [.str (ascii "v"), .str (ascii "w")]]),
    (ascii "comment", .str (ascii "x")), (ascii "creation date", .int 77), (ascii "info", .dict exInfo), (ascii "zz", .list [])]
private def exTorrent : Torrent :=
  { announce := some (ascii "u"), tiers := some [[ascii "u"], [ascii "v", ascii "w"]], createdBy := none, date := some 77, name := ascii "N"
    pieceLength := 16, pieces := [piece], priv := some 1
    content := .multi [([ascii "a", ascii "b"], 5), ([ascii "c"], 9)] }

private theorem exIsInfo : IsInfo exInfo exTorrent :=
  ⟨rfl, rfl, rfl, rfl, _, rfl, by exact ⟨⟨_, rfl, rfl, rfl⟩, ⟨_, rfl, rfl, rfl⟩, trivial⟩⟩

private theorem exIsTorrent : IsTorrent exFile exInfo exTorrent := ⟨rfl, rfl, rfl, rfl, rfl, exIsInfo⟩

private theorem exUsual : Usual exTorrent := by
  refine ⟨by decide, by intro h hh; simp [exTorrent] at hh; subst hh; rfl, ?_, by decide +kernel, ?_⟩
  · intro n hn; simp [exTorrent] at hn; omega
  · intro fs hfs f hf
    simp only [exTorrent, Content.multi.injEq] at hfs
    subst hfs
    simp at hf
    rcases hf with rfl | rfl <;> simp

example : ∃ i, Metafile.parseTorrentInfo 1000 id (BVal.dict exInfo).enc [0] = .ok i ∧ i.layout.fullSize = 14 := by
  obtain ⟨i, h1, _, _, _, _, _, h7, _⟩ := C78_info_partial exIsInfo exUsual
    (by simp [exInfo, piece, BVal.fits, fitsDict, fitsList, ascii]) (by simp [exInfo, BVal.count, countDict, countList])
    (by decide) id [0] (by simp) 1000 (by decide +kernel)
  exact ⟨i, h1, h7⟩

example : ∃ m, Metafile.parse 1000 id (BVal.dict exFile).enc [0] = .ok m ∧ m.announceList = [ascii "u", ascii "v", ascii "w"] ∧
    m.info.files.map (fun f => f.path ++ [f.name]) = [[ascii "N", ascii "a", ascii "b"], [ascii "N", ascii "c"]] := by
  obtain ⟨m, h1, _, h3, _, _, _, _, _, h9, _⟩ := C78_read_partial exIsTorrent exUsual
    (by simp [exFile, exInfo, piece, BVal.fits, fitsDict, fitsList, ascii]) (by simp [exFile, exInfo, BVal.count, countDict, countList])
    (by
      intro kv hkv he
      have hx : ascii "info" ≠ ascii "u" ∧ ascii "info" ≠ ascii "x" := by decide +kernel
      simp [exFile] at hkv
      rcases hkv with rfl | rfl | rfl | rfl | rfl | rfl <;> first | exact hx.1 (BVal.str.inj he).symm | exact hx.2 (BVal.str.inj he).symm | cases he)
    (by decide) id [0] (by simp) 1000 (by decide +kernel)
  exact ⟨m, h1, h3, h9⟩

end

/-- A torrent of 9362 or more files in folders: a tracker, then the info dictionary with the files, as torrent programs write it.  Reading it writes
in front of the memory of the parser: the number of the object is kept in 16 bits, and one less than 0 is used as an index. -/
theorem C78_many_files_violated (a : List UInt8) (ha : a.length < 2 ^ 31) (fs : List (Nat × List UInt8 × List UInt8)) (hl : fs.length = 9361)
    (hfit : ∀ f ∈ fs, f.1 < 2 ^ 64 ∧ f.2.1.length < 2 ^ 31 ∧ f.2.2.length < 2 ^ 31) (f : Nat × List UInt8 × List UInt8) (rest : List BVal)
    (more : List (List UInt8 × BVal)) (root : BVal)
    (hr : root = .dict [(ascii "announce", .str a), (ascii "info", .dict ((ascii "files", .list (
      fs.map (fun f => .dict [(ascii "length", .int f.1), (ascii "path", .list [.str f.2.1, .str f.2.2])]) ++
      BVal.dict [(ascii "length", .int f.1), (ascii "path", .list [.str f.2.1, .str f.2.2])] :: rest)) :: more))])
    (sha1 : List UInt8 → List UInt8) (after : List UInt8) (hne : after ≠ []) (fuel : Nat) (hfuel : root.enc.length ≤ fuel) :
    Metafile.parse fuel sha1 root.enc after = .ub :=
  many_ub a ha fs hl f rest more root hr (fileVals_fits hfit) sha1 after hne fuel hfuel

/-! Non-vacuity: 9362 equal files are such files. -/
example (fuel : Nat) : ∃ root : BVal, root.enc.length ≤ fuel → Metafile.parse fuel id root.enc [0] = .ub :=
  ⟨_, fun h => C78_many_files_violated (ascii "u") (by simp [ascii]) (List.replicate 9361 (1, ascii "d", ascii "f")) List.length_replicate
    (by intro f hf; rw [List.eq_of_mem_replicate hf]; simp [ascii]) (1, ascii "d", ascii "f") [] [] _ rfl id [0] (by simp) fuel h⟩

/-- A name with a zero: the folder of the files has another name than the torrent. -/
theorem C78_name_violated :
    (Metafile.parse 1000 id (ascii "d4:infod5:filesld6:lengthi5e4:pathl1:aeee4:name3:x" ++ 0 :: ascii "y12:piece lengthi16e6:pieces0:ee") [0]).map'
      (fun m => (m.info.name, m.info.files)) = .ok (ascii "x" ++ 0 :: ascii "y", [⟨ascii "a", [ascii "x"]⟩]) := by decide +kernel

/-- A piece length of 2^32 makes the program divide by zero. -/
theorem C78_length_violated :
    Metafile.parse 1000 id (ascii "d4:infod6:lengthi5e4:name1:x12:piece lengthi4294967296e6:pieces0:ee") [0] = .ub := by decide +kernel

/-! ### C74 -/

/-- A torrent file is read, trackers are added to the torrent, and the file is saved (Core/Peers.cpp:312-341): reading the saved file gives exactly
the torrent that was saved, with its id, files and trackers.
Missing for the full property: torrents without info dictionary (`C74_magnet_violated`, `C74_names_violated`, but see `C74_plain_partial`), an empty list of trackers beside a
tracker (`C74_trackers_violated`), and what is missing in C78. -/
theorem C74_saved_partial {kvs ikvs : List (List UInt8 × BVal)} {t : Torrent} (ht : IsTorrent kvs ikvs t) (hu : Usual t)
    (hf : (BVal.dict kvs).fits) (hval : ∀ kv ∈ kvs, kv.2 ≠ .str (ascii "info")) (htr : ∀ ts, t.tiers = some ts → ts.flatten ≠ [])
    (more : List (List UInt8)) (hmore : ∀ a ∈ more, a.length < 2 ^ 31 ∧ a ≠ ascii "info") (hti : ∀ a ∈ t.trackers, a ≠ ascii "info")
    (hc : 10 + 2 * (t.trackers ++ more).length + (BVal.dict kvs).count < 65536)
    (sha1 : List UInt8 → List UInt8) (after : List UInt8) (ha : after ≠ []) (fuel : Nat)
    (hfuel : (BVal.dict kvs).enc.length + after.length ≤ fuel) :
    ∃ m, Metafile.parse fuel sha1 (BVal.dict kvs).enc after = .ok m ∧
      ∀ m2 : Meta, m2 = { m with
        announceList := m.announceList ++ more
        announce := if m.announce = [] then (m.announceList ++ more).headD [] else m.announce } →
      ∀ fuel2, (create m2).length + after.length ≤ fuel2 → Metafile.parse fuel2 sha1 (create m2) after = .ok m2 := by
  obtain ⟨m, h1, h2, h3, h4, h5, h6, h7, h8⟩ := parse_at ht hu hf (by simp only [BVal.count] at hc; omega) hval sha1 after ha fuel hfuel
  refine ⟨m, h1, ?_⟩
  intro m2 hm2 fuel2 hfuel2
  exact saved_again ht hu hf hval htr more hmore hti hc sha1 after ha h2 h3 h4 h5 h6 h7 h8 hm2 fuel2 hfuel2

private theorem exValues : ∀ kv ∈ exFile, kv.2 ≠ .str (ascii "info") := by
  intro kv hkv he
  have hx : ascii "info" ≠ ascii "u" ∧ ascii "info" ≠ ascii "x" := by decide +kernel
  simp [exFile] at hkv
  rcases hkv with rfl | rfl | rfl | rfl | rfl | rfl <;> first | exact hx.1 (BVal.str.inj he).symm | exact hx.2 (BVal.str.inj he).symm | cases he

/-! Non-vacuity: the torrent above with one more tracker; the saved file has it, and is another file than the first one (others' keys are gone). -/
example : ∃ m m2, Metafile.parse 1000 id (BVal.dict exFile).enc [0] = .ok m ∧
    m2.announceList = m.announceList ++ [ascii "z"] ∧ Metafile.parse 1000 id (create m2) [0] = .ok m2 := by
  have hx : ascii "info" ≠ ascii "u" ∧ ascii "info" ≠ ascii "v" ∧ ascii "info" ≠ ascii "w" ∧ ascii "info" ≠ ascii "z" := by decide +kernel
  obtain ⟨x1, x2, x3, x4⟩ := hx
  obtain ⟨m, h1, h2⟩ := C74_saved_partial exIsTorrent exUsual
    (by simp [exFile, exInfo, piece, BVal.fits, fitsDict, fitsList, ascii]) exValues
    (by intro ts h; simp [exTorrent] at h; subst h; simp) [ascii "z"] (by simp [x4.symm, ascii])
    (by
      intro a ha
      simp [Torrent.trackers, exTorrent] at ha
      rcases ha with rfl | rfl | rfl
      · exact x1.symm
      · exact x2.symm
      · exact x3.symm)
    (by simp [exFile, exInfo, exTorrent, Torrent.trackers, BVal.count, countDict, countList]) id [0] (by simp) 1000 (by decide +kernel)
  have h3 := h2 _ rfl
  have h4 : (Metafile.parse 1000 id (BVal.dict exFile).enc [0]).map' (fun m => decide ((create { m with
      announceList := m.announceList ++ [ascii "z"]
      announce := if m.announce = [] then (m.announceList ++ [ascii "z"]).headD [] else m.announce }).length < 999)) = .ok true := by
    decide +kernel
  rw [h1] at h4
  simp only [Res.map', Res.ok.injEq, decide_eq_true_eq] at h4
  exact ⟨m, _, h1, rfl, h3 1000 (by simp only [List.length_singleton]; omega)⟩

/-- A torrent of a magnet link gets its info dictionary from peers and is saved (Core/Torrent.cpp:213-224): reading the saved file gives the id of
the dictionary, its files, and the trackers of the link.
Missing: as for `C74_saved_partial`. -/
theorem C74_metadata_partial {ikvs : List (List UInt8 × BVal)} {t : Torrent} (ht : IsInfo ikvs t) (hu : Usual t)
    (hf : (BVal.dict ikvs).fits) (m : Meta)
    (ha1 : m.announce.length < 2 ^ 31 ∧ m.announce ≠ ascii "info") (ha2 : ∀ a ∈ m.announceList, a.length < 2 ^ 31)
    (ha3 : m.announceList = [] → m.announce = []) (hb : m.createdBy = []) (hd : m.creationDate = 0)
    (hc : 10 + 2 * m.announceList.length + (BVal.dict ikvs).count < 65536)
    (sha1 : List UInt8 → List UInt8) (after : List UInt8) (ha : after ≠ []) (fuel : Nat)
    (hfuel : (BVal.dict ikvs).enc.length ≤ fuel) :
    ∃ i, Metafile.parseTorrentInfo fuel sha1 (BVal.dict ikvs).enc after = .ok i ∧
      ∀ m2 : Meta, m2 = { m with info := { i with data := (BVal.dict ikvs).enc } } →
      ∀ fuel2, (create m2).length + after.length ≤ fuel2 → Metafile.parse fuel2 sha1 (create m2) after = .ok m2 := by
  obtain ⟨i, h1, h2, h3, h4⟩ := parseInfo_at ht hu hf (by omega) sha1 after ha fuel hfuel
  refine ⟨i, h1, ?_⟩
  rintro m2 rfl fuel2 hfuel2
  have hne : ascii "info" ≠ [] := by decide +kernel
  obtain ⟨m', e1, e2, e3, e4, e5, e6, e7, e8⟩ := saved_read (m := { m with info := { i with data := (BVal.dict ikvs).enc } }) ht hu rfl
    ⟨ha1.1, ha2, by simp [hb], by simp [hd]⟩ hf hc ha1.2 (by rw [hb]; exact hne.symm) ha3 sha1 after ha fuel2 hfuel2
  rw [e1]
  congr 1
  have hi : m'.info = { i with data := (BVal.dict ikvs).enc } :=
    reads_unique e6 ⟨h2.name, h2.pieces, h2.priv, h2.paths, h2.layout⟩ (by rw [e7]; exact h3.symm) e8
  cases m'
  simp only at e2 e3 e4 e5 hi ⊢
  subst e2 e3 e4 e5 hi
  rfl

/-! Non-vacuity: the info dictionary above for a link with one tracker. -/
example : ∃ i : Info, Metafile.parse 1000 id (create { announce := ascii "u", announceList := [ascii "u"], info := i }) [0] =
    .ok { announce := ascii "u", announceList := [ascii "u"], info := i } ∧ i.data = (BVal.dict exInfo).enc := by
  have hx : ascii "u" ≠ ascii "info" := by decide +kernel
  obtain ⟨i, h1, h2⟩ := C74_metadata_partial exIsInfo exUsual
    (by simp [exInfo, piece, BVal.fits, fitsDict, fitsList, ascii]) { announce := ascii "u", announceList := [ascii "u"], info := {} }
    ⟨by simp [ascii], hx⟩ (by simp [ascii]) (by simp) rfl rfl
    (by simp [exInfo, BVal.count, countDict, countList]) id [0] (by simp) 1000 (by decide +kernel)
  have h3 := h2 _ rfl
  have h4 : (Metafile.parseTorrentInfo 1000 id (BVal.dict exInfo).enc [0]).map' (fun i => decide ((create
      { announce := ascii "u", announceList := [ascii "u"], info := { i with data := (BVal.dict exInfo).enc } }).length < 999)) = .ok true := by
    decide +kernel
  rw [h1] at h4
  simp only [Res.map', Res.ok.injEq, decide_eq_true_eq] at h4
  exact ⟨_, h3 1000 (by simp only [List.length_singleton]; omega), rfl⟩

/-- The info dictionary of one file, read without keeping its bytes: the file that is made from it is read as the same torrent, but its id is that of
the new dictionary.
Missing: several files (`C74_names_violated`). -/
theorem C74_plain_partial {ikvs : List (List UInt8 × BVal)} {t : Torrent} {n : Nat} (ht : IsInfo ikvs t) (hu : Usual t) (hs : t.content = .single n)
    (hf : (BVal.dict ikvs).fits) (hc : (BVal.dict ikvs).count < 65536) (m : Meta)
    (ha1 : m.announce.length < 2 ^ 31 ∧ m.announce ≠ ascii "info") (ha2 : ∀ a ∈ m.announceList, a.length < 2 ^ 31)
    (ha3 : m.announceList = [] → m.announce = []) (hb : m.createdBy.length < 2 ^ 31 ∧ m.createdBy ≠ ascii "info") (hd : m.creationDate < 2 ^ 64)
    (hl : m.announceList.length < 32000)
    (sha1 : List UInt8 → List UInt8) (after : List UInt8) (ha : after ≠ []) (fuel : Nat) (hfuel : (BVal.dict ikvs).enc.length ≤ fuel) :
    ∃ i, Metafile.parseTorrentInfo fuel sha1 (BVal.dict ikvs).enc after = .ok i ∧
      ∀ fuel2, (create { m with info := i }).length + after.length ≤ fuel2 →
        ∃ d, Metafile.parse fuel2 sha1 (create { m with info := i }) after = .ok { m with info := { i with data := d, hash := some (sha1 d) } } := by
  obtain ⟨i, h1, h2, h3, h4⟩ := parseInfo_at ht hu hf hc sha1 after ha fuel hfuel
  refine ⟨i, h1, fun fuel2 hfuel2 => ?_⟩
  obtain ⟨d, h, hp, rfl⟩ := plain_read (m := { m with info := i }) ht hu hs hf h2 h4 ⟨ha1.1, ha2, hb.1, hd⟩ hl ha1.2 hb.2 ha3 sha1 after ha fuel2 hfuel2
  exact ⟨d, hp⟩

/-! Non-vacuity: a file of five bytes. -/
example : ∃ i d, Metafile.parse 1000 id (create { info := i }) [0] = .ok { info := { i with data := d, hash := some d } } ∧ i.name = ascii "n" := by
  have hne : ([] : List UInt8) ≠ ascii "info" := by decide +kernel
  obtain ⟨i, h1, h2⟩ := C74_plain_partial
    (ikvs := [(ascii "length", .int 5), (ascii "name", .str (ascii "n")), (ascii "piece length", .int 16), (ascii "pieces", .str [])])
    (t := { announce := none, tiers := none, createdBy := none, date := none, name := ascii "n", pieceLength := 16, pieces := [], priv := none
            content := .single 5 }) (n := 5) ⟨rfl, rfl, rfl, rfl, rfl, rfl⟩
    ⟨by decide, by simp, by simp, by decide +kernel, by simp⟩ rfl (by simp [BVal.fits, fitsDict, ascii]) (by simp [BVal.count, countDict])
    {} ⟨by simp, hne⟩ (by simp) (by simp) ⟨by simp, hne⟩ (by simp) (by simp) id [0] (by simp) 1000 (by decide +kernel)
  have h4 : (Metafile.parseTorrentInfo 1000 id (BVal.dict [(ascii "length", .int 5), (ascii "name", .str (ascii "n")),
      (ascii "piece length", .int 16), (ascii "pieces", .str [])]).enc [0]).map' (fun i => decide ((create
      { info := i }).length < 999 ∧ i.name = ascii "n")) = .ok true := by
    decide +kernel
  rw [h1] at h4
  simp only [Res.map', Res.ok.injEq, decide_eq_true_eq] at h4
  obtain ⟨d, h5⟩ := h2 1000 (by simp only [List.length_singleton]; omega)
  exact ⟨i, d, h5, h4.2⟩

/-- A magnet link without metadata: a tracker is added, so a file is saved (Core/Peers.cpp:333-341); reading it after a restart divides by zero. -/
theorem C74_magnet_violated : create { announce := ascii "u", announceList := [ascii "u"], info := { name := ascii "n" } } =
      ascii "d8:announce1:u13:announce-listll1:uee4:infod4:name1:n12:piece lengthi0e6:pieces0:ee" ∧
    Metafile.parse 1000 id (ascii "d8:announce1:u13:announce-listll1:uee4:infod4:name1:n12:piece lengthi0e6:pieces0:ee") [0] = .ub := by
  constructor <;> decide +kernel

/-- A path in folders is written in all its parts but the first one, which is the name of the torrent. -/
theorem C74_paths_partial (d : List UInt8) (path : List (List UInt8)) (h : ∀ x ∈ path, 0 ∉ x) :
    writePath d path = d ++ (path.map fun x => BVal.enc (.str x)).flatten := by
  induction path generalizing d with
  | nil => simp [writePath]
  | cons x xs ih =>
    rw [writePath, ih _ (fun y hy => h y (List.mem_cons_of_mem _ hy)), cstr_id (h x List.mem_cons_self)]
    simp [addText, BVal.enc, encStr, List.append_assoc]

/-- The info of two files, as it is read from metadata without keeping its bytes: the saved file has lost the names of the files, and is another
torrent. -/
theorem C74_names_violated : ∃ i j,
    Metafile.parseTorrentInfo 1000 id (ascii "d5:filesld6:lengthi5e4:pathl1:aeed6:lengthi6e4:pathl1:beee4:name1:n12:piece lengthi16e6:pieces0:e") [0] = .ok i ∧
    Metafile.parse 1000 id (create { info := i }) [0] = .ok j ∧
    i.files.map (·.name) = [ascii "a", ascii "b"] ∧ j.info.files.map (·.name) = [[], []] ∧ i.hash ≠ j.info.hash := by
  have h : (match Metafile.parseTorrentInfo 1000 id (ascii "d5:filesld6:lengthi5e4:pathl1:aeed6:lengthi6e4:pathl1:beee4:name1:n12:piece lengthi16e6:pieces0:e") [0] with
    | .ok i => match Metafile.parse 1000 id (create { info := i }) [0] with
      | .ok j => decide (i.files.map (·.name) = [ascii "a", ascii "b"] ∧ j.info.files.map (·.name) = [[], []] ∧ i.hash ≠ j.info.hash)
      | _ => false
    | _ => false) = true := by decide +kernel
  split at h
  · rename_i i hi
    split at h
    · rename_i j hj
      exact ⟨i, j, hi, hj, of_decide_eq_true h⟩
    · cases h
  · cases h

/-- A tracker beside an empty list of trackers: after saving and reading the torrent has a tracker that it did not have. -/
theorem C74_trackers_violated : ∃ m m',
    Metafile.parse 1000 id (ascii "d8:announce1:u13:announce-listle4:infod6:lengthi5e4:name1:n12:piece lengthi16e6:pieces0:ee") [0] = .ok m ∧
    Metafile.parse 1000 id (create m) [0] = .ok m' ∧ m.announceList = [] ∧ m'.announceList = [ascii "u"] := by
  have h : (match Metafile.parse 1000 id (ascii "d8:announce1:u13:announce-listle4:infod6:lengthi5e4:name1:n12:piece lengthi16e6:pieces0:ee") [0] with
    | .ok m => match Metafile.parse 1000 id (create m) [0] with
      | .ok m' => decide (m.announceList = [] ∧ m'.announceList = [ascii "u"])
      | _ => false
    | _ => false) = true := by decide +kernel
  split at h
  · rename_i i hi
    split at h
    · rename_i j hj
      exact ⟨i, j, hi, hj, of_decide_eq_true h⟩
    · cases h
  · cases h

end Verif
