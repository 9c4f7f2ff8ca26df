import Verif.Proof.Magnet

/-! C08: magnet links. -/

namespace Verif
open Magnet Spec

/-- A link made of any parameters in any order, at least one of them naming a hash, is accepted. The
hash is the last one named (which has to be a hash), the display name the last one given (the old one if there is none), the
trackers are appended in order and the first of them becomes the main one. -/
theorem C08_magnet_fields (ps : List Param) (hg : ∀ p ∈ ps, p.Good) (h : List UInt8)
    (hh : (hashes ps).getLast? = some (some h)) (m : Meta) (hm : m.announceList = []) :
    parseMagnetLink m (magnet ps) = .ok (⟨h, (names ps).getLast?.getD m.name,
      (trackers ps).head?.getD m.announce, trackers ps⟩, true) := by
  have h8 : (ascii "magnet:?").length = 8 := by decide
  have hlen : ¬ (magnet ps).length < 8 := by unfold magnet; rw [List.length_append, h8]; omega
  have ht : (magnet ps).take 8 = ascii "magnet:?" := by unfold magnet; rw [← h8, List.take_left']; rfl
  have hd : (magnet ps).drop 8 = List.intercalate [chr '&'] (ps.map Param.text) := by
    unfold magnet; rw [← h8, List.drop_left']; rfl
  obtain ⟨a1, _, a2, a3, a4, a5, _⟩ := fold_hash ps (m, false)
  have hok : (ps.foldl step (m, false)).2 = true := by rw [a2, hh]; rfl
  unfold parseMagnetLink
  rw [if_neg hlen, if_pos ht, hd, loop_params ps hg]
  simp only [Res.bind_ok]
  rw [if_pos hok, Res.pure_eq]
  congr 1
  refine Prod.ext ?_ hok
  have a5' := a5 hm
  simp only [hm, List.nil_append] at a4
  have a1 := a1 h hh
  generalize (ps.foldl step (m, false)).1 = r at a1 a3 a4 a5'
  cases r
  simp only at a1 a3 a4 a5'
  simp only [a1, a3, a4, a5']

/-- Non-vacuity: hash in lower case hex, name and two trackers, and an unknown parameter. -/
example : ∃ ps : List Param, (∀ p ∈ ps, p.Good) ∧ (hashes ps).getLast? = some (some (List.replicate 20 0xAB))
    ∧ names ps = [ascii "a b"] ∧ trackers ps = [ascii "x", ascii "&"] ∧ magnet ps =
    ascii "magnet:?tr=x&xt=urn:btih:ABababababababababababababababababababab&xl=12&dn=a+b&tr=%26" := by
  refine ⟨[.tracker (ascii "x") (ascii "x"), .hash (ascii "ABababababababababababababababababababab") (List.replicate 20 0xAB),
    .other (ascii "xl") (ascii "12"), .name (ascii "a+b") (ascii "a b"), .tracker (ascii "%26") (ascii "&")], ?_, rfl, rfl, rfl, by decide +kernel⟩
  have x1 : UrlMeans (ascii "x") (ascii "x") := .raw _ _ _ (by decide) (by decide) .nil
  have x2 : UrlMeans (ascii "a+b") (ascii "a b") :=
    .raw _ _ _ (by decide) (by decide) (.plus _ _ (.raw _ _ _ (by decide) (by decide) .nil))
  have x3 : UrlMeans (ascii "%26") (ascii "&") := .esc 2 6 _ _ _ _ (by decide) (by decide) .nil
  simp only [List.mem_cons, List.not_mem_nil, or_false, forall_eq_or_imp, forall_eq]
  refine ⟨⟨x1, by decide⟩, .hex _ (by decide) (by decide +kernel), ?_, ⟨x2, by decide⟩, x3, by decide⟩
  exact ⟨by decide, by decide, by decide, by decide, by decide, by decide⟩

/-- A base32 hash text, as used in old links. -/
example : HashText (ascii "abcdefghijklmnopqrst") (ascii "mfrggZDFMZTWQ2LKNNWG23TPOBYXE43U") :=
  .b32 _ (by decide) (by decide +kernel)

/-- The text of a hash alone is accepted too. -/
theorem C08_bare_hash (s h : List UInt8) (hs : HashText h s) (m : Meta) :
    parseMagnetLink m s = .ok ({ m with hash := h }, true) := by
  have hl := HashText.len hs
  have hp := HashText.parse hs
  have hm : s.take 8 ≠ ascii "magnet:?" := by
    intro e
    have : chr ':' ∈ s := List.mem_of_mem_take (i := 8) (by rw [e]; decide)
    have := parseTorrentHash_colon s this
    rw [hp] at this
    simp at this
  unfold parseMagnetLink
  rw [if_neg (by omega), if_neg hm]
  simp only [Res.pure_eq, Res.bind_ok]
  rw [if_neg (by simp), hp]
  rfl

/-- So is a hex hash with four white-space characters in it (as in grouped or line-broken text). -/
theorem C08_bare_hash_spaced (s h : List UInt8) (hl : h.length = 20) (hs : s.length = 44)
    (hx : (s.filter (fun c => c ∉ ascii " \t\n\r" ++ [11, 12])).map lower = hexText h) (m : Meta) :
    parseMagnetLink m s = .ok ({ m with hash := h }, true) := by
  have tab : ∀ c : UInt8, (!Encoding.isSpace c) = decide (c ∉ ascii " \t\n\r" ++ [11, 12]) := forall_u8 (by decide +kernel)
  have hf : s.filter (fun c => !Encoding.isSpace c) = s.filter (fun c => decide (c ∉ ascii " \t\n\r" ++ [11, 12])) := by
    congr 1; funext c; exact tab c
  have h40 : (s.filter (fun c => !Encoding.isSpace c)).length = 40 := by
    have := congrArg List.length hx
    rw [List.length_map, hexText_length, hl] at this
    rw [hf]; exact this
  have hp : parseTorrentHash s = .ok (some h) := by
    unfold parseTorrentHash
    rw [if_neg (by omega), if_pos hs]
    simp only []
    rw [if_pos h40, hf]
    have := decodeHexa_hexText _ h hx
    rw [hl] at this
    exact this
  have hm : s.take 8 ≠ ascii "magnet:?" := by
    intro e
    have : chr ':' ∈ s := List.mem_of_mem_take (i := 8) (by rw [e]; decide)
    have := parseTorrentHash_colon s this
    rw [hp] at this
    simp at this
  unfold parseMagnetLink
  rw [if_neg (by omega), if_neg hm]
  simp only [Res.pure_eq, Res.bind_ok]
  rw [if_neg (by simp), hp]
  rfl

example : (ascii "abababab ababababab\tababababab abababababab\n").length = 44
  ∧ ((ascii "abababab ababababab\tababababab abababababab\n").filter
    (fun c => c ∉ ascii " \t\n\r" ++ [11, 12])).map lower = hexText (List.replicate 20 0xAB) := by decide +kernel

/-- A link that names no hash, or whose last named hash is none, is rejected. -/
theorem C08_no_hash_rejected (ps : List Param) (hg : ∀ p ∈ ps, p.Good)
    (hh : hashes ps = [] ∨ (hashes ps).getLast? = some none) (m : Meta) :
    ∃ m', parseMagnetLink m (magnet ps) = .ok (m', false) ∧ (hashes ps = [] → m'.hash = m.hash) := by
  have h8 : (ascii "magnet:?").length = 8 := by decide
  have hlen : ¬ (magnet ps).length < 8 := by unfold magnet; rw [List.length_append, h8]; omega
  have ht : (magnet ps).take 8 = ascii "magnet:?" := by unfold magnet; rw [← h8, List.take_left']; rfl
  have hd : (magnet ps).drop 8 = List.intercalate [chr '&'] (ps.map Param.text) := by
    unfold magnet; rw [← h8, List.drop_left']; rfl
  obtain ⟨_, a0, a2, _⟩ := fold_hash ps (m, false)
  have hok : (ps.foldl step (m, false)).2 = false := by
    rw [a2]
    rcases hh with hh | hh
    · rw [hh]; rfl
    · rw [hh]; rfl
  refine ⟨(ps.foldl step (m, false)).1, ?_, a0⟩
  unfold parseMagnetLink
  rw [if_neg hlen, if_pos ht, hd, loop_params ps hg]
  simp only [Res.bind_ok]
  rw [if_neg (by rw [hok]; simp), parseTorrentHash_colon _ (by unfold magnet; exact List.mem_append_left _ (by decide))]
  rfl

example : (Param.name (ascii "x") (ascii "x")).Good ∧ hashes [Param.name (ascii "x") (ascii "x")] = [] :=
  ⟨⟨.raw _ _ _ (by decide) (by decide) .nil, by decide⟩, rfl⟩
example : (Param.badHash (ascii "1234")).Good ∧ (hashes [Param.badHash (ascii "1234")]).getLast? = some none :=
  ⟨⟨by decide, by decide, Or.inl (by decide)⟩, rfl⟩

/-- A name that is not URL-encoded text makes the decoder use an uninitialised variable. -/
theorem C08_malformed_escape_undefined (m : Meta) : parseMagnetLink m (ascii "magnet:?dn=%zz") = .ub := by
  have : loop m false (ascii "dn=%zz") = .ub := by
    rw [loop_cons _ _ _ (by decide)]
    have : elem m false (before (chr '&') (ascii "dn=%zz")) = .ub := by
      rw [show before (chr '&') (ascii "dn=%zz") = ascii "dn=%zz" by decide]
      unfold elem
      rw [if_pos (by decide), show before (chr '=') (ascii "dn=%zz") = ascii "dn" by decide,
        show after (chr '=') (ascii "dn=%zz") = ascii "%zz" by decide]
      unfold param
      rw [if_neg (fun hh => absurd hh.1 (by decide)), if_neg (by decide), if_pos rfl,
        show Encoding.urlDecode (ascii "%zz") = .ub by decide +kernel]
      rfl
    rw [this]; rfl
  unfold parseMagnetLink
  rw [if_neg (by decide), if_pos (by decide), show (ascii "magnet:?dn=%zz").drop 8 = ascii "dn=%zz" by decide, this]
  rfl

end Verif
