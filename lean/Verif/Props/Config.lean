import Verif.Proof.Config
/-! C45 and C75: the settings survive a restart; reading XML that was written. -/

namespace Verif
open Config Xml Spec.Settings Spec.XmlTree

/-- C75, for trees of words: the reader finds every element of what the writer wrote, and no others, with its
value.  Text around the document is left out.  Missing: attributes, text with `<`, CDATA with `]]>`, empty nodes, 65536 elements and more; see the theorems below. -/
theorem C75_written_partial (n : List UInt8) (cs : List Tree) (hg : (Tree.node n cs).Good) (hc : (Tree.node n cs).count < 65536)
    {pre post : List UInt8} (hpre : chr '<' ∉ pre) (hpost : chr '<' ∉ post) :
    ∃ els, Xml.parse (pre ++ (Tree.node n cs).write 0 ++ post) = .ok (some els) ∧
      ∀ ps, ((Tree.node n cs).at ps = none → walk els 0 ps = .ok none) ∧
        ∀ t, (Tree.node n cs).at ps = some t → ∃ j, walk els 0 ps = .ok (some j) ∧ Shows els j t := by
  refine ⟨_, parse_around n cs hg hc hpre hpost, fun ps => ?_⟩
  have hr : AtTree (flat 0 0 (Tree.node n cs)) 0 (Tree.node n cs) := ⟨0, 0, [], [], by simp, rfl⟩
  obtain ⟨h1, h2⟩ := walk_at ps 0 _ hg hr trivial
  refine ⟨h1, fun t ht => ?_⟩
  obtain ⟨j, e, _, hs, _⟩ := h2 t ht
  exact ⟨j, e, hs⟩

example : ask (ascii "<a>\n\t<b>1</b>\n\t<b><![CDATA[2]]]></b>\n</a>") (fun els => walk els 0 [(ascii "b", 1)]) = .ok (some (some 5))
    ∧ ask (ascii "<a>\n\t<b>1</b>\n\t<b><![CDATA[2]]]></b>\n</a>") (fun els => Xml.value els 5) = .ok (some (ascii "2]"))
    ∧ ask (ascii "<a>\n\t<b>1</b>\n\t<b><![CDATA[2]]]></b>\n</a>") (fun els => walk els 0 [(ascii "c", 0)]) = .ok (some none) := by decide +kernel

example : (Tree.node (ascii "a") [.text (ascii "b") (ascii "1"), .cdata (ascii "b") (ascii "2]")]).Good
    ∧ (Tree.node (ascii "a") [.text (ascii "b") (ascii "1"), .cdata (ascii "b") (ascii "2]")]).write 0 = ascii "<a>\n\t<b>1</b>\n\t<b><![CDATA[2]]]></b>\n</a>" := by
  refine ⟨?_, by decide +kernel⟩
  simp only [Tree.Good, goodKids, GoodName]
  decide +kernel

/-- C75 fails: the value of an element with an attribute is the value of the attribute. -/
theorem C75_attribute_violated :
    ask (close (close (openAttrs (openRoot [] (ascii "r")) 1 (ascii "a") [(ascii "x", ascii "1")] ++ ascii "v") 1 false (ascii "a")) 0 true (ascii "r"))
      (fun els => Xml.valueOf els 0 (ascii "a")) = .ok (some (ascii "1")) := by decide +kernel

/-- C75 fails: looking for the value of an empty element reads past the elements. -/
theorem C75_empty_violated : ask (ascii "<r><a></a></r>") (fun els => Xml.valueOf els 0 (ascii "a")) = .ub := by decide +kernel

/-- C75 fails: text with a `<` is not read back. -/
theorem C75_text_violated : ask (close (addValue (openRoot [] (ascii "r")) 1 (ascii "a") (ascii "1<br/>2")) 0 true (ascii "r"))
      (fun els => Xml.valueOf els 0 (ascii "a")) = .ok (some (ascii "1")) := by decide +kernel

/-! ### C45 -/

attribute [local irreducible] document

/-- C45, for an id and a directory without `]]>`, and a directory: what is saved is loaded, whatever was in memory before, but for
`preferUtp` and `encryption`.  Missing: those two. -/
theorem C45_load_partial (s : Sys) (hd : s.dirty = true) (h : Storable s.settings.hashId s.settings.directory) (o : Config.Settings) (dir : List UInt8) :
    ∃ t, load dir { settings := o, file := (save s).file } = .ok t ∧ Kept s.settings t.settings
      ∧ t.settings.connection.preferUtp = o.connection.preferUtp ∧ t.settings.connection.encryption = o.connection.encryption := by
  have e : (save s).file = some (document s.settings) := by simp [save, hd]
  rw [e]
  obtain ⟨els, e1, e2⟩ := load_document s.settings o h
  refine ⟨{ settings := { s.settings with connection := { s.settings.connection with preferUtp := o.connection.preferUtp, encryption := o.connection.encryption } }, dirty := false, file := some (document s.settings) }, ?_, rfl, rfl, rfl⟩
  unfold load
  simp only [e1, Res.bind]
  simp only [Res.bind] at e2
  cases hi : loadInternal els o with
  | ok t =>
    rw [hi] at e2
    simp only at e2 ⊢
    rw [e2]
    simp [h.2.2.1]
  | ub => rw [hi] at e2; cases e2
  | diverge => rw [hi] at e2; cases e2

/-- C45 over any number of calls and restarts: quitting and starting again brings the settings back, but for
`preferUtp` and `encryption`.  Missing: those two, and histories that change the id or set a directory that cannot be stored. -/
theorem C45_restart_partial (h0 d0 : List UInt8) (hs : Storable h0 d0) (es : List Ev) (he : ∀ e ∈ es, Sound e) (id dir : List UInt8) :
    ∃ s s', run { settings := { hashId := h0 } } (.start h0 d0 :: es) = .ok s ∧ run s [.quit, .start id dir] = .ok s' ∧ Kept s.settings s'.settings := by
  obtain ⟨s0, e0, i0⟩ := inv_start (f := none) hs (by simp)
  obtain ⟨s, e1, i1⟩ := inv_run es i0 he
  obtain ⟨i2, e2, e3⟩ := inv_save i1
  refine ⟨s, { settings := { s.settings with connection := { s.settings.connection with preferUtp := false, encryption := .allow } }
               dirty := false, file := some (document s.settings) }, ?_, ?_, ?_⟩
  · simp only [run, step, e0, Res.bind]; exact e1
  · simp only [run, step, Res.bind, e3]
    rw [start_document s.settings i1.good]
  · rfl

/-- C45: settings that were changed by a call are there after the next start, even if the program did not quit in between, but for `preferUtp` and
`encryption`.  Missing: those two. -/
theorem C45_crash_partial (s s1 : Sys) (e : Ev) (hs : Storable s1.settings.hashId s1.settings.directory)
    (he : match e with | .setConnection _ | .setDht _ | .setFiles _ | .setTransfer _ _ => True | _ => False)
    (h : step s e = .ok s1) (hc : s1.settings ≠ s.settings) (id dir : List UInt8) :
    ∃ s2, step s1 (.start id dir) = .ok s2 ∧ Kept s1.settings s2.settings := by
  have hf : s1.file = some (document s1.settings) := by
    cases e with
    | setConnection c =>
      simp only [step, Res.ok.injEq, setConnection] at h
      split at h
      · rw [← h]; simp [trigger, save]
      · rw [← h] at hc; exact absurd rfl hc
    | setDht b =>
      simp only [step, Res.ok.injEq, setDht] at h
      split at h
      · rw [← h]; simp [trigger, save]
      · rw [← h] at hc; exact absurd rfl hc
    | setFiles b =>
      simp only [step, Res.ok.injEq, setFiles] at h
      split at h
      · rw [← h]; simp [trigger, save]
      · rw [← h] at hc; exact absurd rfl hc
    | setTransfer b u =>
      simp only [step, Res.ok.injEq, setTransfer] at h
      split at h
      · rw [← h]; simp [trigger, save]
      · rw [← h] at hc; exact absurd rfl hc
    | setInternal _ => exact absurd he (by simp)
    | quit => exact absurd he (by simp)
    | start _ _ => exact absurd he (by simp)
  refine ⟨{ settings := { s1.settings with connection := { s1.settings.connection with preferUtp := false, encryption := .allow } }
            dirty := false, file := some (document s1.settings) }, ?_, ?_⟩
  · simp only [step, hf]
    rw [start_document s1.settings hs]
  · rfl

/-- C45: values that are set are the values seen, but for `preferUtp` alone.  Missing: that one. -/
theorem C45_set_partial (s : Sys) (c : Connection) (b : Bool) (d : List UInt8) (x y : UInt32) :
    { (setConnection s c).settings.connection with preferUtp := c.preferUtp } = c ∧ (setDht s b).settings.dht = b
      ∧ (setFiles s d).settings.directory = d
      ∧ (setTransfer s x y).settings.maxDownloadSpeed = x ∧ (setTransfer s x y).settings.maxUploadSpeed = y := by
  refine ⟨?_, ?_, ?_, ?_, ?_⟩
  · unfold setConnection
    simp only
    split
    · simp [trigger, save]
    · rename_i h
      simp only [not_or, ne_eq, Decidable.not_not] at h
      obtain ⟨h1, h2, h3, h4, h5, h6, h7, h8, h9⟩ := h
      cases c
      simp_all
  · unfold setDht; split <;> simp_all [trigger, save]
  · unfold setFiles; split <;> simp_all [trigger, save]
  · unfold setTransfer; split <;> simp_all [trigger, save]
  · unfold setTransfer; split <;> simp_all [trigger, save]

/-- An id. -/
def someId : List UInt8 := ascii "-mt0900-abcdefghijkl"

example : Storable someId (ascii "/home/me") := by
  have h : ∀ l, ¬ (ascii "]]>") <:+: l ↔ ∀ k ≤ l.length, (l.drop k).take 3 ≠ ascii "]]>" := by
    intro l
    constructor
    · intro h k _ e
      exact h ⟨l.take k, (l.drop k).drop 3, by rw [← e, List.append_assoc, List.take_append_drop, List.take_append_drop]⟩
    · rintro h ⟨a, b, rfl⟩
      exact h a.length (by simp) (by simp [ascii])
  refine ⟨by decide +kernel, ?_, by decide +kernel, ?_⟩ <;> rw [h] <;> decide +kernel

example : (run { settings := { hashId := someId } } [.start someId (ascii "/d"), .setConnection { tcpPort := 7 }, .setFiles (ascii "/x"), .quit,
    .start (ascii "-mt0900-000000000000") (ascii "/y")]).map' (fun s => (s.settings.connection.tcpPort, s.settings.directory, s.settings.hashId))
      = .ok (7, ascii "/x", someId) := by decide +kernel

/-- C45 fails: the encryption that was required is only allowed after a restart. -/
theorem C45_encryption_violated :
    (run { settings := { hashId := someId } } [.start someId (ascii "/d"), .setConnection { encryption := .require }, .quit, .start someId (ascii "/d")]).map'
      (fun s => s.settings.connection.encryption) = .ok .allow := by decide +kernel

/-- C45 fails: a preference for uTP is lost, and setting nothing else is ignored at once. -/
theorem C45_preferUtp_violated :
    (run { settings := { hashId := someId } } [.start someId (ascii "/d"), .setConnection { preferUtp := true, tcpPort := 7 }, .quit, .start someId (ascii "/d")]).map'
      (fun s => s.settings.connection.preferUtp) = .ok false ∧
    (run { settings := { hashId := someId } } [.start someId (ascii "/d"), .setConnection { preferUtp := true }]).map'
      (fun s => s.settings.connection.preferUtp) = .ok false := by decide +kernel

/-- C45 fails: a directory with `]]>` in its name is cut there. -/
theorem C45_directory_violated :
    (run { settings := { hashId := someId } } [.start someId (ascii "/d"), .setFiles (ascii "/a]]>b"), .quit, .start someId (ascii "/d")]).map'
      (fun s => s.settings.directory) = .ok (ascii "/a") := by decide +kernel

/-- C45 fails: with `]]><` in the name of the directory the file cannot be read any more, and all settings are lost. -/
theorem C45_unreadable_violated :
    (run { settings := { hashId := someId } } [.start someId (ascii "/d"), .setConnection { tcpPort := 7 }, .setFiles (ascii "/a]]><b>"), .quit,
      .start someId (ascii "/d")]).map' (fun s => (s.settings.connection.tcpPort, s.settings.directory)) = .ok (55125, ascii "/d") := by decide +kernel

/-- C45 fails: no directory becomes the directory of the process. -/
theorem C45_empty_violated :
    (run { settings := { hashId := someId } } [.start someId (ascii "/d"), .setFiles [], .quit, .start someId (ascii "/e")]).map'
      (fun s => s.settings.directory) = .ok (ascii "/e") := by decide +kernel

/-- C45 fails: a new id is not saved when nothing else has changed since loading. -/
theorem C45_id_violated :
    (run { settings := { hashId := someId } } [.start someId (ascii "/d"), .quit, .start someId (ascii "/d"), .setInternal (ascii "-mt0900-000000000000"), .quit,
      .start (ascii "-mt0900-111111111111") (ascii "/d")]).map' (fun s => s.settings.hashId) = .ok someId := by decide +kernel

end Verif
