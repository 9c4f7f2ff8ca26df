import Verif.Spec.Config
import Verif.Proof.Xml
import Verif.Proof.Bencode
/-! Loading what was saved. -/

namespace Verif.Config
open Verif Xml Bencode Spec.XmlTree Spec.Settings

/-- A number in the tree. -/
def numT (name : String) (n : Nat) : Tree := .text (ascii name) (dec n)

/-- The tree that is saved: the connection. -/
def connT (c : Connection) : Tree := .node (ascii "connection") [
  numT "tcpPort" c.tcpPort.toNat, numT "udpPort" c.udpPort.toNat, numT "maxTorrentConnections" c.maxTorrentConnections.toNat,
  numT "upnpPortMapping" (num c.upnpPortMapping), numT "enableTcpIn" (num c.enableTcpIn), numT "enableTcpOut" (num c.enableTcpOut),
  numT "enableUtpIn" (num c.enableUtpIn), numT "enableUtpOut" (num c.enableUtpOut)]

def dhtT (s : Settings) : Tree := .node (ascii "dht") [numT "enabled" (num s.dht)]
def transferT (s : Settings) : Tree := .node (ascii "transfer") [numT "maxDownloadSpeed" s.maxDownloadSpeed.toNat, numT "maxUploadSpeed" s.maxUploadSpeed.toNat]
def filesT (s : Settings) : Tree := .node (ascii "files") [.cdata (ascii "directory") s.directory]
def internalT (s : Settings) : Tree := .node (ascii "internal") [.cdata (ascii "hashId") s.hashId]
def externalT (s : Settings) : Tree := .node (ascii "external") [connT s.connection, dhtT s, transferT s, filesT s]
def rootK (s : Settings) : List Tree := [internalT s, externalT s]

set_option maxRecDepth 8000 in
theorem document_tree (s : Settings) : document s = (Tree.node (ascii "config") (rootK s)).write 0 := by
  simp only [document, rootK, internalT, externalT, connT, dhtT, transferT, filesT, numT, Tree.write, writeKids, openRoot, openChild,
    close, addValue, addCData, Xml.addNumber, indent, if_true, Bool.false_eq_true, if_false]
  simp only [List.append_assoc, List.cons_append, List.nil_append, List.append_nil]

attribute [local irreducible] document

theorem dec_noLt (n : Nat) : chr '<' ∉ dec n := by
  intro h
  exact absurd (dec_digits n _ h) (by decide)

theorem good_num {name : String} (n : Nat) (h : GoodName (ascii name)) : (numT name n).Good := ⟨h, dec_noLt n⟩

theorem good_tree (s : Settings) (h : Storable s.hashId s.directory) : (Tree.node (ascii "config") (rootK s)).Good := by
  obtain ⟨_, h1, _, h2⟩ := h
  simp only [rootK, internalT, externalT, connT, dhtT, transferT, filesT, numT, Tree.Good, goodKids]
  refine ⟨?_, by simp, ⟨?_, by simp, ⟨?_, h1⟩, trivial⟩, ⟨?_, by simp, ⟨?_, by simp, ⟨?_, dec_noLt _⟩, ⟨?_, dec_noLt _⟩, ⟨?_, dec_noLt _⟩, ⟨?_, dec_noLt _⟩,
    ⟨?_, dec_noLt _⟩, ⟨?_, dec_noLt _⟩, ⟨?_, dec_noLt _⟩, ⟨?_, dec_noLt _⟩, trivial⟩, ⟨?_, by simp, ⟨?_, dec_noLt _⟩, trivial⟩,
    ⟨?_, by simp, ⟨?_, dec_noLt _⟩, ⟨?_, dec_noLt _⟩, trivial⟩, ⟨?_, by simp, ⟨?_, h2⟩, trivial⟩, trivial⟩, trivial⟩ <;>
  (unfold GoodName; decide)

theorem count_tree (s : Settings) : (Tree.node (ascii "config") (rootK s)).count < 65536 := by
  simp only [rootK, internalT, externalT, connT, dhtT, transferT, filesT, numT, Tree.count, countKids]
  simp [dec_ne_nil]

theorem strtoull_dec (n : Nat) (h : n < 18446744073709551616) : strtoull (dec n) = n := by
  obtain ⟨d, ds, e, hd⟩ := dec_head n
  have hs : isSpace d = false := by
    unfold isDigit at hd; unfold isSpace
    simp at hd ⊢; omega
  have hm : d ≠ chr '-' ∧ d ≠ chr '+' := by
    constructor <;> (rintro rfl; exact absurd hd (by decide))
  have e1 : (dec n).dropWhile isSpace = dec n := by rw [e]; simp [hs]
  have e2 : (dec n).head? = some d := by rw [e]; rfl
  have e3 : (dec n).takeWhile isDigit = dec n := takeWhile_all' (dec_digits n)
  unfold strtoull
  simp only [e1, e2, Option.some.injEq, hm.1, hm.2, or_self, if_false, e3, decVal_dec]
  rw [if_neg (by omega)]

/-- The first child of a name. -/
theorem first_at {els : List El} {k : Nat} {t c : Tree} {name : List UInt8} (hg : t.Good) (h : AtTree els k t)
    (hf : t.kids.find? (fun c => c.name = name) = some c) :
    ∃ j, firstNode els k name = .ok (some j) ∧ AtTree els j c ∧ Shows els j c ∧ c.Good := by
  have e : (t.kids.filter fun c => c.name = name)[0]? = some c := by
    rw [← List.head?_eq_getElem?, List.head?_filter]; exact hf
  obtain ⟨j, es, h1, h2, h3⟩ := (step_at hg h name 0).2 c e
  refine ⟨j, ?_, h2.tree.1, h2.tree.2, h3⟩
  cases hfn : firstNode els k name with
  | ok o =>
    rw [hfn] at h1
    cases o with
    | none => simp [Res.bind, next] at h1
    | some i => simpa [Res.bind, next] using h1
  | ub => rw [hfn] at h1; simp [Res.bind] at h1
  | diverge => rw [hfn] at h1; simp [Res.bind] at h1

theorem number_at {els : List El} {k : Nat} {t : Tree} {name : String} {n : Nat} (hg : t.Good) (h : AtTree els k t)
    (hf : t.kids.find? (fun c => c.name = ascii name) = some (numT name n)) (hn : n < 18446744073709551616) :
    number els k name = .ok (some n) := by
  obtain ⟨j, h1, h2, h3, h4⟩ := first_at hg h hf
  have h3 : value els j = .ok (dec n) := h3
  simp [number, h1, Res.bind, valueNumber, h3, dec_ne_nil, strtoull_dec n hn]

theorem num_lt (b : Bool) : num b < 18446744073709551616 := by cases b <;> decide
theorem num_back (b : Bool) : (num b != 0) = b := by cases b <;> decide
theorem u16_lt (n : UInt16) : n.toNat < 18446744073709551616 := by have := n.toNat_lt; omega
theorem u32_lt (n : UInt32) : n.toNat < 18446744073709551616 := by have := n.toNat_lt; omega

theorem conn_at {els : List El} {k : Nat} {c : Connection} (hg : (connT c).Good) (h : AtTree els k (connT c)) (o : Connection) :
    loadConnection els k o = .ok { c with preferUtp := o.preferUtp, encryption := o.encryption } := by
  have f : ∀ (name : String) (n : Nat), (connT c).kids.find? (fun c => c.name = ascii name) = some (numT name n) → n < 18446744073709551616 →
      number els k name = .ok (some n) := fun name n => number_at hg h
  unfold loadConnection
  rw [f "tcpPort" c.tcpPort.toNat (by rfl) (u16_lt _),
    f "udpPort" c.udpPort.toNat (by rfl) (u16_lt _),
    f "maxTorrentConnections" c.maxTorrentConnections.toNat (by rfl) (u32_lt _),
    f "upnpPortMapping" (num c.upnpPortMapping) (by rfl) (num_lt _),
    f "enableTcpIn" (num c.enableTcpIn) (by rfl) (num_lt _),
    f "enableTcpOut" (num c.enableTcpOut) (by rfl) (num_lt _),
    f "enableUtpIn" (num c.enableUtpIn) (by rfl) (num_lt _),
    f "enableUtpOut" (num c.enableUtpOut) (by rfl) (num_lt _)]
  simp [orOld, num_back]

theorem part_at {els : List El} {k : Nat} {t c : Tree} {name : String} (hg : t.Good) (h : AtTree els k t)
    (hf : t.kids.find? (fun c => c.name = ascii name) = some c) {s : Settings} {f : Nat → Res Settings} :
    ∃ j, part els k name s f = f j ∧ AtTree els j c ∧ c.Good := by
  obtain ⟨j, h1, h2, _, h4⟩ := first_at hg h hf
  exact ⟨j, by simp [part, h1, Res.bind], h2, h4⟩

theorem connection_at {els : List El} {x : Nat} {s o : Settings} (hg : (externalT s).Good) (hx : AtTree els x (externalT s)) :
    loadConnectionPart els x o = .ok { o with connection := { s.connection with preferUtp := o.connection.preferUtp, encryption := o.connection.encryption } } := by
  obtain ⟨c, ec, hc, hgc⟩ := part_at (name := "connection") (c := connT s.connection) hg hx rfl (s := o)
    (f := fun i => (loadConnection els i o.connection).bind fun c => .ok { o with connection := c })
  unfold loadConnectionPart
  rw [ec, conn_at hgc hc]; rfl

theorem dht_at {els : List El} {x : Nat} {s o : Settings} (hg : (externalT s).Good) (hx : AtTree els x (externalT s)) :
    loadDht els x o = .ok { o with dht := s.dht } := by
  obtain ⟨d, ed, hd, hgd⟩ := part_at (name := "dht") (c := dhtT s) hg hx rfl (s := o)
    (f := fun i => (number els i "enabled").bind fun v => .ok { o with dht := orOld v (· != 0) o.dht })
  unfold loadDht
  rw [ed, number_at (n := num s.dht) hgd hd rfl (num_lt _)]
  simp only [Res.bind, orOld, num_back]

theorem transfer_at {els : List El} {x : Nat} {s o : Settings} (hg : (externalT s).Good) (hx : AtTree els x (externalT s)) :
    loadTransfer els x o = .ok { o with maxDownloadSpeed := s.maxDownloadSpeed, maxUploadSpeed := s.maxUploadSpeed } := by
  obtain ⟨t, et, ht, hgt⟩ := part_at (name := "transfer") (c := transferT s) hg hx rfl (s := o)
    (f := fun i => (number els i "maxDownloadSpeed").bind fun d => (number els i "maxUploadSpeed").bind fun u =>
      .ok { o with maxDownloadSpeed := orOld d UInt32.ofNat o.maxDownloadSpeed
                   maxUploadSpeed := orOld u UInt32.ofNat o.maxUploadSpeed })
  unfold loadTransfer
  rw [et, number_at (n := s.maxDownloadSpeed.toNat) hgt ht rfl (u32_lt _), number_at (n := s.maxUploadSpeed.toNat) hgt ht rfl (u32_lt _)]
  simp only [Res.bind, orOld, UInt32.ofNat_toNat]

theorem files_at {els : List El} {x : Nat} {s o : Settings} (hg : (externalT s).Good) (hx : AtTree els x (externalT s)) :
    loadFiles els x o = .ok { o with directory := s.directory } := by
  obtain ⟨f, ef, hf, hgf⟩ := part_at (name := "files") (c := filesT s) hg hx rfl (s := o)
    (f := fun i => (firstNode els i (ascii "directory")).bind fun d =>
      match d with
      | none => .ok o
      | some d => (value els d).bind fun v => .ok { o with directory := v })
  obtain ⟨j, ej, _, hj, _⟩ := first_at (name := ascii "directory") (c := .cdata (ascii "directory") s.directory) hgf hf rfl
  have hj : value els j = .ok s.directory := hj
  unfold loadFiles
  refine Eq.trans ef ?_
  rw [ej]
  simp only [Res.bind, hj]

/-- What is saved is loaded. -/
theorem load_document (s o : Settings) (h : Storable s.hashId s.directory) :
    ∃ els, parse (document s) = .ok (some els) ∧
      (loadInternal els o).bind (loadExternal els)
        = .ok { s with connection := { s.connection with preferUtp := o.connection.preferUtp, encryption := o.connection.encryption } } := by
  have hg := good_tree s h
  refine ⟨_, by rw [document_tree]; exact parse_tree _ _ hg (count_tree s), ?_⟩
  generalize hels : flat 0 0 (Tree.node (ascii "config") (rootK s)) = els
  have hr : AtTree els 0 (Tree.node (ascii "config") (rootK s)) := ⟨0, 0, [], [], by simp [hels], rfl⟩
  have hi : loadInternal els o = .ok { o with hashId := s.hashId } := by
    obtain ⟨j, e, ha, hgi⟩ := part_at (name := "internal") (c := internalT s) hg hr rfl (s := o)
      (f := fun i => (valueOf els i (ascii "hashId")).bind fun id => .ok (if id.length = 20 then { o with hashId := id } else o))
    unfold loadInternal
    rw [e]
    obtain ⟨j', e', _, hs, _⟩ := first_at (name := ascii "hashId") (c := .cdata (ascii "hashId") s.hashId) hgi ha rfl
    have hs : value els j' = .ok s.hashId := hs
    simp [valueOf, e', hs, Res.bind, h.1]
  rw [hi]
  show loadExternal els _ = _
  unfold loadExternal
  obtain ⟨x, e, hx, hgx⟩ := part_at (name := "external") (c := externalT s) hg hr rfl (s := { o with hashId := s.hashId }) (f := fun x =>
    (loadConnectionPart els x { o with hashId := s.hashId }).bind fun s => (loadDht els x s).bind fun s => (loadTransfer els x s).bind fun s => loadFiles els x s)
  rw [e, connection_at hgx hx]
  simp only [Res.bind]
  rw [dht_at hgx hx]
  simp only
  rw [transfer_at hgx hx]
  simp only
  rw [files_at hgx hx]

/-- Starting with a saved file. -/
theorem start_document (s : Settings) (h : Storable s.hashId s.directory) (id dir : List UInt8) :
    load dir { settings := { hashId := id }, file := some (document s) }
      = .ok { settings := { s with connection := { s.connection with preferUtp := false, encryption := .allow } }, dirty := false, file := some (document s) } := by
  obtain ⟨els, e1, e2⟩ := load_document s { hashId := id } h
  unfold load
  simp only [e1, Res.bind]
  simp only [Res.bind] at e2
  cases hi : loadInternal els { hashId := id } with
  | ok t =>
    rw [hi] at e2
    simp only at e2 ⊢
    rw [e2]
    simp [h.2.2.1]
  | ub => rw [hi] at e2; cases e2
  | diverge => rw [hi] at e2; cases e2

theorem document_kept {s t : Settings} (h : Kept s t) : document t = document s := by
  have : rootK t = rootK s := by rw [h]; rfl
  rw [document_tree, document_tree, this]

/-- Between calls: the file is what is in memory, or memory is waiting to be saved. -/
structure Inv (s : Sys) : Prop where
  good : Storable s.settings.hashId s.settings.directory
  file : s.dirty = true ∨ s.file = some (document s.settings)
  old : ∀ d, s.file = some d → ∃ t : Settings, d = document t ∧ Storable t.hashId t.directory

theorem inv_save {s : Sys} (h : Inv s) : Inv (save s) ∧ (save s).settings = s.settings ∧ (save s).file = some (document s.settings) := by
  unfold save
  by_cases hd : s.dirty = true
  · rw [if_pos hd]
    exact ⟨⟨h.good, .inr rfl, fun d e => ⟨s.settings, by simpa using e.symm, h.good⟩⟩, rfl, rfl⟩
  · rw [if_neg hd]
    exact ⟨h, rfl, h.file.resolve_left hd⟩

theorem inv_trigger {s : Sys} (h : Inv s) {t : Settings} (ht : Storable t.hashId t.directory) :
    Inv (trigger { s with settings := t }) ∧ (trigger { s with settings := t }).file = some (document t) := by
  have := inv_save (s := { s with settings := t, dirty := true }) ⟨ht, .inl rfl, h.old⟩
  exact ⟨this.1, this.2.2⟩

theorem inv_start {f : Option (List UInt8)} {id dir : List UInt8} (hs : Storable id dir)
    (hf : ∀ d, f = some d → ∃ t : Settings, d = document t ∧ Storable t.hashId t.directory) :
    ∃ s, load dir { settings := { hashId := id }, file := f } = .ok s ∧ Inv s := by
  cases f with
  | none => exact ⟨_, rfl, ⟨by simpa using hs, .inl rfl, fun d e => by simp at e⟩⟩
  | some d =>
    obtain ⟨t, hd, ht⟩ := hf d rfl
    subst hd
    refine ⟨_, start_document t ht id dir, ⟨ht, .inr ?_, fun d e => ⟨t, by simpa using e.symm, ht⟩⟩⟩
    exact congrArg some (document_kept (s := t) (t := { t with connection := { t.connection with preferUtp := false, encryption := .allow } }) rfl).symm

theorem inv_step {s : Sys} (h : Inv s) {e : Ev} (he : Sound e) : ∃ s', step s e = .ok s' ∧ Inv s' := by
  cases e with
  | setConnection c =>
    refine ⟨_, rfl, ?_⟩
    unfold setConnection
    simp only
    split
    · exact (inv_trigger h (t := { s.settings with connection := c }) h.good).1
    · exact h
  | setDht b =>
    refine ⟨_, rfl, ?_⟩
    unfold setDht
    split
    · exact (inv_trigger h (t := { s.settings with dht := b }) h.good).1
    · exact h
  | setFiles d =>
    refine ⟨_, rfl, ?_⟩
    unfold setFiles
    split
    · exact (inv_trigger h (t := { s.settings with directory := d }) ⟨h.good.1, h.good.2.1, he.1, he.2⟩).1
    · exact h
  | setTransfer d u =>
    refine ⟨_, rfl, ?_⟩
    unfold setTransfer
    split
    · exact (inv_trigger h (t := { s.settings with maxDownloadSpeed := d, maxUploadSpeed := u }) h.good).1
    · exact h
  | setInternal _ => exact absurd he (by simp [Sound])
  | quit => exact ⟨_, rfl, (inv_save h).1⟩
  | start id dir => exact inv_start he h.old

theorem inv_run : (es : List Ev) → {s : Sys} → Inv s → (∀ e ∈ es, Sound e) → ∃ s', run s es = .ok s' ∧ Inv s'
  | [], s, h, _ => ⟨s, rfl, h⟩
  | e :: es, s, h, he => by
    obtain ⟨s1, e1, h1⟩ := inv_step h (he e (by simp))
    obtain ⟨s2, e2, h2⟩ := inv_run es h1 (fun x hx => he x (by simp [hx]))
    exact ⟨s2, by simp [run, e1, Res.bind, e2], h2⟩

end Verif.Config
