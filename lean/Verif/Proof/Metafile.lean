import Verif.Proof.BencodeGet
import Verif.Model.Metafile
import Verif.Spec.Metafile
import Verif.Props.Bencode
import Verif.Proof.Layout

namespace Verif.Metafile
open Verif Bencode Spec.Metafile

/-! ### Entries of dictionaries -/

theorem lookup_entry {key : String} {ty : Ty} {v : BVal} (hv : v.ty = ty) : ∀ {kvs : List (List UInt8 × BVal)},
    entry kvs key = some v → lookup kvs (ascii key) ty = some v
  | [], h => by simp [entry] at h
  | kv :: kvs, h => by
    unfold lookup
    unfold entry at h
    rw [List.find?_cons] at h
    by_cases hk : kv.1 = ascii key
    · simp [hk] at h
      rw [if_pos ⟨hk, by rw [h]; exact hv⟩, h]
    · have : (kv.1 == ascii key) = false := by simpa using hk
      rw [this] at h
      rw [if_neg (fun x => hk x.1)]
      exact lookup_entry hv h

theorem lookup_entry_none {key : String} (ty : Ty) : ∀ {kvs : List (List UInt8 × BVal)},
    entry kvs key = none → lookup kvs (ascii key) ty = none
  | [], _ => rfl
  | kv :: kvs, h => by
    unfold lookup
    unfold entry at h
    rw [List.find?_cons] at h
    by_cases hk : kv.1 = ascii key
    · simp [hk] at h
    · have : (kv.1 == ascii key) = false := by simpa using hk
      rw [this] at h
      rw [if_neg (fun x => hk x.1)]
      exact lookup_entry_none ty h

theorem entry_split {key : String} {v : BVal} : ∀ {kvs : List (List UInt8 × BVal)}, entry kvs key = some v →
    ∃ a b, kvs = a ++ (ascii key, v) :: b ∧ ∀ x ∈ a, x.1 ≠ ascii key
  | [], h => by simp [entry] at h
  | kv :: kvs, h => by
    unfold entry at h
    rw [List.find?_cons] at h
    by_cases hk : kv.1 = ascii key
    · simp [hk] at h
      refine ⟨[], kvs, ?_, by simp⟩
      rw [← hk, ← h]; rfl
    · have hb : (kv.1 == ascii key) = false := by simpa using hk
      rw [hb] at h
      obtain ⟨a, b, h1, h2⟩ := entry_split (kvs := kvs) h
      refine ⟨kv :: a, b, by rw [h1]; rfl, ?_⟩
      intro x hx
      rcases List.mem_cons.mp hx with rfl | hx
      · exact hk
      · exact h2 x hx

theorem entry_fits {key : String} {v : BVal} {kvs : List (List UInt8 × BVal)} (hf : fitsDict kvs) (h : entry kvs key = some v) :
    v.fits := by
  obtain ⟨a, b, rfl, _⟩ := entry_split h
  exact (show _ ∧ v.fits ∧ _ from (fitsDict_append.mp hf).2).2.1

variable {mem : List UInt8} {objs : List Obj}

theorem find_entry {k pos : Nat} {kvs : List (List UInt8 × BVal)} (h : AtPos mem objs k (.dict kvs) pos) {key : String} {ty : Ty} {v : BVal}
    (hv : v.ty = ty) (he : entry kvs key = some v) :
    ∃ j pos', findKey mem objs k (ascii key) ty = .ok (some j) ∧ AtPos mem objs j v pos' := by
  have := findKey_lookup h (ascii key) ty
  rw [lookup_entry hv he] at this
  exact this.2

theorem find_entry_none {k pos : Nat} {kvs : List (List UInt8 × BVal)} (h : AtPos mem objs k (.dict kvs) pos) {key : String} (ty : Ty)
    (he : entry kvs key = none) : findKey mem objs k (ascii key) ty = .ok none := by
  have := findKey_lookup h (ascii key) ty
  rw [lookup_entry_none ty he] at this
  exact this

theorem big_entry {k pos : Nat} {kvs : List (List UInt8 × BVal)} (h : AtPos mem objs k (.dict kvs) pos) (hf : fitsDict kvs) {key : String}
    {n : Option Nat} (he : entry kvs key = n.map .int) : getBigIntKey mem objs k (ascii key) = .ok (n.getD 0) := by
  rw [getBigIntKey_dict h]
  · cases n with
    | none => rw [lookup_entry_none .number he]; rfl
    | some n => rw [lookup_entry (ty := .number) (v := .int n) rfl he]; rfl
  · intro m hm
    cases n with
    | none => rw [lookup_entry_none .number he] at hm; cases hm
    | some n =>
      rw [lookup_entry (ty := .number) (v := .int n) rfl he] at hm
      cases hm
      exact entry_fits hf he

theorem int_entry {k pos : Nat} {kvs : List (List UInt8 × BVal)} (h : AtPos mem objs k (.dict kvs) pos) {key : String}
    {n : Option Nat} (hn : ∀ m, n = some m → m < 2 ^ 63) (he : entry kvs key = n.map .int) :
    getIntKey mem objs k (ascii key) = .ok (toInt32 (n.getD 0)) := by
  rw [getIntKey_dict h]
  · cases n with
    | none => rw [lookup_entry_none .number he]; rfl
    | some n => rw [lookup_entry (ty := .number) (v := .int n) rfl he]; rfl
  · intro m hm
    cases n with
    | none => rw [lookup_entry_none .number he] at hm; cases hm
    | some n =>
      rw [lookup_entry (ty := .number) (v := .int n) rfl he] at hm
      cases hm
      exact hn _ rfl

theorem txtItem_entry {k pos : Nat} {kvs : List (List UInt8 × BVal)} (h : AtPos mem objs k (.dict kvs) pos) {key : String}
    {s : Option (List UInt8)} (he : entry kvs key = s.map .str) : getTxtItem mem objs k (ascii key) = .ok s := by
  rw [getTxtItem_dict h]
  cases s with
  | none => rw [lookup_entry_none .text he]
  | some s => rw [lookup_entry (ty := .text) (v := .str s) rfl he]

theorem txt_entry {k pos : Nat} {kvs : List (List UInt8 × BVal)} (h : AtPos mem objs k (.dict kvs) pos) {key : String}
    {s : Option (List UInt8)} (he : entry kvs key = s.map .str) : getTxtKey mem objs k (ascii key) = .ok (s.getD []) := by
  unfold getTxtKey
  rw [txtItem_entry h he]
  rfl

/-! ### Files -/

/-- Only the last object has no next one. -/
def Lasts (objs : List Obj) : List Nat → Prop
  | [] => True
  | [k] => ∃ o, rd objs k = .ok o ∧ o.next = 0
  | k :: k' :: ks => (∃ o, rd objs k = .ok o ∧ o.next ≠ 0) ∧ Lasts objs (k' :: ks)

theorem itemsLoop_lasts : ∀ (n : Nat) (f : Option Nat) (js : List Nat), itemsLoop objs n f = .ok js →
    (f = none → js = []) ∧ (∀ k, f = some k → ∃ ks, js = k :: ks) ∧ Lasts objs js
  | _, none, js, h => by
    simp only [itemsLoop] at h
    cases h
    exact ⟨fun _ => rfl, (fun k hk => by cases hk), trivial⟩
  | 0, some k, js, h => by cases h
  | n + 1, some k, js, h => by
    simp only [itemsLoop] at h
    unfold nextSibling at h
    cases ho : rd objs k with
    | ub => rw [ho] at h; cases h
    | diverge => rw [ho] at h; cases h
    | ok o =>
      rw [ho] at h
      simp only [Res.bind_ok, Res.pure_eq] at h
      cases hi : itemsLoop objs n (if o.next ≠ 0 then some (k + o.next) else none) with
      | ub => rw [hi] at h; cases h
      | diverge => rw [hi] at h; cases h
      | ok ks =>
        rw [hi] at h
        cases h
        obtain ⟨h1, h2, h3⟩ := itemsLoop_lasts n _ ks hi
        refine ⟨(fun hn => by cases hn), (fun k' hk => by cases hk; exact ⟨ks, rfl⟩), ?_⟩
        by_cases hx : o.next = 0
        · rw [h1 (by simp [hx])]
          exact ⟨o, ho, hx⟩
        · obtain ⟨ks', hk⟩ := h2 (k + o.next) (by simp [hx])
          rw [hk] at h3 ⊢
          exact ⟨⟨o, ho, hx⟩, h3⟩

theorem items_lasts {k : Nat} {js : List Nat} (h : items objs k = .ok js) : Lasts objs js := by
  unfold items at h
  cases hf : firstItem objs k with
  | ub => rw [hf] at h; cases h
  | diverge => rw [hf] at h; cases h
  | ok f =>
    rw [hf] at h
    exact (itemsLoop_lasts _ _ _ h).2.2

theorem pathLoop_strs : ∀ (p : List (List UInt8)) (js : List Nat) (f : FileName), AtAll mem objs js (p.map .str) → Lasts objs js →
    p ≠ [] → ∃ g, pathLoop mem objs js f = .ok g ∧ g.path ++ [g.name] = f.path ++ p
  | [], _, _, _, _, h => absurd rfl h
  | s :: p, [], f, ha, hl, _ => by cases ha
  | [s], k :: k' :: ks, f, ha, hl, _ => by cases ha.2
  | [s], [k], f, ha, hl, _ => by
    obtain ⟨⟨pos, hat⟩, _⟩ := ha
    obtain ⟨o, h1, h2, h3, _⟩ := hat.str
    obtain ⟨o', h4, h5⟩ := hl
    rw [h1] at h4; cases h4
    refine ⟨{ f with name := txt mem o }, ?_, ?_⟩
    · unfold pathLoop
      rw [h1, Res.bind_ok, if_pos h5]
      rfl
    · unfold txt
      rw [if_pos h2, h3]
  | s :: s' :: p, [k], f, ha, hl, _ => by cases ha.2
  | s :: s' :: p, k :: k' :: ks, f, ha, hl, _ => by
    obtain ⟨⟨pos, hat⟩, ha'⟩ := ha
    obtain ⟨o, h1, h2, h3, _⟩ := hat.str
    obtain ⟨⟨o', h4, h5⟩, hl'⟩ := hl
    rw [h1] at h4; cases h4
    obtain ⟨g, hg, hp⟩ := pathLoop_strs (s' :: p) (k' :: ks) { f with path := f.path ++ [txt mem o] } ha' hl' (by simp)
    refine ⟨g, ?_, ?_⟩
    · rw [pathLoop.eq_def]
      simp only [h1, Res.bind_ok, if_neg h5]
      exact hg
    · rw [hp]
      unfold txt
      rw [if_pos h2, h3]
      simp

theorem readFile_at {k pos : Nat} {v : BVal} (h : AtPos mem objs k v pos) (hf : v.fits) {f : List (List UInt8) × Nat} (hi : IsFile v f)
    (hp : f.1 ≠ []) (np : List UInt8) :
    ∃ g, readFile mem objs np k = .ok (g, f.2) ∧ g.path ++ [g.name] = np :: f.1 := by
  obtain ⟨kvs, rfl, hlen, hpath⟩ := hi
  obtain ⟨j, pos', hj, hat⟩ := find_entry h (ty := .list) rfl hpath
  obtain ⟨js, hjs, hall⟩ := items_list hat
  obtain ⟨g, hg, hgp⟩ := pathLoop_strs f.1 js ⟨[], [np]⟩ hall (items_lasts hjs) hp
  refine ⟨g, ?_, by simpa using hgp⟩
  have hrp : readPath mem objs np k = .ok g := by
    unfold readPath
    rw [hj]
    simp only [Res.bind_ok]
    rw [hjs, Res.bind_ok, hg]
  unfold readFile
  rw [hrp, Res.bind_ok, big_entry (n := some f.2) h hf hlen]
  rfl

theorem readFiles_at (np : List UInt8) : ∀ (vs : List BVal) (fs : List (List (List UInt8) × Nat)) (js : List Nat),
    AtAll mem objs js vs → fitsList vs → AreFiles vs fs → (∀ f ∈ fs, f.1 ≠ []) →
    ∃ gs, readFiles mem objs np js = .ok gs ∧ gs.map (·.2) = fs.map (·.2) ∧
      gs.map (fun g => g.1.path ++ [g.1.name]) = fs.map (fun f => np :: f.1)
  | [], [], [], _, _, _, _ => ⟨[], rfl, rfl, rfl⟩
  | [], [], _ :: _, h, _, _, _ => by cases h
  | [], _ :: _, _, _, _, h, _ => by cases h
  | _ :: _, [], _, _, _, h, _ => by cases h
  | _ :: _, _ :: _, [], h, _, _, _ => by cases h
  | v :: vs, f :: fs, k :: ks, ha, hf, hi, hp => by
    obtain ⟨⟨pos, hat⟩, ha'⟩ := ha
    have hf' : v.fits ∧ fitsList vs := by simpa [fitsList] using hf
    obtain ⟨g, hg, hgp⟩ := readFile_at hat hf'.1 hi.1 (hp f (by simp)) np
    obtain ⟨gs, h1, h2, h3⟩ := readFiles_at np vs fs ks ha' hf'.2 hi.2 (fun x hx => hp x (by simp [hx]))
    refine ⟨(g, f.2) :: gs, ?_, ?_, ?_⟩
    · unfold readFiles
      rw [hg, Res.bind_ok, h1]
      rfl
    · simp only [List.map_cons, h2]
    · simp only [List.map_cons, hgp, h3]

theorem chunks_flatten : ∀ (ps : List (List UInt8)), (∀ h ∈ ps, h.length = 20) → chunks ps.length ps.flatten = ps
  | [], _ => rfl
  | p :: ps, h => by
    have hp := h p (by simp)
    simp only [List.length_cons, List.flatten_cons, chunks]
    rw [show (p ++ ps.flatten).take 20 = p by rw [← hp, List.take_left],
      show (p ++ ps.flatten).drop 20 = ps.flatten by rw [← hp, List.drop_left], chunks_flatten ps (fun x hx => h x (by simp [hx]))]

theorem flatten_length20 : ∀ (ps : List (List UInt8)), (∀ h ∈ ps, h.length = 20) → ps.flatten.length = 20 * ps.length
  | [], _ => rfl
  | p :: ps, h => by
    rw [List.flatten_cons, List.length_append, h p (by simp), flatten_length20 ps (fun x hx => h x (by simp [hx]))]
    simp; omega

theorem cstr_id {s : List UInt8} (h : 0 ∉ s) : cstr s = s := by
  unfold cstr
  induction s with
  | nil => rfl
  | cons x s ih =>
    simp only [List.mem_cons, not_or] at h
    rw [List.takeWhile_cons, if_pos (by simpa using Ne.symm h.1), ih h.2]

/-! ### Layout -/

theorem fileLoop_sizes (ps : Nat) : ∀ (sum : Nat) (sizes : List Nat), (Layout.fileLoop ps sum sizes).1.map (·.size) = sizes
  | _, [] => rfl
  | sum, n :: sizes => by
    simp only [Layout.fileLoop, List.map_cons, fileLoop_sizes ps _ sizes]
    rfl

theorem finishInfo_kept (i : Layout.Info) : (Layout.finishInfo i).files = i.files ∧ (Layout.finishInfo i).pieceSize = i.pieceSize ∧
    (Layout.finishInfo i).piecesCount = i.piecesCount := by
  unfold Layout.finishInfo
  split <;> exact ⟨rfl, rfl, rfl⟩

/-- The list of lengths the layout is made from. -/
def lengthsOf (t : Torrent) : Layout.FileList :=
  match t.content with
  | .single n => .single n
  | .multi fs => .multi (fs.map (·.2))

theorem fileLoop_sum (ps : Nat) : ∀ (sum : Nat) (sizes : List Nat), sum + sizes.sum < 2 ^ 64 →
    (Layout.fileLoop ps sum sizes).2 = sum + sizes.sum
  | _, [], _ => rfl
  | sum, n :: sizes, h => by
    simp only [List.sum_cons] at h
    have hu : Layout.u64 (sum + n) = sum + n := by unfold Layout.u64; omega
    simp only [Layout.fileLoop, hu, List.sum_cons]
    rw [fileLoop_sum ps (sum + n) sizes (by omega)]
    omega

theorem finishInfo_full (i : Layout.Info) : (Layout.finishInfo i).fullSize = i.fullSize := by
  unfold Layout.finishInfo
  split <;> rfl

theorem parseInfo_ok (t : Torrent) (hp : 0 < t.pieceLength) (hs : t.lengths.sum < 2 ^ 64) :
    ∃ l, Layout.parseInfo t.pieceLength t.pieces.length (lengthsOf t) = .ok l ∧ l.files.map (·.size) = t.lengths ∧
      l.pieceSize = t.pieceLength ∧ l.piecesCount = t.pieces.length ∧ l.fullSize = t.lengths.sum := by
  revert hs
  unfold lengthsOf Torrent.lengths
  cases t.content with
  | single n =>
    intro _
    simp only [Layout.parseInfo, if_neg (Nat.pos_iff_ne_zero.mp hp)]
    refine ⟨_, rfl, ?_, ?_, ?_, ?_⟩
    · rw [(finishInfo_kept _).1]; rfl
    · rw [(finishInfo_kept _).2.1]
    · rw [(finishInfo_kept _).2.2]
    · rw [finishInfo_full]; simp
  | multi fs =>
    intro hs
    simp only [Layout.parseInfo, if_neg (show ¬ (fs.map (·.2) ≠ [] ∧ t.pieceLength = 0) by omega)]
    refine ⟨_, rfl, ?_, ?_, ?_, ?_⟩
    · rw [(finishInfo_kept _).1]; exact fileLoop_sizes _ _ _
    · rw [(finishInfo_kept _).2.1]
    · rw [(finishInfo_kept _).2.2]
    · rw [finishInfo_full]
      simp only
      rw [fileLoop_sum _ _ _ (by simpa using hs)]
      simp

theorem parseInfo_some (t : Torrent) (hp : 0 < t.pieceLength) :
    ∃ l, Layout.parseInfo t.pieceLength t.pieces.length (lengthsOf t) = .ok l := by
  unfold lengthsOf
  cases t.content with
  | single n =>
    simp only [Layout.parseInfo, if_neg (Nat.pos_iff_ne_zero.mp hp)]
    exact ⟨_, rfl⟩
  | multi fs =>
    simp only [Layout.parseInfo, if_neg (show ¬ (fs.map (·.2) ≠ [] ∧ t.pieceLength = 0) by omega)]
    exact ⟨_, rfl⟩

/-! ### The info dictionary -/

/-- What is read from an info dictionary. -/
structure Reads (t : Torrent) (i : Info) : Prop where
  name : i.name = t.name
  pieces : i.pieces = t.pieces
  priv : i.isPrivate = true ↔ t.priv.getD 0 ≠ 0
  paths : i.files.map (fun f => f.path ++ [f.name]) = t.paths
  layout : Layout.parseInfo t.pieceLength t.pieces.length (lengthsOf t) = .ok i.layout

theorem readInfo_at {k pos : Nat} {kvs : List (List UInt8 × BVal)} (h : AtPos mem objs k (.dict kvs) pos) (hf : fitsDict kvs) {t : Torrent}
    (hi : IsInfo kvs t) (hu : Usual t) :
    ∃ i, readInfo mem objs k = .ok i ∧ Reads t i ∧ i.hash = none ∧ i.data = [] := by
  obtain ⟨l, hl⟩ := parseInfo_some t hu.length.1
  have hps := int_entry (n := some t.pieceLength) h (by intro m hm; cases hm; have := hu.length.2; omega) hi.length
  have hsz : (toInt32 ((t.pieceLength : Nat) : Int) % 4294967296).toNat = t.pieceLength := by
    have := hu.length.2
    unfold toInt32; omega
  have hpc := txtItem_entry (s := some t.pieces.flatten) h hi.pieces
  have hpl := flatten_length20 t.pieces hu.hashes
  have hpr := int_entry (n := t.priv) h (by intro m hm; have := hu.priv m hm; omega) hi.priv
  have hpv0 : (toInt32 ((t.priv.getD 0 : Nat) : Int) != 0) = true ↔ t.priv.getD 0 ≠ 0 := by
    have : t.priv.getD 0 < 2 ^ 31 := by
      cases hp : t.priv with
      | none => simp
      | some n => exact hu.priv n hp
    rw [toInt32_id (by omega) (by omega), bne_iff_ne]
    omega
  generalize hpq : toInt32 ((t.priv.getD 0 : Nat) : Int) = q at hpr hpv0
  have hnm := txt_entry (s := some t.name) h hi.name
  have hch : (if t.pieces.flatten.length % 20 = 0 then chunks (t.pieces.flatten.length / 20) t.pieces.flatten else []) = t.pieces := by
    rw [if_pos (by omega), hpl, Nat.mul_div_cancel_left _ (by omega), chunks_flatten _ hu.hashes]
  have hco := hi.content
  unfold readInfo
  rw [hps, Res.bind_ok, hpc, Res.bind_ok, hpr, Res.bind_ok]
  simp only [Option.getD_some, hsz, hch]
  unfold lengthsOf at hl
  cases hc : t.content with
  | single n =>
    rw [hc] at hco
    simp only at hco
    simp only [hc] at hl
    rw [find_entry_none h .list hco.2]
    simp only [Res.bind_ok]
    rw [big_entry (n := some n) h hf hco.1, Res.bind_ok, hnm, Res.bind_ok]
    rw [Option.getD_some, Option.getD_some, hl, Res.bind_ok]
    refine ⟨_, rfl, ⟨rfl, rfl, hpv0, ?_, ?_⟩, rfl, rfl⟩
    · unfold Torrent.paths; rw [hc]; rfl
    · unfold lengthsOf; rw [hc]; exact hl
  | multi fs =>
    rw [hc] at hco
    simp only [hc] at hl
    obtain ⟨vs, hfe, hfs⟩ := hco
    obtain ⟨j, pos', hj, hat⟩ := find_entry h (ty := .list) rfl hfe
    obtain ⟨js, hjs, hall⟩ := items_list hat
    have hfv : fitsList vs := entry_fits hf hfe
    obtain ⟨gs, hg1, hg2, hg3⟩ := readFiles_at t.name vs fs js hall hfv hfs (hu.paths fs hc)
    rw [hj]
    simp only [Res.bind_ok]
    rw [hnm, Res.bind_ok, hjs, Res.bind_ok]
    simp only [Option.getD_some, cstr_id hu.name]
    rw [hg1, Res.bind_ok, hg2, hl]
    simp only [Res.bind_ok]
    refine ⟨_, rfl, ⟨rfl, rfl, hpv0, ?_, ?_⟩, rfl, rfl⟩
    · unfold Torrent.paths; rw [hc]; simp only [List.map_map]; exact hg3
    · unfold lengthsOf; rw [hc]; exact hl

/-! ### Trackers -/

theorem tierLoop_strs : ∀ (ts : List (List UInt8)) (js : List Nat), AtAll mem objs js (ts.map .str) → tierLoop mem objs js = .ok ts
  | [], [], _ => rfl
  | [], _ :: _, h => by cases h
  | _ :: _, [], h => by cases h
  | s :: ts, k :: ks, h => by
    obtain ⟨⟨pos, hat⟩, h'⟩ := h
    obtain ⟨o, h1, h2, h3, _⟩ := hat.str
    unfold tierLoop
    rw [h1, Res.bind_ok, tierLoop_strs ts ks h', Res.bind_ok, if_pos h2, h3]
    rfl

theorem announceLoop_tiers : ∀ (ts : List (List (List UInt8))) (js : List Nat),
    AtAll mem objs js (ts.map (fun t => .list (t.map .str))) → announceLoop mem objs js = .ok ts.flatten
  | [], [], _ => rfl
  | [], _ :: _, h => by cases h
  | _ :: _, [], h => by cases h
  | t :: ts, k :: ks, h => by
    obtain ⟨⟨pos, hat⟩, h'⟩ := h
    obtain ⟨o, h1, h2⟩ := hat.rd
    obtain ⟨js, h3, h4⟩ := items_list hat
    unfold announceLoop
    have htier : readTier mem objs k = .ok t := by
      unfold readTier
      rw [h1, Res.bind_ok, if_pos (by rw [h2]; rfl), h3, Res.bind_ok, tierLoop_strs t js h4]
    rw [htier, Res.bind_ok, announceLoop_tiers ts ks h', Res.bind_ok]
    rfl

/-! ### The file -/

theorem load_at {pos : Nat} {p : Parsed} {kvs ikvs : List (List UInt8 × BVal)} (h : AtPos mem p.objs 0 (.dict kvs) pos) (hf : fitsDict kvs)
    {t : Torrent} (ht : IsTorrent kvs ikvs t) (hu : Usual t) :
    ∃ m, load mem p = .ok m ∧ m.announce = t.announce.getD [] ∧ m.announceList = t.trackers ∧ m.createdBy = t.createdBy.getD [] ∧
      m.creationDate = t.date.getD 0 ∧ Reads t m.info ∧ m.info.hash = none ∧ m.info.data = [] := by
  obtain ⟨o, ho, hty⟩ := h.rd
  obtain ⟨j, pos', hj, hat⟩ := find_entry h (ty := .dictionary) rfl ht.entry
  obtain ⟨i, hi, hr, hh, hd⟩ := readInfo_at hat (entry_fits hf ht.entry) ht.info hu
  unfold load
  rw [ho, Res.bind_ok, if_neg (by rw [hty]; simp [BVal.ty]), txtItem_entry h ht.announce, Res.bind_ok]
  have htr : readTrackers mem p.objs (t.announce.getD []) = .ok t.trackers := by
    unfold readTrackers Torrent.trackers
    cases hts : t.tiers with
    | none =>
      have he := ht.tiers
      rw [hts] at he
      rw [find_entry_none h .list he]
      cases ha : t.announce with
      | none => rfl
      | some a => by_cases hn : a = [] <;> simp [hn]
    | some ts =>
      have he := ht.tiers
      rw [hts] at he
      obtain ⟨j, pos', hj, hat⟩ := find_entry h (ty := .list) rfl he
      obtain ⟨js, h3, h4⟩ := items_list hat
      rw [hj]
      simp only [Res.bind_ok]
      rw [h3, Res.bind_ok]
      exact announceLoop_tiers ts js h4
  have hin : readRootInfo mem p.objs = .ok i := by
    unfold readRootInfo
    rw [hj]
    simp only [Res.bind_ok]
    exact hi
  dsimp only
  rw [htr, Res.bind_ok, hin, Res.bind_ok, txt_entry h ht.createdBy, Res.bind_ok, big_entry h hf ht.date, Res.bind_ok]
  exact ⟨_, rfl, rfl, rfl, rfl, rfl, hr, hh, hd⟩

/-- Reading a whole file. -/
theorem parse_at {kvs ikvs : List (List UInt8 × BVal)} {t : Torrent} (ht : IsTorrent kvs ikvs t) (hu : Usual t)
    (hf : fitsDict kvs) (hc : 1 + countDict kvs < 65536) (hval : ∀ kv ∈ kvs, kv.2 ≠ .str (ascii "info"))
    (sha1 : List UInt8 → List UInt8) (after : List UInt8) (ha : after ≠ []) (fuel : Nat)
    (hfuel : (BVal.dict kvs).enc.length + after.length ≤ fuel) :
    ∃ m, parse fuel sha1 (BVal.dict kvs).enc after = .ok m ∧ m.announce = t.announce.getD [] ∧ m.announceList = t.trackers ∧
      m.createdBy = t.createdBy.getD [] ∧ m.creationDate = t.date.getD 0 ∧ Reads t m.info ∧
      m.info.hash = some (sha1 (BVal.dict ikvs).enc) ∧ m.info.data = (BVal.dict ikvs).enc := by
  obtain ⟨p, h1, -, -, h4, h5⟩ := parseAt_enc (.dict kvs) fuel ((BVal.dict kvs).enc ++ after) 0 (BVal.dict kvs).enc.length after rfl ha
    (Nat.le_refl _) hf (by simpa [BVal.count] using hc) (by omega)
  have hp : Bencode.parse fuel (BVal.dict kvs).enc after = .ok p := h1
  obtain ⟨m, hm, e1, e2, e3, e4, e5, e6, e7⟩ := load_at h5 hf ht hu
  obtain ⟨a, b, hkv, hkey⟩ := entry_split ht.entry
  obtain ⟨ia, ib, hikv, hik⟩ := entry_split ht.info.pieces
  have hh := C03_info_hash_partial id a b ia ib t.pieces.flatten (.dict kvs) (.dict ikvs) (by rw [hikv]) (by rw [hkv]) hf
    (by simpa [BVal.count] using hc) hkey
    (by
      intro x hx s hs he
      subst he
      exact hval x (by rw [hkv]; simp [hx]) hs)
    (fun x hx hxx => hik x hx hxx.1) after ha fuel hfuel
  unfold TorrentFile.torrentHash at hh
  rw [hp, Res.bind_ok] at hh
  have hg : TorrentFile.generateInfoHash fuel ((BVal.dict kvs).enc ++ after) p = .ok (some (BVal.dict ikvs).enc) := by
    cases hgi : TorrentFile.generateInfoHash fuel ((BVal.dict kvs).enc ++ after) p with
    | ub => rw [hgi] at hh; cases hh
    | diverge => rw [hgi] at hh; cases hh
    | ok r =>
      rw [hgi] at hh
      simp only [Res.bind_ok, Res.pure_eq, Option.map_id, Res.ok.injEq, id] at hh
      rw [hh]
  have hne : p.objs ≠ [] := by
    intro h0; rw [h0] at h4; simp [BVal.count] at h4; omega
  refine ⟨{ m with info := { m.info with data := (BVal.dict ikvs).enc, hash := some (sha1 (BVal.dict ikvs).enc) } }, ?_, e1, e2, e3, e4,
    ⟨e5.name, e5.pieces, e5.priv, e5.paths, e5.layout⟩, rfl, rfl⟩
  unfold parse
  rw [hp, Res.bind_ok, if_neg hne, hm, Res.bind_ok, hg]
  rfl

theorem parseInfo_at {ikvs : List (List UInt8 × BVal)} {t : Torrent} (ht : IsInfo ikvs t) (hu : Usual t)
    (hf : (BVal.dict ikvs).fits) (hc : (BVal.dict ikvs).count < 65536)
    (sha1 : List UInt8 → List UInt8) (after : List UInt8) (ha : after ≠ []) (fuel : Nat)
    (hfuel : (BVal.dict ikvs).enc.length ≤ fuel) :
    ∃ i, parseTorrentInfo fuel sha1 (BVal.dict ikvs).enc after = .ok i ∧ Reads t i ∧
      i.hash = some (sha1 (BVal.dict ikvs).enc) ∧ i.data = [] := by
  obtain ⟨p, h1, -, -, h4, h5⟩ := parseAt_enc (.dict ikvs) fuel ((BVal.dict ikvs).enc ++ after) 0 (BVal.dict ikvs).enc.length after rfl ha
    (Nat.le_refl _) hf hc hfuel
  have hp : Bencode.parse fuel (BVal.dict ikvs).enc after = .ok p := h1
  obtain ⟨i, hi, hr, hh, hd⟩ := readInfo_at h5 hf ht hu
  have hne : p.objs ≠ [] := by
    intro h0; rw [h0] at h4; simp [BVal.count] at h4; omega
  refine ⟨{ i with hash := some (sha1 (BVal.dict ikvs).enc) }, ?_, ⟨hr.name, hr.pieces, hr.priv, hr.paths, hr.layout⟩, rfl, hd⟩
  unfold parseTorrentInfo
  rw [hp, Res.bind_ok, if_neg hne, hi]
  rfl

/-! ### Writing -/

/-- The dictionary that is written. -/
def savedKvs (m : Meta) (i : BVal) : List (List UInt8 × BVal) :=
  (if m.announce ≠ [] then [(ascii "announce", .str m.announce)] else []) ++
  ((if m.announceList ≠ [] then [(ascii "announce-list", .list (m.announceList.map (fun a => .list [.str a])))] else []) ++
  ((if m.createdBy ≠ [] then [(ascii "created by", .str m.createdBy)] else []) ++
  ((if m.creationDate ≠ 0 then [(ascii "creation date", .int m.creationDate)] else []) ++ [(ascii "info", i)])))

theorem writeTrackers_enc : ∀ (as : List (List UInt8)) (d : List UInt8),
    writeTrackers d as = d ++ encList (as.map (fun a => .list [.str a]))
  | [], d => by simp [writeTrackers, encList]
  | a :: as, d => by
    unfold writeTrackers
    rw [writeTrackers_enc as]
    simp [endArray, addText, startArray, encList, BVal.enc, encStr]

theorem key_enc : encStr (ascii "announce") = ascii "8:announce" ∧ encStr (ascii "announce-list") = ascii "13:announce-list" ∧
    encStr (ascii "created by") = ascii "10:created by" ∧ encStr (ascii "creation date") = ascii "13:creation date" ∧
    encStr (ascii "info") = ascii "4:info" := by decide +kernel

theorem create_enc (m : Meta) (i : BVal) (hd : m.info.data = i.enc) : create m = (BVal.dict (savedKvs m i)).enc := by
  obtain ⟨k1, k2, k3, k4, k5⟩ := key_enc
  have hne : m.info.data ≠ [] := by
    intro h0
    have := enc_length_pos i
    rw [← hd, h0] at this
    simp at this
  unfold create savedKvs
  simp only [if_neg hne, BVal.enc, encDict_append]
  have e1 : ∀ d, (if m.announce ≠ [] then addRawItemText d (ascii "8:announce") m.announce else d) =
      d ++ encDict (if m.announce ≠ [] then [(ascii "announce", .str m.announce)] else []) := by
    intro d
    split
    · simp [addRawItemText, addText, encDict, BVal.enc, ← k1, encStr]
    · simp [encDict]
  have e2 : ∀ d, (if m.announceList ≠ [] then
        endArray (writeTrackers (startRawArrayItem d (ascii "13:announce-list")) m.announceList) else d) =
      d ++ encDict (if m.announceList ≠ [] then
        [(ascii "announce-list", .list (m.announceList.map (fun a => .list [.str a])))] else []) := by
    intro d
    split
    · rw [writeTrackers_enc]
      simp [startRawArrayItem, startArray, endArray, encDict, BVal.enc, ← k2]
    · simp [encDict]
  have e3 : ∀ d, (if m.createdBy ≠ [] then addRawItemText d (ascii "10:created by") m.createdBy else d) =
      d ++ encDict (if m.createdBy ≠ [] then [(ascii "created by", .str m.createdBy)] else []) := by
    intro d
    split
    · simp [addRawItemText, addText, encDict, BVal.enc, ← k3, encStr]
    · simp [encDict]
  have e4 : ∀ d, (if m.creationDate ≠ 0 then addRawItemNumber d (ascii "13:creation date") m.creationDate else d) =
      d ++ encDict (if m.creationDate ≠ 0 then [(ascii "creation date", .int m.creationDate)] else []) := by
    intro d
    split
    · simp [addRawItemNumber, addNumber, encDict, BVal.enc, ← k4, encStr]
    · simp [encDict]
  rw [e1, e2, e3, e4]
  simp [startMap, endMap, addRawData, encDict, hd, ← k5]

/-- What the saved file tells. -/
def savedTorrent (m : Meta) (t : Torrent) : Torrent :=
  { t with
    announce := if m.announce ≠ [] then some m.announce else none
    tiers := if m.announceList ≠ [] then some (m.announceList.map (fun a => [a])) else none
    createdBy := if m.createdBy ≠ [] then some m.createdBy else none
    date := if m.creationDate ≠ 0 then some m.creationDate else none }

theorem entry_cons (kv : List UInt8 × BVal) (kvs : List (List UInt8 × BVal)) (key : String) :
    entry (kv :: kvs) key = if kv.1 = ascii key then some kv.2 else entry kvs key := by
  unfold entry
  rw [List.find?_cons]
  by_cases h : kv.1 = ascii key
  · simp [h]
  · have : (kv.1 == ascii key) = false := by simpa using h
    rw [this, if_neg h]

theorem entry_nil (key : String) : entry [] key = none := rfl

theorem keys_differ : ascii "announce" ≠ ascii "announce-list" ∧ ascii "announce" ≠ ascii "created by" ∧
    ascii "announce" ≠ ascii "creation date" ∧ ascii "announce" ≠ ascii "info" ∧ ascii "announce-list" ≠ ascii "created by" ∧
    ascii "announce-list" ≠ ascii "creation date" ∧ ascii "announce-list" ≠ ascii "info" ∧ ascii "created by" ≠ ascii "creation date" ∧
    ascii "created by" ≠ ascii "info" ∧ ascii "creation date" ≠ ascii "info" := by decide +kernel

theorem saved_is (m : Meta) (ikvs : List (List UInt8 × BVal)) (t : Torrent) (hi : IsInfo ikvs t) :
    IsTorrent (savedKvs m (.dict ikvs)) ikvs (savedTorrent m t) := by
  obtain ⟨n1, n2, n3, n4, n5, n6, n7, n8, n9, n10⟩ := keys_differ
  refine ⟨?_, ?_, ?_, ?_, ?_, ⟨hi.name, hi.length, hi.pieces, hi.priv, hi.content⟩⟩ <;>
  · unfold savedKvs
    try unfold savedTorrent
    by_cases h1 : m.announce = [] <;> by_cases h2 : m.announceList = [] <;> by_cases h3 : m.createdBy = [] <;>
      by_cases h4 : m.creationDate = 0 <;>
      simp [h1, h2, h3, h4, entry_cons, entry_nil, n1, n2, n3, n4, n5, n6, n7, n8, n9, n10, n1.symm, n2.symm, n3.symm, n5.symm, n6.symm,
        n8.symm, n4.symm, n7.symm, n9.symm, n10.symm, List.map_map, Function.comp_def]

theorem countList_tiers (as : List (List UInt8)) : countList (as.map (fun a => .list [.str a])) = 2 * as.length := by
  induction as with
  | nil => rfl
  | cons a as ih => simp [countList, BVal.count, ih]; omega

theorem fitsList_tiers {as : List (List UInt8)} (h : ∀ a ∈ as, a.length < 2147483648) :
    fitsList (as.map (fun a => .list [.str a])) := by
  induction as with
  | nil => simp [fitsList]
  | cons a as ih =>
    simp only [List.map_cons, fitsList, BVal.fits, and_true]
    exact ⟨h a (by simp), ih (fun x hx => h x (by simp [hx]))⟩

/-- The texts and numbers of the torrent can be written. -/
structure Writable (m : Meta) : Prop where
  announce : m.announce.length < 2147483648
  list : ∀ a ∈ m.announceList, a.length < 2147483648
  createdBy : m.createdBy.length < 2147483648
  date : m.creationDate < 2 ^ 64

theorem saved_fits {m : Meta} (hw : Writable m) {i : BVal} (hi : i.fits) : fitsDict (savedKvs m i) := by
  have hl := fitsList_tiers hw.list
  have hk : (ascii "announce").length < 2147483648 ∧ (ascii "announce-list").length < 2147483648 ∧
      (ascii "created by").length < 2147483648 ∧ (ascii "creation date").length < 2147483648 ∧
      (ascii "info").length < 2147483648 := by decide +kernel
  obtain ⟨l1, l2, l3, l4, l5⟩ := hk
  unfold savedKvs
  rw [fitsDict_append, fitsDict_append, fitsDict_append, fitsDict_append]
  refine ⟨?_, ?_, ?_, ?_, ?_⟩
  · split
    · exact ⟨l1, hw.announce, trivial⟩
    · trivial
  · split
    · exact ⟨l2, hl, trivial⟩
    · trivial
  · split
    · exact ⟨l3, hw.createdBy, trivial⟩
    · trivial
  · split
    · exact ⟨l4, hw.date, trivial⟩
    · trivial
  · exact ⟨l5, hi, trivial⟩

theorem saved_count (m : Meta) (i : BVal) : countDict (savedKvs m i) ≤ 9 + 2 * m.announceList.length + i.count := by
  unfold savedKvs
  rw [countDict_append, countDict_append, countDict_append, countDict_append]
  have h1 : countDict (if m.announce ≠ [] then [(ascii "announce", .str m.announce)] else []) ≤ 2 := by
    split <;> simp [countDict, BVal.count]
  have h2 : countDict (if m.announceList ≠ [] then
      [(ascii "announce-list", .list (m.announceList.map (fun a => .list [.str a])))] else []) ≤ 2 + 2 * m.announceList.length := by
    split <;> simp [countDict, BVal.count, countList_tiers]; omega
  have h3 : countDict (if m.createdBy ≠ [] then [(ascii "created by", .str m.createdBy)] else []) ≤ 2 := by
    split <;> simp [countDict, BVal.count]
  have h4 : countDict (if m.creationDate ≠ 0 then [(ascii "creation date", .int m.creationDate)] else []) ≤ 2 := by
    split <;> simp [countDict, BVal.count]
  have h5 : countDict [(ascii "info", i)] = 1 + i.count := by simp [countDict]
  omega

theorem saved_vals {m : Meta} (h1 : m.announce ≠ ascii "info") (h2 : m.createdBy ≠ ascii "info") (ikvs : List (List UInt8 × BVal)) :
    ∀ kv ∈ savedKvs m (.dict ikvs), kv.2 ≠ .str (ascii "info") := by
  intro kv hkv he
  unfold savedKvs at hkv
  simp only [List.mem_append, List.mem_singleton] at hkv
  rcases hkv with hkv | hkv | hkv | hkv | hkv
  · split at hkv
    · simp only [List.mem_singleton] at hkv; subst hkv; exact h1 (BVal.str.inj he)
    · simp at hkv
  · split at hkv
    · simp only [List.mem_singleton] at hkv; subst hkv; cases he
    · simp at hkv
  · split at hkv
    · simp only [List.mem_singleton] at hkv; subst hkv; exact h2 (BVal.str.inj he)
    · simp at hkv
  · split at hkv
    · simp only [List.mem_singleton] at hkv; subst hkv; cases he
    · simp at hkv
  · subst hkv; cases he

theorem singles_flatten (as : List (List UInt8)) : (as.map (fun a => [a])).flatten = as := by
  induction as with
  | nil => rfl
  | cons a as ih => simp [ih]

/-- Saving and reading again. -/
theorem saved_read {m : Meta} {ikvs : List (List UInt8 × BVal)} {t : Torrent} (hi : IsInfo ikvs t) (hu : Usual t)
    (hd : m.info.data = (BVal.dict ikvs).enc) (hw : Writable m) (hf : (BVal.dict ikvs).fits)
    (hc : 10 + 2 * m.announceList.length + (BVal.dict ikvs).count < 65536)
    (hn1 : m.announce ≠ ascii "info") (hn2 : m.createdBy ≠ ascii "info") (hal : m.announceList = [] → m.announce = [])
    (sha1 : List UInt8 → List UInt8) (after : List UInt8) (ha : after ≠ []) (fuel : Nat)
    (hfuel : (create m).length + after.length ≤ fuel) :
    ∃ m', parse fuel sha1 (create m) after = .ok m' ∧ m'.announce = m.announce ∧ m'.announceList = m.announceList ∧
      m'.createdBy = m.createdBy ∧ m'.creationDate = m.creationDate ∧ Reads t m'.info ∧
      m'.info.hash = some (sha1 (BVal.dict ikvs).enc) ∧ m'.info.data = (BVal.dict ikvs).enc := by
  have hcr := create_enc m (.dict ikvs) hd
  rw [hcr] at hfuel ⊢
  have hcnt := saved_count m (.dict ikvs)
  obtain ⟨m', h1, h2, h3, h4, h5, h6, h7, h8⟩ := parse_at (saved_is m ikvs t hi) (hu := ⟨hu.length, hu.hashes, hu.priv, hu.name, hu.paths⟩)
    (saved_fits hw hf) (by omega) (saved_vals hn1 hn2 ikvs) sha1 after ha fuel hfuel
  refine ⟨m', h1, ?_, ?_, ?_, ?_, ⟨h6.name, h6.pieces, h6.priv, h6.paths, h6.layout⟩, h7, h8⟩
  · rw [h2]; unfold savedTorrent; simp only
    split
    · rfl
    · simp_all
  · rw [h3]; unfold savedTorrent Torrent.trackers; simp only
    by_cases hl : m.announceList = []
    · simp [hl, hal hl]
    · simp only [ne_eq, hl, not_false_eq_true, if_true]
      exact singles_flatten _
  · rw [h4]; unfold savedTorrent; simp only
    split
    · rfl
    · simp_all
  · rw [h5]; unfold savedTorrent; simp only
    split
    · rfl
    · simp_all

theorem reads_unique {t : Torrent} {i j : Info} (hi : Reads t i) (hj : Reads t j) (hh : i.hash = j.hash) (hd : i.data = j.data) : i = j := by
  have hf : ∀ (l r : List FileName), l.map (fun f => f.path ++ [f.name]) = r.map (fun f => f.path ++ [f.name]) → l = r := by
    intro l
    induction l with
    | nil => intro r h; cases r <;> simp_all
    | cons f l ih =>
      intro r h
      cases r with
      | nil => simp at h
      | cons g r =>
        simp only [List.map_cons, List.cons.injEq] at h
        obtain ⟨h1, h2⟩ := h
        have := List.append_inj' h1 rfl
        obtain ⟨h3, h4⟩ := this
        rw [ih r h2]
        cases f; cases g
        simp only [List.cons.injEq, and_true] at h3 h4
        subst h3; subst h4; rfl
  have h1 := hi.name.trans hj.name.symm
  have h2 := hi.pieces.trans hj.pieces.symm
  have h3 : i.isPrivate = j.isPrivate := Bool.eq_iff_iff.mpr (hi.priv.trans hj.priv.symm)
  have h4 := hf _ _ (hi.paths.trans hj.paths.symm)
  have h5 : i.layout = j.layout := by
    have := hi.layout.symm.trans hj.layout
    simpa using this
  cases i; cases j
  simp only at hh hd h1 h2 h3 h4 h5
  subst hh hd h1 h2 h3 h4 h5
  rfl

theorem count_entry {key : String} {v : BVal} {kvs : List (List UInt8 × BVal)} (h : entry kvs key = some v) :
    v.count ≤ (BVal.dict kvs).count := by
  obtain ⟨a, b, rfl, _⟩ := entry_split h
  simp only [BVal.count, countDict_append, countDict]
  omega

theorem mem_fits_list : ∀ {vs : List BVal} {v : BVal}, fitsList vs → v ∈ vs → v.fits
  | [], _, _, h => by simp at h
  | w :: vs, v, hf, h => by
    have hf' : w.fits ∧ fitsList vs := by simpa [fitsList] using hf
    rcases List.mem_cons.mp h with rfl | h
    · exact hf'.1
    · exact mem_fits_list hf'.2 h

theorem trackers_fit {kvs ikvs : List (List UInt8 × BVal)} {t : Torrent} (ht : IsTorrent kvs ikvs t) (hf : fitsDict kvs) :
    ∀ a ∈ t.trackers, a.length < 2147483648 := by
  intro a ha
  unfold Torrent.trackers at ha
  cases hts : t.tiers with
  | none =>
    rw [hts] at ha
    cases han : t.announce with
    | none => rw [han] at ha; simp at ha
    | some b =>
      rw [han] at ha
      simp only at ha
      split at ha
      · simp at ha
      · simp only [List.mem_singleton] at ha
        subst ha
        have := ht.announce
        rw [han] at this
        exact entry_fits hf this
  | some ts =>
    rw [hts] at ha
    simp only [List.mem_flatten] at ha
    obtain ⟨l, hl, hal⟩ := ha
    have := ht.tiers
    rw [hts] at this
    have h1 : fitsList (ts.map (fun t => .list (t.map .str))) := entry_fits hf this
    have h2 : fitsList (l.map .str) := mem_fits_list h1 (v := .list (l.map .str)) (List.mem_map.mpr ⟨l, hl, rfl⟩)
    exact mem_fits_list h2 (v := .str a) (List.mem_map.mpr ⟨a, hal, rfl⟩)

theorem text_fits {key : String} {kvs : List (List UInt8 × BVal)} {s : Option (List UInt8)} (hf : fitsDict kvs)
    (h : entry kvs key = s.map .str) : (s.getD []).length < 2147483648 := by
  cases s with
  | none => simp
  | some s => exact entry_fits hf h

theorem num_fits {key : String} {kvs : List (List UInt8 × BVal)} {s : Option Nat} (hf : fitsDict kvs)
    (h : entry kvs key = s.map .int) : s.getD 0 < 2 ^ 64 := by
  cases s with
  | none => simp
  | some s => exact entry_fits hf h

theorem text_not {key : String} {kvs : List (List UInt8 × BVal)} {s : Option (List UInt8)}
    (hval : ∀ kv ∈ kvs, kv.2 ≠ .str (ascii "info")) (h : entry kvs key = s.map .str) : s.getD [] ≠ ascii "info" := by
  have hne : ascii "info" ≠ [] := by decide +kernel
  cases s with
  | none => exact hne.symm
  | some s =>
    obtain ⟨a, b, h1, _⟩ := entry_split h
    intro he
    simp only [Option.getD_some] at he
    exact hval (ascii key, .str s) (by rw [h1]; simp) (by rw [he])

theorem saved_again {kvs ikvs : List (List UInt8 × BVal)} {t : Torrent} (ht : IsTorrent kvs ikvs t) (hu : Usual t)
    (hf : (BVal.dict kvs).fits) (hval : ∀ kv ∈ kvs, kv.2 ≠ .str (ascii "info")) (htr : ∀ ts, t.tiers = some ts → ts.flatten ≠ [])
    (more : List (List UInt8)) (hmore : ∀ a ∈ more, a.length < 2 ^ 31 ∧ a ≠ ascii "info") (hti : ∀ a ∈ t.trackers, a ≠ ascii "info")
    (hc : 10 + 2 * (t.trackers ++ more).length + (BVal.dict kvs).count < 65536)
    (sha1 : List UInt8 → List UInt8) (after : List UInt8) (ha : after ≠ []) {m m2 : Meta}
    (h2 : m.announce = t.announce.getD []) (h3 : m.announceList = t.trackers) (h4 : m.createdBy = t.createdBy.getD [])
    (h5 : m.creationDate = t.date.getD 0) (h6 : Reads t m.info) (h7 : m.info.hash = some (sha1 (BVal.dict ikvs).enc))
    (h8 : m.info.data = (BVal.dict ikvs).enc)
    (hm2 : m2 = { m with
        announceList := m.announceList ++ more
        announce := if m.announce = [] then (m.announceList ++ more).headD [] else m.announce })
    (fuel2 : Nat) (hfuel2 : (create m2).length + after.length ≤ fuel2) : parse fuel2 sha1 (create m2) after = .ok m2 := by
  have hl : m2.announceList = t.trackers ++ more := by rw [hm2, h3]
  have hal : ∀ a ∈ m2.announceList, a.length < 2147483648 ∧ a ≠ ascii "info" := by
    intro a haa
    rw [hl] at haa
    rcases List.mem_append.mp haa with h | h
    · exact ⟨trackers_fit ht hf a h, hti a h⟩
    · exact hmore a h
  have han : m2.announce.length < 2147483648 ∧ m2.announce ≠ ascii "info" := by
    by_cases hn : m.announce = []
    · have hme : m2.announce = m2.announceList.headD [] := by rw [hm2]; simp [hn]
      rw [hme]
      cases hx : m2.announceList with
      | nil => exact ⟨by simp, by simpa using (show ascii "info" ≠ [] by decide +kernel).symm⟩
      | cons a as => exact hal a (by rw [hx]; simp)
    · have hme : m2.announce = t.announce.getD [] := by rw [hm2]; exact (if_neg hn).trans h2
      rw [hme]
      exact ⟨text_fits hf ht.announce, text_not hval ht.announce⟩
  have hcb : m2.createdBy = t.createdBy.getD [] := by rw [hm2]; exact h4
  have hcd : m2.creationDate = t.date.getD 0 := by rw [hm2]; exact h5
  have hinf : m2.info = m.info := by rw [hm2]
  have hcnt := count_entry ht.entry
  obtain ⟨m', e1, e2, e3, e4, e5, e6, e7, e8⟩ := saved_read (m := m2) ht.info hu (by rw [hinf, h8])
    ⟨han.1, fun a h => (hal a h).1, by rw [hcb]; exact text_fits hf ht.createdBy, by rw [hcd]; exact num_fits hf ht.date⟩
    (entry_fits (show fitsDict kvs from hf) ht.entry) (by rw [hl]; omega) han.2 (by rw [hcb]; exact text_not hval ht.createdBy)
    (by
      intro hn
      rw [hl] at hn
      have hn1 : t.trackers = [] := (List.append_eq_nil_iff.mp hn).1
      have hn2 : more = [] := (List.append_eq_nil_iff.mp hn).2
      have hme : m.announce = [] := by
        rw [h2]
        unfold Torrent.trackers at hn1
        cases hts : t.tiers with
        | some ts => rw [hts] at hn1; exact absurd hn1 (htr ts hts)
        | none =>
          rw [hts] at hn1
          cases hx : t.announce with
          | none => rfl
          | some a =>
            rw [hx] at hn1
            simp only at hn1
            split at hn1
            · assumption
            · simp at hn1
      rw [hm2]
      simp [hme, h3, hn1, hn2])
    sha1 after ha fuel2 hfuel2
  rw [e1]
  congr 1
  have hi : m'.info = m2.info := reads_unique e6 (by rw [hinf]; exact h6) (by rw [e7, hinf, h7]) (by rw [e8, hinf, h8])
  cases m'
  cases m2
  simp only at e2 e3 e4 e5 hi ⊢
  subst e2 e3 e4 e5 hi
  rfl

/-! ### Written without the bytes of the dictionary -/

/-- The info dictionary that is written for one file. -/
def plainKvs (i : Info) (n : Nat) : List (List UInt8 × BVal) :=
  [(ascii "length", .int n), (ascii "name", .str i.name), (ascii "piece length", .int i.layout.pieceSize),
    (ascii "pieces", .str i.pieces.flatten)] ++ (if i.isPrivate then [(ascii "private", .int 1)] else [])

theorem plain_key : encStr (ascii "length") = ascii "6:length" ∧ encStr (ascii "name") = ascii "4:name" ∧
    encStr (ascii "piece length") = ascii "12:piece length" ∧ encStr (ascii "pieces") = ascii "6:pieces" ∧
    encStr (ascii "private") = ascii "7:private" ∧ encStr (ascii "info") = ascii "4:info" := by decide +kernel

theorem writeInfo_enc (d : List UInt8) (i : Info) (lf : Layout.File) (h1 : i.files.length ≤ 1) (h2 : i.layout.files = [lf]) :
    writeInfo d i = d ++ (ascii "4:info" ++ (BVal.dict (plainKvs i lf.size)).enc) := by
  obtain ⟨k1, k2, k3, k4, k5, k6⟩ := plain_key
  unfold writeInfo
  simp only [if_neg (show ¬ 1 < i.files.length by omega), h2]
  unfold plainKvs
  split
  · simp [startRawMapItem, startMap, endMap, addRawItemNumber, addNumber, addRawItemText, addText, addRawItemFromBuffer,
      BVal.enc, encDict, ← k1, ← k2, ← k3, ← k4, ← k5, encStr]
  · simp [startRawMapItem, startMap, endMap, addRawItemNumber, addNumber, addRawItemText, addText, addRawItemFromBuffer,
      BVal.enc, encDict, ← k1, ← k2, ← k3, ← k4, ← k5, encStr]

theorem create_plain (m : Meta) (lf : Layout.File) (h1 : m.info.files.length ≤ 1) (h2 : m.info.layout.files = [lf]) (hd : m.info.data = []) :
    create m = create { m with info := { m.info with data := (BVal.dict (plainKvs m.info lf.size)).enc } } := by
  have hne : (BVal.dict (plainKvs m.info lf.size)).enc ≠ [] := by simp [BVal.enc]
  unfold create
  simp only [hd, if_true, if_neg hne]
  rw [writeInfo_enc _ _ lf h1 h2]
  simp [addRawData]

theorem plain_is {i : Info} {t : Torrent} {n : Nat} (hr : Reads t i) (hc : t.content = .single n) (hp : i.layout.pieceSize = t.pieceLength) :
    IsInfo (plainKvs i n) { t with priv := if i.isPrivate then some 1 else none } := by
  have hk : ascii "length" ≠ ascii "name" ∧ ascii "length" ≠ ascii "piece length" ∧ ascii "length" ≠ ascii "pieces" ∧ ascii "length" ≠ ascii "private" ∧
      ascii "length" ≠ ascii "files" ∧
      ascii "name" ≠ ascii "piece length" ∧ ascii "name" ≠ ascii "pieces" ∧ ascii "name" ≠ ascii "private" ∧ ascii "name" ≠ ascii "files" ∧
      ascii "piece length" ≠ ascii "pieces" ∧ ascii "piece length" ≠ ascii "private" ∧ ascii "piece length" ≠ ascii "files" ∧
      ascii "pieces" ≠ ascii "private" ∧ ascii "pieces" ≠ ascii "files" ∧ ascii "private" ≠ ascii "files" := by decide +kernel
  obtain ⟨h1, h2, h3, h4, h5, h6, h7, h8, h9, h10, h11, h12, h13, h14, h15⟩ := hk
  unfold plainKvs
  refine ⟨?_, ?_, ?_, ?_, ?_⟩
  · simp [entry, h1, hr.name]
  · simp [entry, h2, h6, hp]
  · simp [entry, h3, h7, h10, hr.pieces]
  · split <;> simp [entry, h4, h8, h11, h13]
  · simp only [hc]
    split <;> simp [entry, h5, h9, h12, h14, h15]

theorem plain_read {ikvs : List (List UInt8 × BVal)} {t : Torrent} {n : Nat} (ht : IsInfo ikvs t) (hu : Usual t) (hc : t.content = .single n)
    (hf : fitsDict ikvs) {m : Meta} (hr : Reads t m.info) (hd : m.info.data = []) (hw : Writable m) (hcnt : m.announceList.length < 32000)
    (hn1 : m.announce ≠ ascii "info") (hn2 : m.createdBy ≠ ascii "info") (hal : m.announceList = [] → m.announce = [])
    (sha1 : List UInt8 → List UInt8) (after : List UInt8) (ha : after ≠ []) (fuel : Nat)
    (hfuel : (create m).length + after.length ≤ fuel) :
    ∃ d h, parse fuel sha1 (create m) after = .ok { m with info := { m.info with data := d, hash := h } } ∧ h = some (sha1 d) := by
  have hsz : n < 2 ^ 64 := by
    have := ht.content
    rw [hc] at this
    exact entry_fits hf this.1
  have hlf : t.lengths = [n] := by unfold Torrent.lengths; rw [hc]
  obtain ⟨l, hl, l1, l2, -, -⟩ := parseInfo_ok t hu.length.1 (by rw [hlf]; simpa using hsz)
  have hle : l = m.info.layout := by have := hl.symm.trans hr.layout; simpa using this
  subst hle
  rw [hlf] at l1
  obtain ⟨lf, hlf1, hlf2⟩ : ∃ lf, m.info.layout.files = [lf] ∧ lf.size = n := by
    cases hx : m.info.layout.files with
    | nil => rw [hx] at l1; simp at l1
    | cons a as =>
      rw [hx] at l1
      simp only [List.map_cons, List.cons.injEq, List.map_eq_nil_iff] at l1
      obtain ⟨r1, rfl⟩ := l1
      exact ⟨a, rfl, r1⟩
  have hfl : m.info.files.length ≤ 1 := by
    have h1 := congrArg List.length hr.paths
    unfold Torrent.paths at h1
    rw [hc] at h1
    simp only [List.length_map, List.length_singleton] at h1
    omega
  have hcp := create_plain m lf hfl hlf1 hd
  rw [hlf2] at hcp
  rw [hcp] at hfuel ⊢
  have hk : (ascii "length").length < 2147483648 ∧ (ascii "name").length < 2147483648 ∧ (ascii "piece length").length < 2147483648 ∧
      (ascii "pieces").length < 2147483648 ∧ (ascii "private").length < 2147483648 := by decide +kernel
  obtain ⟨k1, k2, k3, k4, k5⟩ := hk
  have hn : m.info.name.length < 2147483648 := by rw [hr.name]; exact entry_fits hf ht.name
  have hp : m.info.pieces.flatten.length < 2147483648 := by rw [hr.pieces]; exact entry_fits hf ht.pieces
  have hps : m.info.layout.pieceSize < 2 ^ 64 := by have := hu.length.2; omega
  have hff : (BVal.dict (plainKvs m.info n)).fits := by
    show fitsDict _
    unfold plainKvs
    rw [fitsDict_append]
    refine ⟨⟨k1, hsz, k2, hn, k3, hps, k4, hp, trivial⟩, ?_⟩
    split
    · exact ⟨k5, by simp [BVal.fits], trivial⟩
    · trivial
  have hcc : (BVal.dict (plainKvs m.info n)).count ≤ 11 := by
    unfold plainKvs
    split <;> simp [BVal.count, countDict, countDict_append]
  have hpi := plain_is hr hc l2
  obtain ⟨m', e1, e2, e3, e4, e5, e6, e7, e8⟩ := saved_read
    (m := { m with info := { m.info with data := (BVal.dict (plainKvs m.info n)).enc } }) hpi
    ⟨hu.length, hu.hashes, by intro x hx; simp only at hx; split at hx <;> simp at hx; omega, hu.name, hu.paths⟩ rfl
    ⟨hw.announce, hw.list, hw.createdBy, hw.date⟩ hff (by simp only; omega) hn1 hn2 hal sha1 after ha fuel hfuel
  refine ⟨(BVal.dict (plainKvs m.info n)).enc, some (sha1 (BVal.dict (plainKvs m.info n)).enc), ?_, rfl⟩
  rw [e1]
  congr 1
  have hr2 : Reads { t with priv := if m.info.isPrivate then some 1 else none }
      { m.info with data := (BVal.dict (plainKvs m.info n)).enc, hash := some (sha1 (BVal.dict (plainKvs m.info n)).enc) } := by
    refine ⟨hr.name, hr.pieces, ?_, hr.paths, hr.layout⟩
    simp only
    split <;> simp_all
  have hi := reads_unique e6 hr2 e7 e8
  cases m'
  simp only at e2 e3 e4 e5 hi ⊢
  subst e2 e3 e4 e5 hi
  rfl

/-! ### Too many files -/

/-- A dictionary whose first key would be object number 65535. -/
theorem edge_ub (key : List UInt8) (k : Nat) (kvs : List (List UInt8 × BVal)) (e : Env) (n pos : Nat) (objs : List Obj) (t : List UInt8)
    (hm : e.mem.drop pos = (BVal.dict ((key, .int k) :: kvs)).enc ++ t) (ht : t ≠ [])
    (hb : pos + (BVal.dict ((key, .int k) :: kvs)).enc.length ≤ e.bodyEnd) (hk : key.length < 2147483648)
    (hl : objs.length = 65534) (hn : 3 ≤ n) : internalParse e n ⟨pos, objs⟩ = .ub := by
  obtain ⟨n, rfl⟩ : ∃ m, n = m + 3 := ⟨n - 3, by omega⟩
  simp only [BVal.enc, List.length_cons, List.length_append, List.length_nil] at hm hb
  have hm1 : e.mem.drop (pos + 1) = encDict ((key, .int k) :: kvs) ++ chr 'e' :: t :=
    drop_one (hm.trans (by simp only [List.cons_append, List.append_assoc]; rfl))
  have hm' : e.mem.drop (pos + 1) = encStr key ++ ((chr 'i' :: dec k ++ [chr 'e']) ++ (encDict kvs ++ chr 'e' :: t)) := by
    rw [hm1]; simp [encDict, BVal.enc]
  have hlen : (encDict ((key, BVal.int k) :: kvs)).length = (encStr key).length + ((dec k).length + 2) + (encDict kvs).length := by
    simp [encDict, BVal.enc]; omega
  have hks := parseString_enc e (pos + 1) (objs ++ [{ type := .dictionary }]) key _ hm' (by omega) hk
  have hm2 := drop_add hm'
  have hpi := parseInt_enc e (pos + 1 + (encStr key).length)
    (objs ++ [{ type := .dictionary }] ++ [⟨pos + 1 + (dec key.length).length + 1, key.length, 0, .text⟩]) k _ hm2 (by omega)
  have hm3 := drop_add hm2
  unfold internalParse
  rw [rd_drop (c := chr 'd') (t := encDict ((key, .int k) :: kvs) ++ [chr 'e'] ++ t) (by simpa using hm)]
  rw [Res.bind_ok, if_neg (by decide), if_neg (by decide), if_neg (by decide), if_pos rfl]
  have hd : dictLoop e (n + 2) 0 ⟨pos + 1, objs ++ [{ type := .dictionary }]⟩ = .ub := by
    unfold dictLoop
    rw [notEnd_dict e (pos + 1) _ t hm1 (by omega)]
    simp only [Res.bind_ok, List.isEmpty_cons, Bool.not_false, if_true]
    rw [hks]
    simp only [Res.bind_ok]
    unfold internalParse
    rw [rd_drop (c := chr 'i') (t := dec k ++ [chr 'e'] ++ (encDict kvs ++ chr 'e' :: t)) (by simpa using hm2)]
    rw [Res.bind_ok, if_neg (by decide), if_pos rfl, hpi]
    simp only [Res.bind_ok]
    rw [if_pos (by simp [hl])]
  rw [hd]
  rfl

/-- The elements before the edge are read. -/
theorem list_ub (w : BVal) (rest : List BVal) (L : Nat) (hL : L < 65536)
    (e : Env) (t : List UInt8)
    (hw : ∀ n pos objs, e.mem.drop pos = w.enc ++ (encList rest ++ chr 'e' :: t) → pos + w.enc.length ≤ e.bodyEnd → objs.length = L → 3 ≤ n →
      internalParse e n ⟨pos, objs⟩ = .ub) : ∀ (vs : List BVal) (n count pos : Nat) (objs : List Obj),
    e.mem.drop pos = encList (vs ++ w :: rest) ++ chr 'e' :: t → pos + (encList (vs ++ w :: rest)).length < e.bodyEnd → fitsList vs →
    objs.length + countList vs = L → (encList vs).length + 4 ≤ n →
    listLoop e n count ⟨pos, objs⟩ = .ub
  | [], n, count, pos, objs, hm, hb, hf, hl, hn => by
    obtain ⟨n, rfl⟩ : ∃ m, n = m + 1 := ⟨n - 1, by omega⟩
    simp only [List.nil_append] at hm hb
    have hlen : (encList (w :: rest)).length = w.enc.length + (encList rest).length := by simp [encList]
    unfold listLoop
    rw [notEnd_list e pos (w :: rest) t hm hb]
    simp only [Res.bind_ok, List.isEmpty_cons, Bool.not_false, if_true]
    rw [hw n pos objs (by rw [hm]; simp [encList]) (by omega) (by simpa [countList] using hl) (by omega)]
    rfl
  | v :: vs, n, count, pos, objs, hm, hb, hf, hl, hn => by
    obtain ⟨n, rfl⟩ : ∃ m, n = m + 1 := ⟨n - 1, by omega⟩
    have hpos := enc_length_pos v
    have hm' : e.mem.drop pos = v.enc ++ (encList (vs ++ w :: rest) ++ chr 'e' :: t) := by rw [hm]; simp [encList]
    have hlen : (encList (v :: vs ++ w :: rest)).length = v.enc.length + (encList (vs ++ w :: rest)).length := by simp [encList]
    have hlen2 : (encList (v :: vs)).length = v.enc.length + (encList vs).length := by simp [encList]
    have hcnt : countList (v :: vs) = v.count + countList vs := by simp [countList]
    have hfit : v.fits ∧ fitsList vs := by simpa [fitsList] using hf
    obtain ⟨nx, hp⟩ := parse_enc v e n pos objs _ hm' (by simp) (by omega) hfit.1 (by omega) (by omega)
    have hm2 := drop_add hm'
    unfold listLoop
    rw [notEnd_list e pos (v :: vs ++ w :: rest) t hm hb]
    simp only [Res.bind_ok, List.cons_append, List.isEmpty_cons, Bool.not_false, if_true]
    rw [hp]
    simp only [Res.bind_ok]
    rw [notEnd_list e _ (vs ++ w :: rest) t hm2 (by omega)]
    simp only [Res.bind_ok]
    apply list_ub w rest L hL e t hw vs n (count + 1) (pos + v.enc.length) _ hm2 (by omega) hfit.2
    · simp only [setNext, List.length_modify, List.length_append, flat_length]; omega
    · omega

theorem value_ub {kv : List UInt8 × BVal} {kvs : List (List UInt8 × BVal)} {e : Env} {n count pos : Nat} {objs : List Obj} {t : List UInt8}
    (hm : e.mem.drop pos = encDict (kv :: kvs) ++ chr 'e' :: t) (hb : pos + (encDict (kv :: kvs)).length < e.bodyEnd)
    (hk : kv.1.length < 2147483648)
    (hv : ∀ objs' : List Obj, objs'.length = objs.length + 1 → internalParse e n ⟨pos + (encStr kv.1).length, objs'⟩ = .ub) :
    dictLoop e (n + 1) count ⟨pos, objs⟩ = .ub := by
  have hm' : e.mem.drop pos = encStr kv.1 ++ (kv.2.enc ++ (encDict kvs ++ chr 'e' :: t)) := by rw [hm]; simp [encDict]
  have hlen : (encDict (kv :: kvs)).length = (encStr kv.1).length + kv.2.enc.length + (encDict kvs).length := by
    simp [encDict]; omega
  unfold dictLoop
  rw [notEnd_dict e pos (kv :: kvs) t hm hb]
  simp only [Res.bind_ok, List.isEmpty_cons, Bool.not_false, if_true]
  rw [parseString_enc e pos objs kv.1 _ hm' (by omega) hk]
  simp only [Res.bind_ok]
  rw [hv _ (by simp)]
  rfl

theorem dict_ub {kvs : List (List UInt8 × BVal)} {e : Env} {n pos : Nat} {objs : List Obj} {t : List UInt8}
    (hm : e.mem.drop pos = (BVal.dict kvs).enc ++ t)
    (hd : dictLoop e n 0 ⟨pos + 1, objs ++ [{ type := .dictionary }]⟩ = .ub) : internalParse e (n + 1) ⟨pos, objs⟩ = .ub := by
  unfold internalParse
  rw [rd_drop (c := chr 'd') (t := encDict kvs ++ [chr 'e'] ++ t) (by simpa [BVal.enc] using hm)]
  rw [Res.bind_ok, if_neg (by decide), if_neg (by decide), if_neg (by decide), if_pos rfl, hd]
  rfl

theorem listval_ub {vs : List BVal} {e : Env} {n pos : Nat} {objs : List Obj} {t : List UInt8}
    (hm : e.mem.drop pos = (BVal.list vs).enc ++ t)
    (hd : listLoop e n 0 ⟨pos + 1, objs ++ [{ type := .list }]⟩ = .ub) : internalParse e (n + 1) ⟨pos, objs⟩ = .ub := by
  unfold internalParse
  rw [rd_drop (c := chr 'l') (t := encList vs ++ [chr 'e'] ++ t) (by simpa [BVal.enc] using hm)]
  rw [Res.bind_ok, if_neg (by decide), if_neg (by decide), if_pos rfl, hd]
  rfl

/-- A text is read, then the rest of the dictionary. -/
theorem text_then {key s : List UInt8} {kvs : List (List UInt8 × BVal)} {e : Env} {n count pos : Nat} {objs : List Obj} {t : List UInt8}
    (hm : e.mem.drop pos = encDict ((key, .str s) :: kvs) ++ chr 'e' :: t) (hb : pos + (encDict ((key, .str s) :: kvs)).length < e.bodyEnd)
    (hk : key.length < 2147483648) (hs : s.length < 2147483648) (hl : objs.length + 3 < 65536) :
    ∃ objs' : List Obj, objs'.length = objs.length + 2 ∧
      dictLoop e (n + 2) count ⟨pos, objs⟩ = dictLoop e (n + 1) (count + 1) ⟨pos + (encStr key).length + (encStr s).length, objs'⟩ := by
  have hm' : e.mem.drop pos = encStr key ++ (encStr s ++ (encDict kvs ++ chr 'e' :: t)) := by rw [hm]; simp [encDict, BVal.enc]
  have hlen : (encDict ((key, .str s) :: kvs)).length = (encStr key).length + (encStr s).length + (encDict kvs).length := by
    simp [encDict, BVal.enc]; omega
  have hm1 := drop_add hm'
  have hm2 := drop_add hm1
  obtain ⟨c, r, hh, hdig⟩ := encStr_head s
  have hip : internalParse e (n + 1) ⟨pos + (encStr key).length, objs ++ [⟨pos + (dec key.length).length + 1, key.length, 0, .text⟩]⟩ =
      parseString e ⟨pos + (encStr key).length, objs ++ [⟨pos + (dec key.length).length + 1, key.length, 0, .text⟩]⟩ := by
    unfold internalParse
    rw [rd_drop (c := c) (t := r ++ (encDict kvs ++ chr 'e' :: t)) (by rw [hm1, hh]; rfl), Res.bind_ok, if_pos hdig]
  rw [dictLoop.eq_def]
  simp only
  rw [notEnd_dict e pos _ t hm hb]
  simp only [Res.bind_ok, List.isEmpty_cons, Bool.not_false, if_true]
  rw [parseString_enc e pos objs key _ hm' (by omega) hk]
  simp only [Res.bind_ok]
  rw [hip, parseString_enc e _ _ s _ hm1 (by omega) hs]
  simp only [Res.bind_ok]
  rw [notEnd_dict e _ kvs t hm2 (by omega)]
  simp only [Res.bind_ok]
  rw [if_neg (by simp; omega)]
  refine ⟨_, ?_, rfl⟩
  simp only [setNext, List.length_modify, List.length_append, List.length_cons, List.length_nil]

/-- A file in a folder, as it is written in torrent files. -/
def fileVal (f : Nat × List UInt8 × List UInt8) : BVal :=
  .dict [(ascii "length", .int f.1), (ascii "path", .list [.str f.2.1, .str f.2.2])]

theorem fileVals_count (fs : List (Nat × List UInt8 × List UInt8)) : countList (fs.map fileVal) = 7 * fs.length := by
  induction fs with
  | nil => rfl
  | cons f fs ih => simp [countList, fileVal, BVal.count, countDict, ih]; omega

theorem fileVals_fits : ∀ {fs : List (Nat × List UInt8 × List UInt8)},
    (∀ f ∈ fs, f.1 < 2 ^ 64 ∧ f.2.1.length < 2 ^ 31 ∧ f.2.2.length < 2 ^ 31) → fitsList (fs.map fileVal)
  | [], _ => trivial
  | f :: fs, h => by
    have hk : (ascii "length").length < 2147483648 ∧ (ascii "path").length < 2147483648 := by decide +kernel
    obtain ⟨h1, h2, h3⟩ := h f (by simp)
    refine ⟨⟨hk.1, h1, hk.2, ⟨h2, h3, trivial⟩, trivial⟩, fileVals_fits (fun x hx => h x (by simp [hx]))⟩

theorem many_ub (a : List UInt8) (ha : a.length < 2147483648) (fs : List (Nat × List UInt8 × List UInt8)) (hl : fs.length = 9361)
    (f : Nat × List UInt8 × List UInt8) (rest : List BVal) (more : List (List UInt8 × BVal)) (root : BVal)
    (hr : root = .dict [(ascii "announce", .str a), (ascii "info", .dict ((ascii "files", .list (fs.map fileVal ++ fileVal f :: rest)) :: more))])
    (hf : fitsList (fs.map fileVal)) (sha1 : List UInt8 → List UInt8) (after : List UInt8) (hne : after ≠ []) (fuel : Nat)
    (hfuel : root.enc.length ≤ fuel) : parse fuel sha1 root.enc after = .ub := by
  have hkl : (ascii "announce").length < 2147483648 ∧ (ascii "info").length < 2147483648 ∧ (ascii "files").length < 2147483648 ∧
      (ascii "length").length < 2147483648 := by decide +kernel
  obtain ⟨k1, k2, k3, k4⟩ := hkl
  have hcl := fileVals_count fs
  rw [hl] at hcl
  have hub : internalParse ⟨root.enc ++ after, 0 + root.enc.length⟩ fuel ⟨0, []⟩ = .ub := by
    subst hr
    generalize hfv : fs.map fileVal = vs at *
    generalize hinfo : ((ascii "files", BVal.list (vs ++ fileVal f :: rest)) :: more) = ikvs at *
    generalize hkv : [(ascii "announce", BVal.str a), (ascii "info", .dict ikvs)] = kvs at *
    have hlen1 : (BVal.dict kvs).enc.length = 1 + (encDict kvs).length + 1 := by simp [BVal.enc]; omega
    have hlen2 : (encDict kvs).length = (encStr (ascii "announce")).length + (encStr a).length + ((encStr (ascii "info")).length +
        ((encDict ikvs).length + 2)) := by
      rw [← hkv]; simp [encDict, BVal.enc]; omega
    have hlen3 : (encDict ikvs).length = (encStr (ascii "files")).length + ((encList (vs ++ fileVal f :: rest)).length + 2) +
        (encDict more).length := by
      rw [← hinfo]; simp [encDict, BVal.enc]; omega
    have hlen4 : ∀ (xs ys : List BVal), (encList (xs ++ ys)).length = (encList xs).length + (encList ys).length := by
      intro xs ys
      induction xs with
      | nil => simp [encList]
      | cons x xs ih => simp [encList, ih]; omega
    have hlen5 : (fileVal f).enc.length ≤ (encList (fileVal f :: rest)).length := by simp [encList]
    have hlen6 : 3 ≤ (fileVal f).enc.length := by
      unfold fileVal
      have := enc_length_pos (.int f.1)
      simp [BVal.enc, encDict]; omega
    have h4 := hlen4 vs (fileVal f :: rest)
    have hkp : 0 < (encStr a).length ∧ 0 < (encStr (ascii "announce")).length ∧ 0 < (encStr (ascii "info")).length ∧
        0 < (encStr (ascii "files")).length := by
      refine ⟨?_, ?_, ?_, ?_⟩ <;> · unfold encStr; simp only [List.length_append, List.length_cons]; omega
    obtain ⟨p1, p2, p3, p4⟩ := hkp
    obtain ⟨n, rfl⟩ : ∃ n, fuel = n + 5 + 2 := ⟨fuel - 7, by omega⟩
    have hm0 : ((BVal.dict kvs).enc ++ after).drop 0 = (BVal.dict kvs).enc ++ after := rfl
    have hm1 : ((BVal.dict kvs).enc ++ after).drop (0 + 1) = encDict kvs ++ chr 'e' :: after :=
      drop_one (c := chr 'd') (hm0.trans (by simp [BVal.enc]))
    apply dict_ub hm0
    have hm1' : ((BVal.dict kvs).enc ++ after).drop (0 + 1) = encDict ((ascii "announce", .str a) :: [(ascii "info", .dict ikvs)]) ++
      chr 'e' :: after := by rw [hm1, hkv]
    obtain ⟨objs', ho, hd⟩ := text_then (e := ⟨(BVal.dict kvs).enc ++ after, 0 + (BVal.dict kvs).enc.length⟩) (n := n + 4) (count := 0)
      (objs := [] ++ [{ type := .dictionary }]) hm1' (by rw [hkv]; simp only; omega) k1 ha (by simp)
    rw [hd]
    have hm2 : ((BVal.dict kvs).enc ++ after).drop (0 + 1 + (encStr (ascii "announce")).length + (encStr a).length) =
        encDict [(ascii "info", .dict ikvs)] ++ chr 'e' :: after := by
      refine drop_add (drop_add ?_)
      rw [hm1', encDict]
      simp [BVal.enc]
    have hlen7 : (encDict [(ascii "info", BVal.dict ikvs)]).length = (encStr (ascii "info")).length + ((encDict ikvs).length + 2) := by
      simp [encDict, BVal.enc]
    refine value_ub hm2 (by simp only; omega) k2 ?_
    intro objs1 ho1
    have hm3 : ((BVal.dict kvs).enc ++ after).drop (0 + 1 + (encStr (ascii "announce")).length + (encStr a).length +
        (encStr (ascii "info")).length) = (BVal.dict ikvs).enc ++ chr 'e' :: after := by
      refine drop_add ?_
      rw [hm2]
      simp [encDict]
    apply dict_ub hm3
    have hm4 : ((BVal.dict kvs).enc ++ after).drop (0 + 1 + (encStr (ascii "announce")).length + (encStr a).length +
        (encStr (ascii "info")).length + 1) = encDict ikvs ++ chr 'e' :: (chr 'e' :: after) :=
      drop_one (c := chr 'd') (hm3.trans (by simp [BVal.enc]))
    rw [← hinfo] at hm4
    refine value_ub hm4 (by rw [hinfo]; simp only; omega) k3 ?_
    intro objs2 ho2
    have hm5 : ((BVal.dict kvs).enc ++ after).drop (0 + 1 + (encStr (ascii "announce")).length + (encStr a).length +
        (encStr (ascii "info")).length + 1 + (encStr (ascii "files")).length) =
        (BVal.list (vs ++ fileVal f :: rest)).enc ++ (encDict more ++ chr 'e' :: (chr 'e' :: after)) := by
      refine drop_add ?_
      rw [hm4]
      simp [encDict]
    apply listval_ub hm5
    have hm6 : ((BVal.dict kvs).enc ++ after).drop (0 + 1 + (encStr (ascii "announce")).length + (encStr a).length +
        (encStr (ascii "info")).length + 1 + (encStr (ascii "files")).length + 1) =
        encList (vs ++ fileVal f :: rest) ++ chr 'e' :: (encDict more ++ chr 'e' :: (chr 'e' :: after)) :=
      drop_one (c := chr 'l') (hm5.trans (by simp [BVal.enc]))
    refine list_ub (fileVal f) rest 65534 (by omega) _ (encDict more ++ chr 'e' :: (chr 'e' :: after)) ?_ vs _ _ _ _ hm6
      (by simp only; omega) hf ?_ (by omega)
    · intro n pos objs h1 h2 h3 h4
      exact edge_ub (ascii "length") f.1 _ _ n pos objs _ h1 (by simp) h2 k4 h3 h4
    · simp only [List.length_append, List.length_cons, List.length_nil] at ho ho1 ho2 ⊢
      omega
  unfold parse Bencode.parse parseAt
  rw [hub]
  rfl

end Verif.Metafile
