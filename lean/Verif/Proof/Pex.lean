import Verif.Spec.Pex
import Verif.Proof.Addr
import Verif.Proof.BencodeGet
import Mathlib.Tactic.Tauto
import Mathlib.Tactic.Conv

namespace Verif.Pex
open Verif Bencode Net Spec.Exchange

/-! ### The set of addresses -/

theorem sameKey_iff {a b : Addr} (ha : V4 a) (hb : V4 b) : sameKey a b = true ↔ wire a = wire b := by
  obtain ⟨a1, a2, a3⟩ := ha
  obtain ⟨b1, b2, b3⟩ := hb
  unfold sameKey Addr.lt wire
  have hl : (a.bytes.take 4).length = (b.bytes.take 4).length := by simp [a2, b2]
  have h1 := lexLt_iff hl
  have h2 := lexLt_iff hl.symm
  simp only [a1, b1, Addr.size, Bool.false_eq_true, if_false, Prod.mk.injEq]
  constructor
  · intro h
    simp only [Bool.and_eq_true, Bool.not_eq_true', Bool.or_eq_false_iff, decide_eq_false_iff_not, Bool.and_eq_false_iff] at h
    have hp : a.port = b.port := by omega
    refine ⟨?_, hp⟩
    have e1 : lexLt (a.bytes.take 4) (b.bytes.take 4) = false := by
      rcases h.1.2 with h | h
      · simp [hp] at h
      · exact h
    have e2 : lexLt (b.bytes.take 4) (a.bytes.take 4) = false := by
      rcases h.2.2 with h | h
      · simp [hp] at h
      · exact h
    apply beVal_inj hl
    rw [← Bool.not_eq_true, h1] at e1
    rw [← Bool.not_eq_true, h2] at e2
    omega
  · rintro ⟨h, hp⟩
    have e1 : lexLt (a.bytes.take 4) (b.bytes.take 4) = false := by rw [← Bool.not_eq_true, h1, h]; omega
    have e2 : lexLt (b.bytes.take 4) (a.bytes.take 4) = false := by rw [← Bool.not_eq_true, h2, h]; omega
    simp [e1, e2, hp]

/-- A set of IPv4 addresses, none twice. -/
def GoodSet (s : List Addr) : Prop := (∀ a ∈ s, V4 a) ∧ (s.map wire).Nodup

theorem goodSet_nil : GoodSet [] := ⟨by simp, by simp⟩

theorem takeWhile_perm (s : List Addr) (f : Addr → Bool) (a : Addr) :
    (s.takeWhile f ++ a :: s.dropWhile f).Perm (a :: s) := by
  have : s.takeWhile f ++ s.dropWhile f = s := List.takeWhile_append_dropWhile
  refine List.perm_middle.trans ?_
  rw [this]

theorem setInsert_good {s : List Addr} {a : Addr} (h : GoodSet s) (ha : V4 a) :
    GoodSet (setInsert s a) ∧ ∀ k, k ∈ (setInsert s a).map wire ↔ k = wire a ∨ k ∈ s.map wire := by
  unfold setInsert
  by_cases hc : s.any (sameKey a) = true
  · rw [if_pos hc]
    refine ⟨h, fun k => ⟨Or.inr, ?_⟩⟩
    rintro (rfl | hk)
    · obtain ⟨x, hx, hxa⟩ := List.any_eq_true.mp hc
      rw [(sameKey_iff ha (h.1 x hx)).mp hxa]
      exact List.mem_map_of_mem hx
    · exact hk
  · rw [if_neg hc]
    have hp := takeWhile_perm s (fun x => x.lt a) a
    have hm := hp.map wire
    refine ⟨⟨?_, ?_⟩, ?_⟩
    · intro x hx
      rcases List.mem_cons.mp (hp.mem_iff.mp hx) with rfl | hx
      · exact ha
      · exact h.1 x hx
    · rw [hm.nodup_iff, List.map_cons, List.nodup_cons]
      refine ⟨?_, h.2⟩
      intro hk
      obtain ⟨x, hx, hxa⟩ := List.mem_map.mp hk
      exact hc (List.any_eq_true.mpr ⟨x, hx, (sameKey_iff ha (h.1 x hx)).mpr hxa.symm⟩)
    · intro k
      rw [hm.mem_iff, List.map_cons, List.mem_cons]

theorem setErase_good {s : List Addr} {a : Addr} (h : GoodSet s) (ha : V4 a) :
    GoodSet (setErase s a) ∧ ∀ k, k ∈ (setErase s a).map wire ↔ k ≠ wire a ∧ k ∈ s.map wire := by
  unfold setErase
  refine ⟨⟨fun x hx => h.1 x (List.mem_filter.mp hx).1, h.2.sublist (List.Sublist.map _ List.filter_sublist)⟩, ?_⟩
  intro k
  constructor
  · intro hk
    obtain ⟨x, hx, rfl⟩ := List.mem_map.mp hk
    obtain ⟨hx1, hx2⟩ := List.mem_filter.mp hx
    refine ⟨?_, List.mem_map_of_mem hx1⟩
    intro he
    rw [(sameKey_iff ha (h.1 x hx1)).mpr he.symm] at hx2
    simp at hx2
  · rintro ⟨hne, hk⟩
    obtain ⟨x, hx, rfl⟩ := List.mem_map.mp hk
    refine List.mem_map_of_mem (List.mem_filter.mpr ⟨hx, ?_⟩)
    have : sameKey a x ≠ true := fun he => hne ((sameKey_iff ha (h.1 x hx)).mp he).symm
    simpa using this

theorem updateLoop_eq : ∀ (ps : List Peer) (m : List Addr × List UInt8) (new old : List Addr),
    (∀ p ∈ ps, V4 p.addr) → GoodSet new → GoodSet old →
    ∃ new' old', updateLoop ps m new old =
        (m.1 ++ (ps.take (50 - m.2.length)).map (·.addr), m.2 ++ (ps.take (50 - m.2.length)).map (·.flags), new', old') ∧
      GoodSet new' ∧ GoodSet old' ∧ (∀ k, k ∈ new'.map wire ↔ among k ps ∨ k ∈ new.map wire) ∧
      (∀ k, k ∈ old'.map wire ↔ ¬ among k ps ∧ k ∈ old.map wire) ∧ old'.length ≤ old.length
  | [], m, new, old, _, hn, ho => ⟨new, old, by simp [updateLoop], hn, ho, by simp [among], by simp [among], Nat.le_refl _⟩
  | p :: ps, m, new, old, hv, hn, ho => by
    have hp := hv p (by simp)
    obtain ⟨i1, i2⟩ := setInsert_good hn hp
    obtain ⟨e1, e2⟩ := setErase_good ho hp
    unfold updateLoop
    have hlen : (setErase old p.addr).length ≤ old.length := List.length_filter_le _ _
    by_cases hc : m.2.length < 50
    · obtain ⟨new', old', h1, h2, h3, h4, h5, h6⟩ := updateLoop_eq ps (m.1 ++ [p.addr], m.2 ++ [p.flags]) _ _
        (fun x hx => hv x (by simp [hx])) i1 e1
      refine ⟨new', old', ?_, h2, h3, ?_, ?_, by omega⟩
      · simp only [hc, hp.1, Bool.false_eq_true, not_false_iff, and_self, if_true]
        rw [h1]
        obtain ⟨n, hn⟩ : ∃ n, 50 - m.2.length = n + 1 := ⟨49 - m.2.length, by omega⟩
        have hn' : 50 - (m.2.length + 1) = n := by omega
        simp [hn, hn']
      · intro k; rw [h4, i2]; simp only [among, List.map_cons, List.mem_cons]; tauto
      · intro k; rw [h5, e2]; simp only [among, List.map_cons, List.mem_cons]; tauto
    · obtain ⟨new', old', h1, h2, h3, h4, h5, h6⟩ := updateLoop_eq ps m _ _
        (fun x hx => hv x (by simp [hx])) i1 e1
      refine ⟨new', old', ?_, h2, h3, ?_, ?_, by omega⟩
      · simp only [hc, false_and, if_false]
        rw [h1]
        have hn : 50 - m.2.length = 0 := by omega
        simp [hn]
      · intro k; rw [h4, i2]; simp only [among, List.map_cons, List.mem_cons]; tauto
      · intro k; rw [h5, e2]; simp only [among, List.map_cons, List.mem_cons]; tauto

/-! ### The message as a bencoded value -/

def addedKvs (as : List Addr) (fs : List UInt8) : List (List UInt8 × BVal) :=
  if as = [] then [] else [(ascii "added", .str (as.flatMap Addr.toData)), (ascii "added.f", .str fs)]

def droppedKvs (ds : List Addr) : List (List UInt8 × BVal) :=
  if ds = [] then [] else [(ascii "dropped", .str (ds.flatMap Addr.toData))]

theorem writeAdded_eq (d : List UInt8) (as : List Addr) (fs : List UInt8) (m : Msg) (h1 : m.added = as)
    (h2 : m.addedFlags = some fs) (hl : fs.length = as.length) : writeAdded d m = d ++ encDict (addedKvs as fs) := by
  unfold writeAdded addedKvs
  rw [h1, h2]
  by_cases ha : as = []
  · simp [ha, encDict]
  · have e1 : ascii "5:added" = dec (ascii "added").length ++ chr ':' :: ascii "added" := by decide +kernel
    have e2 : ascii "7:added.f" = dec (ascii "added.f").length ++ chr ':' :: ascii "added.f" := by decide +kernel
    simp only [ne_eq, ha, not_false_iff, if_true, if_false, Option.getD_some, hl, addRawItemText, addText, addRawItemFromBuffer, encDict,
      BVal.enc, encStr]
    rw [e1, e2]
    simp

theorem writeDropped_eq (d : List UInt8) (m : Msg) (hd : m.dropped ≠ []) :
    writeDropped d m = d ++ encDict (droppedKvs m.dropped) := by
  unfold writeDropped droppedKvs
  have e1 : ascii "7:dropped" = dec (ascii "dropped").length ++ chr ':' :: ascii "dropped" := by decide +kernel
  simp only [hd, if_false, addRawItemText, addText, encDict, BVal.enc, encStr]
  rw [e1]
  simp

/-- The value of a message. -/
def msgVal (as : List Addr) (fs : List UInt8) (ds : List Addr) : BVal := .dict (addedKvs as fs ++ droppedKvs ds)

/-- The address read back. -/
def norm (a : Addr) : Addr := ⟨a.bytes.take 4 ++ List.replicate 12 0, a.port, false⟩

theorem wire_norm {a : Addr} (h : V4 a) : wire (norm a) = wire a := by
  have hl := h.2.1
  unfold wire norm
  simp only [Prod.mk.injEq, and_true]
  rw [List.take_append_of_le_length (by simp [hl]), List.take_take]
  simp

theorem toData_length {a : Addr} (h : V4 a) : (Addr.toData a).length = 6 := by
  simp [Addr.toData, Addr.size, h.1, h.2.1, be16]

theorem flat_length {as : List Addr} (h : ∀ a ∈ as, V4 a) : (as.flatMap Addr.toData).length = 6 * as.length := by
  induction as with
  | nil => rfl
  | cons a as ih =>
    rw [List.flatMap_cons, List.length_append, toData_length (h a (by simp)), ih (fun x hx => h x (by simp [hx])), List.length_cons]
    omega

theorem parse_toData {a : Addr} (h : V4 a) (t : List UInt8) :
    Addr.parse Addr.empty (Addr.toData a ++ t) false = .ok (6, norm a) := by
  have hl := toData_length h
  obtain ⟨h1, h2, h3⟩ := h
  unfold Addr.parse norm Addr.empty
  have h4 : (a.bytes.take 4).length = 4 := by simp [h2]
  have e0 : Addr.toData a = a.bytes.take 4 ++ be16 a.port := by simp [Addr.toData, Addr.size, h1]
  have e1 : (Addr.toData a ++ t).take 4 = a.bytes.take 4 := by
    rw [e0, List.append_assoc, List.take_append_of_le_length (by omega), List.take_take]; simp
  have e2 : ((Addr.toData a ++ t).drop 4).take 2 = be16 a.port := by
    rw [e0, List.append_assoc, List.drop_append_of_le_length (by omega), List.drop_of_length_le (by omega)]
    simp [be16]
  simp only [Addr.size, Bool.false_eq_true, if_false]
  rw [if_pos (by simp [hl]), e1, e2]
  have e3 : beVal (be16 a.port) = a.port := by
    simp only [beVal, be16, List.foldl_cons, List.foldl_nil, UInt8.toNat_ofNat']; omega
  rw [e3]
  rfl

theorem addrLoop_eq : ∀ (as : List Addr) (t : List UInt8), (∀ a ∈ as, V4 a) →
    addrLoop false as.length (as.flatMap Addr.toData ++ t) = .ok (as.map norm)
  | [], t, _ => rfl
  | a :: as, t, h => by
    have ha := h a (by simp)
    rw [List.length_cons, addrLoop, List.flatMap_cons, List.append_assoc, parse_toData ha, Res.bind_ok]
    have hd : (Addr.toData a ++ (as.flatMap Addr.toData ++ t)).drop (Addr.size false + 2) = as.flatMap Addr.toData ++ t := by
      have := toData_length ha
      simp only [Addr.size, Bool.false_eq_true, if_false]
      rw [List.drop_append_of_le_length (by omega), List.drop_of_length_le (by omega)]; rfl
    rw [hd, addrLoop_eq as t (fun x hx => h x (by simp [hx]))]
    rfl

theorem popTxt_dict {mem : List UInt8} {objs : List Obj} {pos : Nat} {kvs : List (List UInt8 × BVal)}
    (h : AtPos mem objs 0 (.dict kvs) pos) (name : List UInt8) :
    match lookup kvs name .text with
    | some (.str s) => ∃ o, popTxt mem objs name = .ok (some o) ∧ o.bytes mem = s ∧ o.size = s.length ∧ (mem.drop o.data).take s.length = s
    | _ => popTxt mem objs name = .ok none := by
  have hf := findKey_lookup h name .text
  cases hl : lookup kvs name .text with
  | none => rw [hl] at hf; simp only; unfold popTxt; rw [hf]; rfl
  | some v =>
    rw [hl] at hf
    obtain ⟨h1, j, pos', h2, h3⟩ := hf
    cases v with
    | str s =>
      obtain ⟨o, h4, _, h5, h6, h7⟩ := h3.str
      simp only
      refine ⟨o, ?_, h5, h6, h7⟩
      unfold popTxt
      rw [h2]
      simp only [Res.bind_ok, h4]
      rfl
    | int _ => cases h1
    | list _ => cases h1
    | dict _ => cases h1

theorem low32 {n : Nat} (h : n < 2147483648) : ((n : Int) % 4294967296).toNat = n := by omega

theorem addrItem_eq {mem : List UInt8} {o : Obj} {as : List Addr} (hv : ∀ a ∈ as, V4 a) (hl : as.length < 2 ^ 28)
    (h1 : o.size = (as.flatMap Addr.toData).length) (h2 : (mem.drop o.data).take (as.flatMap Addr.toData).length = as.flatMap Addr.toData) :
    addrItem false mem (some o) = .ok (as.map norm) := by
  have hf := flat_length hv
  unfold addrItem
  simp only
  rw [h1, hf]
  rw [hf] at h2
  have h3 : mem.drop o.data = as.flatMap Addr.toData ++ (mem.drop o.data).drop (6 * as.length) := by
    conv_lhs => rw [← List.take_append_drop (6 * as.length) (mem.drop o.data), h2]
  rw [if_neg]
  · rw [h3]
    have : (((6 * as.length : Nat) : Int) % 4294967296).toNat = 6 * as.length := low32 (by omega)
    rw [this, show 6 * as.length / (Addr.size false + 2) = as.length by simp [Addr.size]]
    exact addrLoop_eq as _ hv
  · have : (0 : Int) ≤ Int.tdiv ((6 * as.length : Nat) : Int) ((Addr.size false + 2 : Nat) : Int) :=
      Int.tdiv_nonneg (by omega) (by omega)
    omega

/-- The message that is read back. -/
def readMsg (as : List Addr) (fs : List UInt8) (ds : List Addr) : Msg :=
  { added := as.map norm, addedFlags := if as = [] then none else some fs, dropped := ds.map norm }

theorem load_msgVal {as ds : List Addr} {fs : List UInt8} (ha : ∀ a ∈ as, V4 a) (hd : ∀ a ∈ ds, V4 a) (hal : as.length < 2 ^ 28)
    (hdl : ds.length < 2 ^ 28) (hfl : fs.length = as.length) (fuel : Nat) (after : List UInt8)
    (hfuel : (msgVal as fs ds).enc.length ≤ fuel) (hafter : after ≠ []) :
    load fuel (msgVal as fs ds).enc after = .ok (some (readMsg as fs ds)) := by
  have hf1 := flat_length ha
  have hf2 := flat_length hd
  have hfits : (msgVal as fs ds).fits := by
    unfold msgVal addedKvs droppedKvs
    simp only [BVal.fits]
    rw [fitsDict_append]
    constructor
    · split
      · trivial
      · simp only [fitsDict, BVal.fits, and_true]
        exact ⟨by decide, by omega, by decide, by omega⟩
    · split
      · trivial
      · simp only [fitsDict, BVal.fits, and_true]
        exact ⟨by decide, by omega⟩
  have hcnt : (msgVal as fs ds).count < 65536 := by
    unfold msgVal addedKvs droppedKvs
    simp only [BVal.count]
    rw [countDict_append]
    split <;> split <;> simp [countDict, BVal.count]
  obtain ⟨p, h1, _, _, _, h5⟩ := parseAt_enc (msgVal as fs ds) fuel ((msgVal as fs ds).enc ++ after) 0 (msgVal as fs ds).enc.length after
    (by simp) hafter (by simp) hfits hcnt hfuel
  obtain ⟨o, h6, h7⟩ := root_at h5
  unfold load
  rw [show parse fuel (msgVal as fs ds).enc after = .ok p from h1]
  simp only [Res.bind_ok, h6]
  rw [if_neg (by rw [h7]; simp [msgVal, BVal.ty])]
  generalize (msgVal as fs ds).enc ++ after = mem at *
  have hg : AtPos mem p.objs 0 (.dict (addedKvs as fs ++ droppedKvs ds)) 0 := h5
  have p1 := popTxt_dict hg (ascii "added")
  have p2 := popTxt_dict hg (ascii "added.f")
  have p3 := popTxt_dict hg (ascii "added6")
  have p4 := popTxt_dict hg (ascii "added6.f")
  have p5 := popTxt_dict hg (ascii "dropped")
  have l3 : lookup (addedKvs as fs ++ droppedKvs ds) (ascii "added6") .text = none := by
    unfold addedKvs droppedKvs; split <;> split <;> rfl
  have l4 : lookup (addedKvs as fs ++ droppedKvs ds) (ascii "added6.f") .text = none := by
    unfold addedKvs droppedKvs; split <;> split <;> rfl
  rw [l3] at p3; rw [l4] at p4
  simp only at p3 p4
  -- the addresses added
  have q1 : ∃ x, popTxt mem p.objs (ascii "added") = .ok x ∧ addrItem false mem x = .ok (as.map norm) := by
    by_cases he : as = []
    · have l1 : lookup (addedKvs as fs ++ droppedKvs ds) (ascii "added") .text = none := by
        unfold addedKvs droppedKvs; rw [if_pos he]; split <;> rfl
      rw [l1] at p1
      exact ⟨none, p1, by simp [addrItem, he]⟩
    · have l1 : lookup (addedKvs as fs ++ droppedKvs ds) (ascii "added") .text = some (.str (as.flatMap Addr.toData)) := by
        unfold addedKvs droppedKvs; rw [if_neg he]; split <;> rfl
      rw [l1] at p1
      obtain ⟨o, o1, _, o3, o4⟩ := p1
      exact ⟨some o, o1, addrItem_eq ha hal o3 o4⟩
  have q2 : ∃ x, popTxt mem p.objs (ascii "added.f") = .ok x ∧
      flagItem mem (as.map norm).length x = (if as = [] then none else some fs) := by
    by_cases he : as = []
    · have l1 : lookup (addedKvs as fs ++ droppedKvs ds) (ascii "added.f") .text = none := by
        unfold addedKvs droppedKvs; rw [if_pos he]; split <;> rfl
      rw [l1] at p2
      exact ⟨none, p2, by simp [flagItem, he]⟩
    · have l1 : lookup (addedKvs as fs ++ droppedKvs ds) (ascii "added.f") .text = some (.str fs) := by
        unfold addedKvs droppedKvs; rw [if_neg he]; split <;> rfl
      rw [l1] at p2
      obtain ⟨o, o1, o2, o3, o4⟩ := p2
      refine ⟨some o, o1, ?_⟩
      unfold flagItem
      simp only
      rw [if_pos (by rw [o3]; simp; omega), if_neg he, o2]
  have q5 : ∃ x, popTxt mem p.objs (ascii "dropped") = .ok x ∧ addrItem false mem x = .ok (ds.map norm) := by
    by_cases he : ds = []
    · have l1 : lookup (addedKvs as fs ++ droppedKvs ds) (ascii "dropped") .text = none := by
        unfold addedKvs droppedKvs; rw [if_pos he]; split <;> rfl
      rw [l1] at p5
      exact ⟨none, p5, by simp [addrItem, he]⟩
    · have l1 : lookup (addedKvs as fs ++ droppedKvs ds) (ascii "dropped") .text = some (.str (ds.flatMap Addr.toData)) := by
        unfold addedKvs droppedKvs; rw [if_neg he]; split <;> rfl
      rw [l1] at p5
      obtain ⟨o, o1, _, o3, o4⟩ := p5
      exact ⟨some o, o1, addrItem_eq hd hdl o3 o4⟩
  obtain ⟨x1, a1, b1⟩ := q1
  obtain ⟨x2, a2, b2⟩ := q2
  obtain ⟨x5, a5, b5⟩ := q5
  have b3 : addrItem true mem none = .ok [] := rfl
  have b4 : flagItem mem ([] : List Addr).length none = none := rfl
  simp only [a1, b1, a2, p3, p4, a5, b5, b3, b4, Res.bind_ok, Res.pure_eq, b2]
  rfl

/-! ### Building and cutting the message -/

/-- The whole message. -/
def whole (id : UInt8) (v : BVal) : List UInt8 := be32 (v.enc.length + 2) ++ [20, id] ++ v.enc

theorem setSize_eq (d e : List UInt8) (hd : d.length = 4) : setSize (d ++ e) = be32 e.length ++ e := by
  unfold setSize
  rw [List.length_append, hd, List.drop_append_of_le_length (by omega), List.drop_of_length_le (by omega)]
  simp

theorem create_eq (l : Local) (as ds : List Addr) (fs : List UInt8) (hfl : fs.length = as.length) (m : Msg) (h1 : m.added = as)
    (h2 : m.addedFlags = some fs) (h3 : m.dropped = ds) :
    createPexMessage l m = { l with
      pexData := if as = [] ∧ ds = [] then [] else whole 0 (msgVal as fs ds)
      off0 := if ds = [] then 0 else 7 + (encDict (addedKvs as fs)).length
      off1 := if ds = [] then l.off1 else 7 + (encDict (addedKvs as fs)).length + (encDict (droppedKvs ds)).length } := by
  subst h3
  unfold createPexMessage
  simp only [writeAdded_eq _ as fs m h1 h2 hfl, startMap, endMap]
  by_cases hd : m.dropped = []
  · have hz : droppedKvs m.dropped = [] := by simp [droppedKvs, hd]
    simp only [hd, ne_eq, not_true_eq_false, if_false, if_true, and_true, Local.mk.injEq, true_and]
    rw [show ([0, 0, 0, 0] ++ [20] ++ [0] ++ [chr 'd'] ++ encDict (addedKvs as fs) ++ [chr 'e'] : List UInt8) =
      [0, 0, 0, 0] ++ ([20, 0] ++ (msgVal as fs m.dropped).enc) by simp [msgVal, BVal.enc, hz], setSize_eq _ _ rfl]
    have e : (be32 ([20, 0] ++ (msgVal as fs m.dropped).enc).length ++ ([20, 0] ++ (msgVal as fs m.dropped).enc)) =
        whole 0 (msgVal as fs []) := by simp [whole, hd]
    rw [e]
    have hiff : (whole 0 (msgVal as fs [])).length = 8 ↔ as = [] := by
      have : droppedKvs [] = [] := rfl
      simp only [whole, msgVal, this, List.append_nil, BVal.enc]
      by_cases ha : as = []
      · simp [ha, addedKvs, encDict, be32]
      · simp [ha, addedKvs, encDict, be32, encStr, BVal.enc]
        have : 0 < (dec (ascii "added").length).length := by decide +kernel
        omega
    simp [hiff]
  · have hw := writeDropped_eq ([0, 0, 0, 0] ++ [20] ++ [0] ++ [chr 'd'] ++ encDict (addedKvs as fs)) m hd
    simp only [hd, ne_eq, not_false_iff, if_true, if_false, and_false, hw, Local.mk.injEq, true_and, and_true]
    rw [show ([0, 0, 0, 0] ++ [20] ++ [0] ++ [chr 'd'] ++ encDict (addedKvs as fs) ++ encDict (droppedKvs m.dropped) ++ [chr 'e'] : List UInt8) =
      [0, 0, 0, 0] ++ ([20, 0] ++ (msgVal as fs m.dropped).enc) by simp [msgVal, BVal.enc, encDict_append], setSize_eq _ _ rfl]
    have e : (be32 ([20, 0] ++ (msgVal as fs m.dropped).enc).length ++ ([20, 0] ++ (msgVal as fs m.dropped).enc)) =
        whole 0 (msgVal as fs m.dropped) := by simp [whole]
    rw [e]
    have hne : (whole 0 (msgVal as fs m.dropped)).length ≠ 8 := by
      simp only [whole, msgVal, BVal.enc, encDict_append]
      simp [droppedKvs, hd, encDict, be32, encStr]
      have : 0 < (dec (ascii "dropped").length).length := by decide +kernel
      omega
    rw [if_neg hne]
    refine ⟨rfl, ?_, ?_⟩
    · simp; omega
    · simp; omega

theorem whole_set (v : BVal) (id : UInt8) : (whole 0 v).set 5 id = whole id v := by
  simp [whole, be32]

theorem whole_length (id : UInt8) (v : BVal) : (whole id v).length = 6 + v.enc.length := by simp [whole, be32]; omega

theorem says_whole {as : List Addr} {fs : List UInt8} {ds : List Addr} {ps : List Peer} {id : UInt8} {P : List UInt8 × Nat → Prop}
    (h1 : as = ps.map (·.addr)) (h2 : fs = ps.map (·.flags)) (hv : ∀ a ∈ as, V4 a) (hd : GoodSet ds) (hal : as.length < 2 ^ 28)
    (hdl : ds.length < 2 ^ 28) (hP : ∀ k, k ∈ ds.map wire ↔ P k) : Says (whole id (msgVal as fs ds)) id ps P := by
  refine ⟨(msgVal as fs ds).enc, readMsg as fs ds, rfl, ?_, ?_, ?_, rfl, ?_, ?_⟩
  · intro fuel after hfuel hafter
    exact load_msgVal hv hd.1 hal hdl (by rw [h1, h2]; simp) fuel after hfuel hafter
  · simp only [readMsg, List.map_map, h1]
    apply List.map_congr_left
    intro p hp
    exact wire_norm (hv _ (by rw [h1]; exact List.mem_map_of_mem hp))
  · intro hne
    have : as ≠ [] := by rw [h1]; simpa using hne
    simp [readMsg, this, h2]
  · have : (ds.map norm).map wire = ds.map wire := by
      rw [List.map_map]
      apply List.map_congr_left
      intro a ha
      exact wire_norm (hd.1 a ha)
    simp only [readMsg, this]
    exact hd.2
  · have : (ds.map norm).map wire = ds.map wire := by
      rw [List.map_map]
      apply List.map_congr_left
      intro a ha
      exact wire_norm (hd.1 a ha)
    intro k
    simp only [readMsg, this]
    exact hP k

/-- The local data after updates. -/
structure Good (s : Snap) (l : Local) : Prop where
  time : l.dataTime = s.time
  set : GoodSet l.dataPeers
  peers : ∀ k, k ∈ l.dataPeers.map wire ↔ among k s.latest
  count : l.dataPeers.length < 2 ^ 28
  latest : s.latest.length < 2 ^ 28
  v4 : ∀ p ∈ s.latest, V4 p.addr
  off : s.shrunk = false → l.off1 = 0
  hash : l.pexData = [] → l.hash = 0
  data : ∃ ds, GoodSet ds ∧ ds.length < 2 ^ 28 ∧ (∀ k, k ∈ ds.map wire ↔ among k s.before ∧ ¬ among k s.latest) ∧
    l.pexData = (if s.latest = [] ∧ ds = [] then [] else
      whole 0 (msgVal ((s.latest.take 50).map Peer.addr) ((s.latest.take 50).map Peer.flags) ds)) ∧
    l.off0 = (if ds = [] then 0 else 7 + (encDict (addedKvs ((s.latest.take 50).map Peer.addr) ((s.latest.take 50).map Peer.flags))).length) ∧
    (ds ≠ [] → l.off1 = l.off0 + (encDict (droppedKvs ds)).length)

theorem good_init (t0 : Nat) : Good { time := t0 } { dataTime := t0 } :=
  ⟨rfl, goodSet_nil, by simp [among], by simp, by simp, by simp, by simp, by simp, [], goodSet_nil, by simp, by simp [among], by simp, by simp, by simp⟩

theorem setInsert_length (s : List Addr) (a : Addr) : (setInsert s a).length ≤ s.length + 1 := by
  unfold setInsert
  split
  · omega
  · rw [(takeWhile_perm s _ a).length_eq]; simp

theorem updateLoop_new_length : ∀ (ps : List Peer) (m : List Addr × List UInt8) (new old : List Addr),
    (updateLoop ps m new old).2.2.1.length ≤ new.length + ps.length
  | [], m, new, old => by simp [updateLoop]
  | p :: ps, m, new, old => by
    unfold updateLoop
    have := updateLoop_new_length ps (if m.2.length < 50 ∧ ¬ p.addr.ipv6 then (m.1 ++ [p.addr], m.2 ++ [p.flags]) else m)
      (setInsert new p.addr) (setErase old p.addr)
    have := setInsert_length new p.addr
    simp only [List.length_cons] at *
    omega

theorem good_update (hashOf : List UInt8 → Nat) {s : Snap} {l : Local} (h : Good s l) (now : Nat) (peers : List Peer)
    (h60 : 60 ≤ now) (h64 : now < 2 ^ 64) (hl : peers.length < 2 ^ 28) (hv : ∀ p ∈ peers, V4 p.addr) :
    Good (s.step (now, peers)) (update hashOf l now peers) := by
  unfold update Snap.step
  have hm : minuteAgo now = now - 60 := if_pos h60
  rw [hm, h.time]
  by_cases hc : now - 60 < s.time
  · rw [if_pos hc, if_neg (by simp only; omega)]
    exact h
  · rw [if_neg hc, if_pos (by simp only; omega)]
    obtain ⟨new, old, h1, h2, h3, h4, h5, h6⟩ := updateLoop_eq peers ([], []) [] l.dataPeers hv goodSet_nil h.set
    have hnl := updateLoop_new_length peers ([], []) [] l.dataPeers
    rw [h1] at hnl
    simp only [List.length_nil, Nat.zero_add, Nat.sub_zero, List.nil_append] at h1 hnl
    rw [h1]
    simp only
    rw [create_eq _ ((peers.take 50).map (·.addr)) old ((peers.take 50).map (·.flags)) (by simp) _ rfl rfl rfl]
    have hold : ∀ k, k ∈ old.map wire ↔ among k s.latest ∧ ¬ among k peers := by
      intro k; rw [h5, h.peers]; exact and_comm
    refine ⟨rfl, h2, ?_, by simp only; omega, hl, hv, ?_, ?_, old, h3, by have := h.count; omega, hold, ?_, rfl, ?_⟩
    · intro k; rw [h4]; simp
    · intro hs
      simp only [Bool.or_eq_false_iff] at hs
      have he : old = [] := by
        cases ho : old with
        | nil => rfl
        | cons a as =>
          have hk := (hold (wire a)).mp (by rw [ho]; simp)
          obtain ⟨p, hp, hpa⟩ := List.mem_map.mp hk.1
          have := hs.2
          rw [List.any_eq_false] at this
          have := this p hp
          rw [hpa] at this
          simp [hk.2] at this
      simp only [he, if_true]
      exact h.off hs.1
    · simp only
      intro hp
      rw [if_pos hp]
    · simp only
      have : (peers.take 50).map (·.addr) = [] ↔ peers = [] := by simp
      simp [this]
    · intro hne
      simp [hne]

theorem good_run (hashOf : List UInt8 → Nat) : ∀ (ts : List (Nat × List Peer)) {s : Snap} {l : Local}, Good s l → Usual ts →
    Good (ts.foldl Snap.step s) (ts.foldl (fun l t => update hashOf l t.1 t.2) l)
  | [], _, _, h, _ => h
  | t :: ts, _, _, h, hu => by
    obtain ⟨a, b, c, d⟩ := hu t (by simp)
    exact good_run hashOf ts (good_update hashOf h t.1 t.2 a b c d) (fun x hx => hu x (by simp [hx]))

theorem good_says {s : Snap} {l : Local} (h : Good s l) (hne : l.pexData ≠ []) (id : UInt8) :
    Says (l.pexData.set 5 id) id (s.latest.take 50) (fun k => among k s.before ∧ ¬ among k s.latest) ∧ 5 < l.pexData.length := by
  obtain ⟨ds, d1, d2, d3, d4, _⟩ := h.data
  rw [d4] at hne ⊢
  split at hne
  · exact absurd rfl hne
  · rename_i hc
    rw [if_neg hc, whole_set, whole_length]
    refine ⟨says_whole rfl rfl ?_ d1 ?_ d2 d3, ?_⟩
    · intro a ha
      obtain ⟨p, hp, rfl⟩ := List.mem_map.mp ha
      exact h.v4 p (List.mem_of_mem_take hp)
    · have := h.latest
      simp only [List.length_map, List.length_take]; omega
    · simp [msgVal, BVal.enc]; omega

theorem says_first {s : Snap} {l : Local} (h : Good s l) (hne : l.pexData ≠ []) (id : UInt8)
    (hfirst : s.shrunk = false ∨ ∃ p ∈ s.before, ¬ among (wire p.addr) s.latest) :
    ∃ d, createFirst l = .ok d ∧ Says (d.set 5 id) id (s.latest.take 50) (fun _ => False) ∧ 5 < d.length := by
  obtain ⟨ds, d1, d2, d3, d4, d5, d6⟩ := h.data
  have hv : ∀ a ∈ (s.latest.take 50).map Peer.addr, V4 a := by
    intro a ha
    obtain ⟨p, hp, rfl⟩ := List.mem_map.mp ha
    exact h.v4 p (List.mem_of_mem_take hp)
  have hll : ((s.latest.take 50).map Peer.addr).length < 2 ^ 28 := by
    have := h.latest
    simp only [List.length_map, List.length_take]; omega
  have hs := says_whole (as := (s.latest.take 50).map Peer.addr) (fs := (s.latest.take 50).map Peer.flags) (ds := []) (id := id)
    (P := fun _ => False) rfl rfl hv goodSet_nil hll (by decide) (by simp)
  unfold createFirst
  by_cases hds : ds = []
  · -- nothing dropped now, so never
    have hsh : s.shrunk = false := by
      rcases hfirst with h1 | ⟨p, hp, hpl⟩
      · exact h1
      · have := (d3 (wire p.addr)).mpr ⟨List.mem_map_of_mem hp, hpl⟩
        rw [hds] at this; simp at this
    have ho := h.off hsh
    rw [hds] at d4 d5
    rw [if_pos rfl] at d5
    have hl : s.latest ≠ [] := by
      intro he
      rw [d4] at hne
      simp [he] at hne
    rw [if_neg (by simp [hl])] at d4
    rw [d4, ho, d5, if_pos ⟨by rw [← d4]; exact hne, by rw [whole_length]; omega⟩]
    simp only [List.take_zero, List.drop_zero, List.nil_append]
    rw [if_pos (by rw [whole_length]; omega)]
    have he : setSize (whole 0 (msgVal ((s.latest.take 50).map Peer.addr) ((s.latest.take 50).map Peer.flags) [])) =
        whole 0 (msgVal ((s.latest.take 50).map Peer.addr) ((s.latest.take 50).map Peer.flags) []) := by
      unfold whole
      rw [List.append_assoc, setSize_eq _ _ rfl]
      simp
    rw [he]
    refine ⟨_, rfl, ?_, ?_⟩
    · rw [whole_set]; exact hs
    · rw [whole_length]; simp [msgVal, BVal.enc]; omega
  · rw [if_neg hds] at d5
    have d6 := d6 hds
    rw [if_neg (by simp [hds])] at d4
    generalize hA : addedKvs ((s.latest.take 50).map Peer.addr) ((s.latest.take 50).map Peer.flags) = A at *
    have hw : l.pexData = (be32 ((msgVal ((s.latest.take 50).map Peer.addr) ((s.latest.take 50).map Peer.flags) ds).enc.length + 2) ++
        [20, 0] ++ [chr 'd'] ++ encDict A) ++ (encDict (droppedKvs ds) ++ [chr 'e']) := by
      rw [d4]; simp only [whole, msgVal, BVal.enc, encDict_append, hA]; simp
    have hl1 : (be32 ((msgVal ((s.latest.take 50).map Peer.addr) ((s.latest.take 50).map Peer.flags) ds).enc.length + 2) ++
        [20, 0] ++ [chr 'd'] ++ encDict A : List UInt8).length = l.off0 := by
      rw [d5]; simp [be32]; omega
    have ht : l.pexData.take l.off0 = be32 ((msgVal ((s.latest.take 50).map Peer.addr) ((s.latest.take 50).map Peer.flags) ds).enc.length + 2) ++
        [20, 0] ++ [chr 'd'] ++ encDict A := by
      rw [hw, ← hl1, List.take_left']; rfl
    have hdr : l.pexData.drop l.off1 = [chr 'e'] := by
      rw [hw, d6, ← hl1, ← List.drop_drop, List.drop_left' rfl, List.drop_left' rfl]
    have hlen : l.off1 < l.pexData.length := by
      rw [hw, List.length_append, hl1, d6, List.length_append]; simp
    rw [if_pos ⟨hne, hlen⟩]
    simp only
    rw [ht, hdr]
    have hpay : be32 ((msgVal ((s.latest.take 50).map Peer.addr) ((s.latest.take 50).map Peer.flags) ds).enc.length + 2) ++
        [20, 0] ++ [chr 'd'] ++ encDict A ++ [chr 'e'] =
        be32 ((msgVal ((s.latest.take 50).map Peer.addr) ((s.latest.take 50).map Peer.flags) ds).enc.length + 2) ++
        ([20, 0] ++ (msgVal ((s.latest.take 50).map Peer.addr) ((s.latest.take 50).map Peer.flags) []).enc) := by
      simp only [msgVal, BVal.enc, hA, droppedKvs]; simp
    rw [hpay, if_pos (by simp [be32]), setSize_eq _ _ rfl]
    have he : be32 ([20, 0] ++ (msgVal ((s.latest.take 50).map Peer.addr) ((s.latest.take 50).map Peer.flags) []).enc).length ++
        ([20, 0] ++ (msgVal ((s.latest.take 50).map Peer.addr) ((s.latest.take 50).map Peer.flags) []).enc) =
        whole 0 (msgVal ((s.latest.take 50).map Peer.addr) ((s.latest.take 50).map Peer.flags) []) := by
      simp [whole]
    rw [he]
    refine ⟨_, rfl, ?_, ?_⟩
    · rw [whole_set]; exact hs
    · rw [whole_length]; simp [msgVal, BVal.enc]; omega

/-! ### Reading any dictionary -/

theorem parse_any (v6 : Bool) (s t : List UInt8) (h : (if v6 then 18 else 6) ≤ s.length) :
    Addr.parse Addr.empty (s ++ t) v6 = .ok (Addr.size v6 + 2, addrAt v6 s 0) := by
  have e1 : ∀ n, n ≤ s.length → (s ++ t).take n = s.take n := fun n hn => List.take_append_of_le_length hn
  have e2 : ∀ n, n + 2 ≤ s.length → ((s ++ t).drop n).take 2 = (s.drop n).take 2 := by
    intro n hn
    rw [List.drop_append_of_le_length (by omega), List.take_append_of_le_length (by rw [List.length_drop]; omega)]
  unfold Addr.parse addrAt Addr.empty
  cases v6 with
  | false =>
    simp only [Bool.false_eq_true, if_false] at h
    simp only [Addr.size, Bool.false_eq_true, if_false, Nat.zero_mul, List.drop_zero]
    rw [if_pos (by rw [List.length_append]; omega), e1 4 (by omega), e2 4 (by omega)]
    rfl
  | true =>
    simp only [if_true] at h
    simp only [Addr.size, if_true, Nat.zero_mul, List.drop_zero]
    rw [if_pos (by rw [List.length_append]; omega), e1 16 (by omega), e2 16 (by omega)]
    simp

theorem addrAt_succ (v6 : Bool) (s : List UInt8) (i : Nat) :
    addrAt v6 s (i + 1) = addrAt v6 (s.drop (Addr.size v6 + 2)) i := by
  have e : (s.drop (Addr.size v6 + 2)).drop (i * ((if v6 then 16 else 4) + 2)) = s.drop ((i + 1) * ((if v6 then 16 else 4) + 2)) := by
    rw [List.drop_drop]
    congr 1
    cases v6 <;> simp [Addr.size] <;> omega
  unfold addrAt
  simp only
  rw [e]

theorem addrLoop_any (v6 : Bool) : ∀ (k : Nat) (s t : List UInt8), k * (if v6 then 18 else 6) ≤ s.length →
    addrLoop v6 k (s ++ t) = .ok ((List.range k).map (addrAt v6 s))
  | 0, s, t, _ => rfl
  | k + 1, s, t, h => by
    have hsz : Addr.size v6 + 2 = (if v6 then 18 else 6) := by cases v6 <;> rfl
    have h1 : (if v6 then 18 else 6) ≤ s.length := by
      rw [Nat.succ_mul] at h; omega
    rw [addrLoop, parse_any v6 s t h1, Res.bind_ok, List.drop_append_of_le_length (by omega), addrLoop_any v6 k _ t
      (by rw [List.length_drop, hsz]; rw [Nat.succ_mul] at h; omega)]
    simp only [Res.bind_ok, Res.pure_eq, List.range_succ_eq_map, List.map_cons, List.map_map, Res.ok.injEq, List.cons.injEq, true_and]
    apply List.map_congr_left
    intro i _
    exact (addrAt_succ v6 s i).symm

theorem addrItem_any (v6 : Bool) {mem : List UInt8} {o : Obj} {s : List UInt8} (hl : s.length < 2 ^ 31)
    (h1 : o.size = s.length) (h2 : (mem.drop o.data).take s.length = s) :
    addrItem v6 mem (some o) = .ok (addrs v6 s) := by
  unfold addrItem
  simp only
  rw [h1]
  have h3 : mem.drop o.data = s ++ (mem.drop o.data).drop s.length := by
    conv_lhs => rw [← List.take_append_drop s.length (mem.drop o.data), h2]
  have hsz : Addr.size v6 + 2 = (if v6 then 18 else 6) := by cases v6 <;> rfl
  rw [if_neg]
  · rw [h3, low32 (by omega), hsz]
    unfold addrs
    exact addrLoop_any v6 _ s _ (Nat.div_mul_le_self _ _)
  · have : (0 : Int) ≤ Int.tdiv (s.length : Int) ((Addr.size v6 + 2 : Nat) : Int) :=
      Int.tdiv_nonneg (by omega) (by omega)
    omega

theorem fits_of_lookup : ∀ {kvs : List (List UInt8 × BVal)} {name : List UInt8} {ty : Ty} {v : BVal}, fitsDict kvs →
    lookup kvs name ty = some v → v.fits
  | [], _, _, _, _, h => by simp [lookup] at h
  | (k, x) :: kvs, name, ty, v, hf, h => by
    simp only [fitsDict] at hf
    unfold lookup at h
    split at h
    · cases h; exact hf.2.1
    · exact fits_of_lookup hf.2.2 h

theorem text_eq (name : String) : ∀ kvs : List (List UInt8 × BVal),
    text kvs name = match lookup kvs (ascii name) .text with
      | some (.str s) => some s
      | _ => none
  | [] => rfl
  | (k, v) :: kvs => by
    have ih := text_eq name kvs
    unfold text at ih ⊢
    rw [List.findSome?_cons, lookup]
    cases v with
    | str s =>
      by_cases hk : k = ascii name
      · simp [hk, BVal.ty]
      · simp only [hk, if_false, false_and]
        exact ih
    | int _ => simp only [BVal.ty, reduceCtorEq, and_false, if_false]; exact ih
    | list _ => simp only [BVal.ty, reduceCtorEq, and_false, if_false]; exact ih
    | dict _ => simp only [BVal.ty, reduceCtorEq, and_false, if_false]; exact ih

theorem items_any {mem : List UInt8} {objs : List Obj} {pos : Nat} {kvs : List (List UInt8 × BVal)} (hf : fitsDict kvs)
    (h : AtPos mem objs 0 (.dict kvs) pos) (name : String) :
    ∃ x, popTxt mem objs (ascii name) = .ok x ∧ (∀ v6, addrItem v6 mem x = .ok (addrs v6 ((text kvs name).getD []))) ∧
      ∀ as : List Addr, flagItem mem as.length x = flagsFor as (text kvs name) := by
  have p := popTxt_dict h (ascii name)
  rw [text_eq]
  cases hl : lookup kvs (ascii name) .text with
  | none =>
    rw [hl] at p
    refine ⟨none, p, fun v6 => ?_, fun as => rfl⟩
    cases v6 <;> rfl
  | some v =>
    rw [hl] at p
    cases v with
    | str s =>
      obtain ⟨o, o1, o2, o3, o4⟩ := p
      have hs : s.length < 2 ^ 31 := by
        have := fits_of_lookup hf hl
        simpa [BVal.fits] using this
      refine ⟨some o, o1, fun v6 => addrItem_any v6 hs o3 o4, fun as => ?_⟩
      unfold flagItem flagsFor
      simp only
      rw [o3, o2, show ((s.length : Int) % 18446744073709551616).toNat = s.length by omega]
      by_cases hc : s.length = as.length <;> simp [hc, Option.filter]
    | int _ => exact ⟨none, p, fun v6 => by simp only; cases v6 <;> rfl, fun as => rfl⟩
    | list _ => exact ⟨none, p, fun v6 => by simp only; cases v6 <;> rfl, fun as => rfl⟩
    | dict _ => exact ⟨none, p, fun v6 => by simp only; cases v6 <;> rfl, fun as => rfl⟩

theorem load_any {kvs : List (List UInt8 × BVal)} (hfits : fitsDict kvs) (hcnt : 1 + countDict kvs < 65536) (fuel : Nat)
    (after : List UInt8) (hfuel : (BVal.dict kvs).enc.length ≤ fuel) (hafter : after ≠ []) :
    load fuel (BVal.dict kvs).enc after = .ok (some (inDict kvs)) := by
  obtain ⟨p, h1, _, _, _, h5⟩ := parseAt_enc (.dict kvs) fuel ((BVal.dict kvs).enc ++ after) 0 (BVal.dict kvs).enc.length after
    (by simp) hafter (by simp) hfits hcnt hfuel
  obtain ⟨o, h6, h7⟩ := root_at h5
  unfold load
  rw [show parse fuel (BVal.dict kvs).enc after = .ok p from h1]
  simp only [Res.bind_ok, h6]
  rw [if_neg (by rw [h7]; simp [BVal.ty])]
  generalize (BVal.dict kvs).enc ++ after = mem at *
  obtain ⟨x1, a1, b1, _⟩ := items_any hfits h5 "added"
  obtain ⟨x2, a2, _, c2⟩ := items_any hfits h5 "added.f"
  obtain ⟨x3, a3, b3, _⟩ := items_any hfits h5 "added6"
  obtain ⟨x4, a4, _, c4⟩ := items_any hfits h5 "added6.f"
  obtain ⟨x5, a5, b5, _⟩ := items_any hfits h5 "dropped"
  simp only [a1, b1, a2, a3, b3, a4, a5, b5, Res.bind_ok, Res.pure_eq, c2, c4]
  rfl

/-- Anything but a dictionary is ignored. -/
theorem load_other {v : BVal} (hv : ∀ kvs, v ≠ .dict kvs) (hfits : v.fits) (hcnt : v.count < 65536) (fuel : Nat)
    (after : List UInt8) (hfuel : v.enc.length ≤ fuel) (hafter : after ≠ []) :
    load fuel v.enc after = .ok none := by
  obtain ⟨p, h1, _, _, _, h5⟩ := parseAt_enc v fuel (v.enc ++ after) 0 v.enc.length after
    (by simp) hafter (by simp) hfits hcnt hfuel
  obtain ⟨o, h6, h7⟩ := root_at h5
  unfold load
  rw [show parse fuel v.enc after = .ok p from h1]
  simp only [Res.bind_ok, h6]
  rw [if_pos]
  · rfl
  · rw [h7]
    cases v <;> simp [BVal.ty]
    exact hv _ rfl

end Verif.Pex
