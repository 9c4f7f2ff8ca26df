import Verif.Model.State
import Verif.Spec.State
import Verif.Proof.BencodeGet

namespace Verif.State
open Verif Bencode PieceState Spec

/-- An unfinished piece as a bencoded value. -/
def uKvs (p : PState) : List (List UInt8 × BVal) :=
  [(ascii "blocks", .str p.blocksState), (ascii "remaining", .int p.remainingBlocks), (ascii "index", .int p.index),
   (ascii "downloaded", .int p.downloadedSize)]

def uVal (p : PState) : BVal := .dict (uKvs p)

def selVal (s : Bool × Nat) : BVal := .list [.int s.1.toNat, .int s.2]

def infoKvs (s : TState) : List (List UInt8 × BVal) :=
  [(ascii "name", .str s.name), (ascii "pieceSize", .int s.pieceSize), (ascii "fullSize", .int s.fullSize)]

def rootKvs (s : TState) : List (List UInt8 × BVal) :=
  [(ascii "info", .dict (infoKvs s)), (ascii "downloadPath", .str s.downloadPath), (ascii "pieces", .str s.pieces),
   (ascii "lastStateTime", .int s.lastStateTime), (ascii "addedTime", .int s.addedTime), (ascii "started", .int s.started.toNat),
   (ascii "uploaded", .int s.uploaded), (ascii "downloaded", .int s.downloaded), (ascii "version", .int s.version),
   (ascii "unfinished", .list (s.unfinished.map uVal)), (ascii "selection", .list (s.selection.map selVal))]

theorem saveUnfinished_eq (d : List UInt8) (p : PState) : saveUnfinished d p = d ++ (uVal p).enc := by
  simp only [saveUnfinished, uVal, uKvs, BVal.enc, encDict, encStr, startMap, endMap, addRawItemFromBuffer, addRawItemNumber, addNumber]
  have h1 : ascii "6:blocks" = dec (ascii "blocks").length ++ chr ':' :: ascii "blocks" := by decide +kernel
  have h2 : ascii "9:remaining" = dec (ascii "remaining").length ++ chr ':' :: ascii "remaining" := by decide +kernel
  have h3 : ascii "5:index" = dec (ascii "index").length ++ chr ':' :: ascii "index" := by decide +kernel
  have h4 : ascii "10:downloaded" = dec (ascii "downloaded").length ++ chr ':' :: ascii "downloaded" := by decide +kernel
  rw [h1, h2, h3, h4]
  simp

theorem saveSelection_eq (d : List UInt8) (s : Bool × Nat) : saveSelection d s = d ++ (selVal s).enc := by
  simp [saveSelection, selVal, BVal.enc, encList, startArray, endArray, addNumber]

theorem foldl_enc {α} (f : List UInt8 → α → List UInt8) (g : α → BVal) (h : ∀ d a, f d a = d ++ (g a).enc) :
    ∀ (l : List α) (d : List UInt8), l.foldl f d = d ++ encList (l.map g)
  | [], d => by simp [encList]
  | a :: l, d => by
    rw [List.foldl_cons, foldl_enc f g h l, h]
    simp [encList]

theorem save_eq (s : TState) : save s = (BVal.dict (rootKvs s)).enc := by
  simp only [save, rootKvs, infoKvs, BVal.enc, encDict, encStr, startMap, endMap, startMapItem, addText, startRawArrayItem, endArray,
    startArray, addRawItemText, addRawItemFromBuffer, addRawItemNumber, addNumber,
    foldl_enc saveUnfinished uVal saveUnfinished_eq, foldl_enc saveSelection selVal saveSelection_eq]
  have h1 : ascii "4:name" = dec (ascii "name").length ++ chr ':' :: ascii "name" := by decide +kernel
  have h2 : ascii "9:pieceSize" = dec (ascii "pieceSize").length ++ chr ':' :: ascii "pieceSize" := by decide +kernel
  have h3 : ascii "8:fullSize" = dec (ascii "fullSize").length ++ chr ':' :: ascii "fullSize" := by decide +kernel
  have h4 : ascii "12:downloadPath" = dec (ascii "downloadPath").length ++ chr ':' :: ascii "downloadPath" := by decide +kernel
  have h5 : ascii "6:pieces" = dec (ascii "pieces").length ++ chr ':' :: ascii "pieces" := by decide +kernel
  have h6 : ascii "13:lastStateTime" = dec (ascii "lastStateTime").length ++ chr ':' :: ascii "lastStateTime" := by decide +kernel
  have h7 : ascii "9:addedTime" = dec (ascii "addedTime").length ++ chr ':' :: ascii "addedTime" := by decide +kernel
  have h8 : ascii "7:started" = dec (ascii "started").length ++ chr ':' :: ascii "started" := by decide +kernel
  have h9 : ascii "8:uploaded" = dec (ascii "uploaded").length ++ chr ':' :: ascii "uploaded" := by decide +kernel
  have h10 : ascii "10:downloaded" = dec (ascii "downloaded").length ++ chr ':' :: ascii "downloaded" := by decide +kernel
  have h11 : ascii "7:version" = dec (ascii "version").length ++ chr ':' :: ascii "version" := by decide +kernel
  have h12 : ascii "10:unfinished" = dec (ascii "unfinished").length ++ chr ':' :: ascii "unfinished" := by decide +kernel
  have h13 : ascii "9:selection" = dec (ascii "selection").length ++ chr ':' :: ascii "selection" := by decide +kernel
  rw [h1, h2, h3, h4, h5, h6, h7, h8, h9, h10, h11, h12, h13]
  simp

theorem toU32_id {n : Nat} (h : n < 4294967296) : toU32 (toInt32 n) = n := by
  unfold toU32 toInt32; omega

theorem AtPos_type {mem : List UInt8} {objs : List Obj} {j : Nat} {v : BVal} {pos : Nat} (h : AtPos mem objs j v pos) :
    ∃ o, rd objs j = .ok o ∧ o.type = v.ty := h.rd

theorem loadUnfinishedLoop_eq {mem : List UInt8} {objs : List Obj} : ∀ (us : List PState) (js : List Nat),
    (∀ u ∈ us, u.remainingBlocks < 4294967296 ∧ u.downloadedSize < 4294967296 ∧ u.index < 4294967296) →
    AtAll mem objs js (us.map uVal) → loadUnfinishedLoop mem objs js = .ok (us.filter Saved.hasData)
  | [], [], _, _ => rfl
  | [], _ :: _, _, h => by simp [AtAll] at h
  | _ :: _, [], _, h => by simp [AtAll] at h
  | u :: us, j :: js, hu, h => by
    obtain ⟨⟨pos, hp⟩, hr⟩ := h
    have ih := loadUnfinishedLoop_eq us js (fun x hx => hu x (by simp [hx])) hr
    obtain ⟨h1, h2, h3⟩ := hu u (by simp)
    obtain ⟨o, ho, hot⟩ := AtPos_type hp
    have hp' : AtPos mem objs j (.dict (uKvs u)) pos := hp
    have g1 := getTxtItem_dict hp' (ascii "blocks")
    have l1 : lookup (uKvs u) (ascii "blocks") .text = some (.str u.blocksState) := rfl
    have l2 : lookup (uKvs u) (ascii "index") .number = some (.int u.index) := rfl
    have l3 : lookup (uKvs u) (ascii "remaining") .number = some (.int u.remainingBlocks) := rfl
    have l4 : lookup (uKvs u) (ascii "downloaded") .number = some (.int u.downloadedSize) := rfl
    have g2 := getIntKey_dict hp' (ascii "index") (by intro n hn; rw [l2] at hn; cases hn; omega)
    have g3 := getIntKey_dict hp' (ascii "remaining") (by intro n hn; rw [l3] at hn; cases hn; omega)
    have g4 := getIntKey_dict hp' (ascii "downloaded") (by intro n hn; rw [l4] at hn; cases hn; omega)
    rw [l1] at g1; rw [l2] at g2; rw [l3] at g3; rw [l4] at g4
    simp only at g1 g2 g3 g4
    have hk : Saved.hasData u = decide (u.blocksState ≠ [] ∧ u.downloadedSize ≠ 0) := rfl
    unfold loadUnfinishedLoop
    simp only [ho, Res.bind_ok, hot, uVal, BVal.ty, if_true, g1, g2, g3, g4, ih, toU32_id h1, toU32_id h2, toU32_id h3, List.filter_cons, hk]
    by_cases hc : u.blocksState ≠ [] ∧ u.downloadedSize ≠ 0
    · simp [hc]
    · simp only [hc, if_false, decide_false, Bool.false_eq_true]
      rfl

theorem selVal_first {mem : List UInt8} {objs : List Obj} {j pos : Nat} {a b : Nat}
    (h : AtPos mem objs j (.list [.int a, .int b]) pos) :
    ∃ f g p q, firstItem objs j = .ok (some f) ∧ nextSibling objs f = .ok (some g) ∧
      AtPos mem objs f (.int a) p ∧ AtPos mem objs g (.int b) q := by
  obtain ⟨js, h1, h2⟩ := items_list h
  match js, h2 with
  | [f, g], h2 =>
    obtain ⟨⟨p, hp⟩, ⟨q, hq⟩, _⟩ := h2
    unfold items at h1
    generalize hf : firstItem objs j = x at h1
    cases x with
    | ub => cases h1
    | diverge => cases h1
    | ok x =>
      cases x with
      | none => simp [itemsLoop] at h1
      | some k =>
        simp only [Res.bind_ok] at h1
        unfold itemsLoop at h1
        generalize hn : nextSibling objs k = y at h1
        cases y with
        | ub => cases h1
        | diverge => cases h1
        | ok y =>
          simp only [Res.bind_ok] at h1
          match hl : objs.length, y, h1 with
          | 0, none, h1 => cases h1
          | 0, some y, h1 => cases h1
          | n + 1, none, h1 => simp [itemsLoop] at h1
          | n + 1, some y, h1 =>
            unfold itemsLoop at h1
            generalize nextSibling objs y = z at h1
            cases z with
            | ub => cases h1
            | diverge => cases h1
            | ok z =>
              simp only [Res.bind_ok] at h1
              generalize itemsLoop objs n z = w at h1
              cases w with
              | ub => cases h1
              | diverge => cases h1
              | ok w =>
                simp only [Res.bind_ok, Res.pure_eq, Res.ok.injEq, List.cons.injEq] at h1
                obtain ⟨rfl, rfl, _⟩ := h1
                exact ⟨k, y, p, q, rfl, hn, hp, hq⟩

theorem itemInt_eq {mem : List UInt8} {objs : List Obj} {j pos n : Nat} (h : AtPos mem objs j (.int n) pos) (hn : n < 2147483648) :
    itemInt mem objs j = .ok n := by
  obtain ⟨o, h1, h2, _⟩ := h.int
  obtain ⟨o', h3, h4⟩ := AtPos_type h
  rw [h1] at h3; cases h3
  unfold itemInt
  rw [h1, Res.bind_ok, if_pos (Or.inl (by rw [h4]; rfl)), h2 (by omega), show toInt32 (n : Int) = n by unfold toInt32; omega]

theorem loadSelectionLoop_eq {mem : List UInt8} {objs : List Obj} : ∀ (sel : List (Bool × Nat)) (js : List Nat),
    (∀ x ∈ sel, x.2 < 256) → AtAll mem objs js (sel.map selVal) → loadSelectionLoop mem objs js = .ok sel
  | [], [], _, _ => rfl
  | [], _ :: _, _, h => by simp [AtAll] at h
  | _ :: _, [], _, h => by simp [AtAll] at h
  | x :: sel, j :: js, hu, h => by
    obtain ⟨⟨pos, hp⟩, hr⟩ := h
    have ih := loadSelectionLoop_eq sel js (fun y hy => hu y (by simp [hy])) hr
    have hx := hu x (by simp)
    obtain ⟨o, ho, hot⟩ := AtPos_type hp
    obtain ⟨f, g, p, q, h1, h2, h3, h4⟩ := selVal_first hp
    have i1 := itemInt_eq h3 (by cases x.1 <;> simp)
    have i2 := itemInt_eq h4 (by omega)
    unfold loadSelectionLoop
    simp only [ho, Res.bind_ok, hot, selVal, BVal.ty, if_true, h1, h2, i1, i2, ih, Res.pure_eq]
    congr 2
    refine Prod.ext ?_ ?_
    · cases x.1 <;> simp
    · simp only; omega

/-- What is read back. -/
def restored (s : TState) : TState := { s with fullSize := s.fullSize % 4294967296, unfinished := s.unfinished.filter Saved.hasData }

theorem countList_map {α} (g : α → BVal) (c : Nat) (h : ∀ a, (g a).count = c) : ∀ l : List α, countList (l.map g) = c * l.length
  | [] => rfl
  | a :: l => by simp [countList, countList_map g c h l, h]; rw [Nat.mul_add]; omega

theorem fitsList_map {α} (g : α → BVal) : ∀ l : List α, (∀ a ∈ l, (g a).fits) → fitsList (l.map g)
  | [], _ => trivial
  | a :: l, h => ⟨h a (by simp), fitsList_map g l (fun x hx => h x (by simp [hx]))⟩

theorem root_fits {s : TState} (h : Saved.Fits s) : (BVal.dict (rootKvs s)).fits := by
  obtain ⟨h1, h2, h3, h4, h5, h6, h7, h8, h9, h10, h11, h12⟩ := h
  simp only [rootKvs, infoKvs, BVal.fits, fitsDict, and_true]
  have hb : s.started.toNat < 18446744073709551616 := by cases s.started <;> simp
  refine ⟨by decide, ⟨by decide, by omega, by decide, by omega, by decide, by omega⟩, by decide, by omega, by decide, by omega,
    by decide, by omega, by decide, by omega, by decide, hb, by decide, by omega, by decide, by omega, by decide, by omega,
    by decide, ?_, by decide, ?_⟩
  · apply fitsList_map
    intro u hu
    obtain ⟨a, b, c, d⟩ := h12 u hu
    simp only [uVal, uKvs, BVal.fits, fitsDict, and_true]
    exact ⟨by decide, by omega, by decide, by omega, by decide, by omega, by decide, by omega⟩
  · apply fitsList_map
    intro x hx
    have := h11 x hx
    simp only [selVal, BVal.fits, fitsList, and_true]
    exact ⟨by cases x.1 <;> simp, by omega⟩

theorem root_count (s : TState) : (BVal.dict (rootKvs s)).count = 29 + 9 * s.unfinished.length + 3 * s.selection.length := by
  simp only [rootKvs, infoKvs, BVal.count, countDict]
  rw [countList_map uVal 9 (fun a => rfl), countList_map selVal 3 (fun a => rfl)]
  omega

theorem load_save (s s0 : TState) (h : Saved.Fits s) (hc : 29 + 9 * s.unfinished.length + 3 * s.selection.length < 65536)
    (fuel : Nat) (hfuel : (save s).length ≤ fuel) : load fuel s0 (save s) = .ok (true, restored s) := by
  rw [save_eq] at *
  obtain ⟨p, h1, _, _, _, h5⟩ := parseAt_enc (.dict (rootKvs s)) fuel ((BVal.dict (rootKvs s)).enc ++ [0]) 0
    (BVal.dict (rootKvs s)).enc.length [0] (by simp) (by simp) (by simp) (root_fits h) (by rw [root_count]; exact hc) hfuel
  obtain ⟨o, h6, _⟩ := root_at h5
  obtain ⟨b1, b2, b3, b4, b5, b6, b7, b8, b9, b10, b11, b12⟩ := h
  unfold load
  rw [show parse fuel (BVal.dict (rootKvs s)).enc [0] = .ok p from h1]
  simp only [Res.bind_ok, h6]
  generalize (BVal.dict (rootKvs s)).enc ++ [0] = mem at *
  -- info
  have li := findKey_lookup h5 (ascii "info") .dictionary
  rw [show lookup (rootKvs s) (ascii "info") .dictionary = some (.dict (infoKvs s)) from rfl] at li
  obtain ⟨_, k, pos, hk, hkp⟩ := li
  have a1 := getTxtKey_dict hkp (ascii "name")
  have e2 : lookup (infoKvs s) (ascii "pieceSize") .number = some (.int s.pieceSize) := rfl
  have e3 : lookup (infoKvs s) (ascii "fullSize") .number = some (.int s.fullSize) := rfl
  have a2 := getIntKey_dict hkp (ascii "pieceSize") (by intro n hn; rw [e2] at hn; cases hn; omega)
  have a3 := getBigIntKey_dict hkp (ascii "fullSize") (by intro n hn; rw [e3] at hn; cases hn; omega)
  rw [show lookup (infoKvs s) (ascii "name") .text = some (.str s.name) from rfl] at a1
  rw [e2] at a2; rw [e3] at a3
  have q1 : ∀ s0, loadInfo mem p.objs s0 =
      .ok { s0 with name := s.name, pieceSize := s.pieceSize, fullSize := s.fullSize % 4294967296 } := by
    intro s0
    unfold loadInfo
    simp only [hk, Res.bind_ok, a1, a2, a3, toU32_id b4, Res.pure_eq]
  -- plain
  have e4 : lookup (rootKvs s) (ascii "lastStateTime") .number = some (.int s.lastStateTime) := rfl
  have e5 : lookup (rootKvs s) (ascii "addedTime") .number = some (.int s.addedTime) := rfl
  have e6 : lookup (rootKvs s) (ascii "started") .number = some (.int s.started.toNat) := rfl
  have e7 : lookup (rootKvs s) (ascii "uploaded") .number = some (.int s.uploaded) := rfl
  have e8 : lookup (rootKvs s) (ascii "downloaded") .number = some (.int s.downloaded) := rfl
  have e9 : lookup (rootKvs s) (ascii "version") .number = some (.int s.version) := rfl
  have hb : s.started.toNat < 2 := by cases s.started <;> simp
  have c3 := getTxtKey_dict h5 (ascii "downloadPath")
  have c4 := getBigIntKey_dict h5 (ascii "lastStateTime") (by intro n hn; rw [e4] at hn; cases hn; omega)
  have c5 := getBigIntKey_dict h5 (ascii "addedTime") (by intro n hn; rw [e5] at hn; cases hn; omega)
  have c6 := getIntKey_dict h5 (ascii "started") (by intro n hn; rw [e6] at hn; cases hn; omega)
  have c7 := getBigIntKey_dict h5 (ascii "uploaded") (by intro n hn; rw [e7] at hn; cases hn; omega)
  have c8 := getBigIntKey_dict h5 (ascii "downloaded") (by intro n hn; rw [e8] at hn; cases hn; omega)
  have c9 := getIntKey_dict h5 (ascii "version") (by intro n hn; rw [e9] at hn; cases hn; omega)
  rw [show lookup (rootKvs s) (ascii "downloadPath") .text = some (.str s.downloadPath) from rfl] at c3
  rw [e4] at c4; rw [e5] at c5; rw [e6] at c6; rw [e7] at c7; rw [e8] at c8; rw [e9] at c9
  have hst : decide (toInt32 (s.started.toNat : Nat) ≠ 0) = s.started := by cases s.started <;> rfl
  have q2 : ∀ s0, loadPlain mem p.objs s0 =
      .ok { s0 with downloadPath := s.downloadPath, lastStateTime := s.lastStateTime, addedTime := s.addedTime,
                    started := s.started, uploaded := s.uploaded, downloaded := s.downloaded, version := s.version } := by
    intro s0
    unfold loadPlain
    simp only [c3, c4, c5, c6, c7, c8, c9, Res.bind_ok, toU32_id b10, Res.pure_eq, hst]
  -- pieces
  have c10 := getTxtItem_dict h5 (ascii "pieces")
  rw [show lookup (rootKvs s) (ascii "pieces") .text = some (.str s.pieces) from rfl] at c10
  have q3 : ∀ s0, loadPieces mem p.objs s0 = .ok { s0 with pieces := s.pieces } := by
    intro s0
    unfold loadPieces
    simp only [c10, Res.bind_ok, Res.pure_eq]
  -- unfinished
  have lu := findKey_lookup h5 (ascii "unfinished") .list
  rw [show lookup (rootKvs s) (ascii "unfinished") .list = some (.list (s.unfinished.map uVal)) from rfl] at lu
  obtain ⟨_, ku, posu, hku, hkup⟩ := lu
  obtain ⟨js, hjs, hall⟩ := items_list hkup
  have q4 : ∀ s0, loadUnfinished mem p.objs s0 = .ok { s0 with unfinished := s.unfinished.filter Saved.hasData } := by
    intro s0
    unfold loadUnfinished
    simp only [hku, Res.bind_ok, hjs, Res.pure_eq,
      loadUnfinishedLoop_eq s.unfinished js (fun u hu => ⟨(b12 u hu).2.1, (b12 u hu).2.2.1, (b12 u hu).2.2.2⟩) hall]
  -- selection
  have ls := findKey_lookup h5 (ascii "selection") .list
  rw [show lookup (rootKvs s) (ascii "selection") .list = some (.list (s.selection.map selVal)) from rfl] at ls
  obtain ⟨_, ks, poss, hks, hksp⟩ := ls
  obtain ⟨js', hjs', hall'⟩ := items_list hksp
  have q5 : ∀ s0, loadSelection mem p.objs s0 = .ok { s0 with selection := s.selection } := by
    intro s0
    unfold loadSelection
    simp only [hks, Res.bind_ok, hjs', Res.pure_eq, loadSelectionLoop_eq s.selection js' (fun x hx => b11 x hx) hall']
  simp only [q1, q2, q3, q4, q5, Res.bind_ok, Res.pure_eq]
  rfl

/-! ### The list of torrents -/

def nameVal (n : List UInt8) : BVal := .dict [(ascii "name", .str n)]

theorem saveName_eq (d n : List UInt8) : saveName d n = d ++ (nameVal n).enc := by
  simp only [saveName, nameVal, BVal.enc, encDict, encStr, startMap, endMap, addRawItemText, addText]
  have h1 : ascii "4:name" = dec (ascii "name").length ++ chr ':' :: ascii "name" := by decide +kernel
  rw [h1]; simp

theorem saveList_eq (ns : List (List UInt8)) : saveList ns = (BVal.list (ns.map nameVal)).enc := by
  simp [saveList, foldl_enc saveName nameVal saveName_eq, BVal.enc, startArray, endArray]

theorem loadListLoop_eq {mem : List UInt8} {objs : List Obj} : ∀ (ns : List (List UInt8)) (js : List Nat),
    AtAll mem objs js (ns.map nameVal) → loadListLoop mem objs js = .ok ns
  | [], [], _ => rfl
  | [], _ :: _, h => by simp [AtAll] at h
  | _ :: _, [], h => by simp [AtAll] at h
  | n :: ns, j :: js, h => by
    obtain ⟨⟨pos, hp⟩, hr⟩ := h
    have ih := loadListLoop_eq ns js hr
    have g := getTxtKey_dict hp (ascii "name")
    rw [show lookup [(ascii "name", BVal.str n)] (ascii "name") .text = some (.str n) from rfl] at g
    unfold loadListLoop
    simp only [g, ih, Res.bind_ok, Res.pure_eq]

theorem loadList_save (ns ns0 : List (List UInt8)) (hl : ∀ n ∈ ns, n.length < 2 ^ 31) (hc : 1 + 3 * ns.length < 65536)
    (fuel : Nat) (hfuel : (saveList ns).length ≤ fuel) : loadList fuel ns0 (saveList ns) = .ok (true, ns) := by
  rw [saveList_eq] at *
  have hfits : (BVal.list (ns.map nameVal)).fits := by
    simp only [BVal.fits]
    apply fitsList_map
    intro n hn
    have := hl n hn
    simp only [nameVal, BVal.fits, fitsDict, and_true]
    exact ⟨by decide, by omega⟩
  have hcount : (BVal.list (ns.map nameVal)).count < 65536 := by
    simp only [BVal.count]
    rw [countList_map nameVal 3 (fun a => rfl)]; omega
  obtain ⟨p, h1, _, _, _, h5⟩ := parseAt_enc (.list (ns.map nameVal)) fuel ((BVal.list (ns.map nameVal)).enc ++ [0]) 0
    (BVal.list (ns.map nameVal)).enc.length [0] (by simp) (by simp) (by simp) hfits hcount hfuel
  obtain ⟨o, h6, _⟩ := root_at h5
  unfold loadList
  rw [show parse fuel (BVal.list (ns.map nameVal)).enc [0] = .ok p from h1]
  obtain ⟨js, hjs, hall⟩ := items_list h5
  simp only [Res.bind_ok, h6, hjs, loadListLoop_eq ns js hall, Res.pure_eq]

end Verif.State
