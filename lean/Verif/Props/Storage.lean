import Verif.Proof.StorageGeo

/-! C14 storage of blocks in files. -/

namespace Verif
open Layout Spec Storage

/-- From any contents of the (fully allocated) files, every history of `storePieceBlocks` calls, each
with at least one block and sorted in any way the sort may produce, succeeds; afterwards the files
hold exactly the linear memory with all blocks written at their linear positions, in call order.
Missing for the full property: multi-file torrents with a file ending on a piece boundary
(`C14_boundary_violated`), files that are not allocated to their full size (`C14_temp_move_violated`). -/
theorem C14_store_partial (ps : Nat) (fl : FileList) (hps : 0 < ps) (hps31 : ps < 2147483648)
    (h63 : (fileSizes fl).sum < 9223372036854775808) (h32 : pieceCount ps (fileSizes fl).sum < 4294967296)
    (hfl : NoBoundaryEnd ps fl) :
    ∃ i, parseInfo ps (pieceCount ps (fileSizes fl).sum) fl = .ok i ∧
      ∀ (m : Mem) (calls : List (List Block)),
        (∀ blocks ∈ calls, blocks ≠ [] ∧ (∀ b ∈ blocks, LegalBlock ps (fileSizes fl).sum b) ∧ IsSortOf blocks blocks) →
        storeRun i (m.files 0 (fileSizes fl)) calls =
          .ok (calls.map fun _ => .Success, (calls.flatten.foldl (memStore ps) m).files 0 (fileSizes fl)) := by
  obtain ⟨i, h1, h2, h3⟩ := geo_layout ps fl hps hps31 h63 h32 hfl
  refine ⟨i, h1, ?_⟩
  intro m calls
  induction calls generalizing m with
  | nil => intro _; rfl
  | cons blocks rest ih =>
    intro h
    obtain ⟨hne, hl, hs⟩ := h blocks (by simp)
    unfold storeRun
    rw [storeSorted_spec i ps h2 hps31 _ h3 h63 blocks hne (fun b hb => ⟨(hl b hb).len, (hl b hb).inPiece⟩)
      (fun b hb => (hl b hb).exists_) hs.2 m]
    simp only [Res.bind_ok, Res.pure_eq]
    rw [ih _ (fun x hx => h x (by simp [hx]))]
    simp only [Res.bind_ok, List.map_cons, List.flatten_cons, List.foldl_append]

/-- Loading any ranges of a piece returns success and puts exactly the bytes of the linear memory at
the covered positions of the buffer; everything else in the buffer is untouched. -/
theorem C14_load_partial (ps : Nat) (fl : FileList) (hps : 0 < ps) (hps31 : ps < 2147483648)
    (h63 : (fileSizes fl).sum < 9223372036854775808) (h32 : pieceCount ps (fileSizes fl).sum < 4294967296)
    (hfl : NoBoundaryEnd ps fl) :
    ∃ i, parseInfo ps (pieceCount ps (fileSizes fl).sum) fl = .ok i ∧
      ∀ (m : Mem) (idx : Nat) (offsets : List BlockOffset) (buf : List UInt8),
        (∀ o ∈ offsets, o.begin + o.size ≤ ps ∧ idx * ps + o.begin + o.size ≤ (fileSizes fl).sum ∧
          o.begin + o.size ≤ buf.length) →
        ∃ buf', loadPieceBlocks i (m.files 0 (fileSizes fl)) idx offsets buf = .ok (.Success, buf') ∧
          buf'.length = buf.length ∧
          ∀ q, q < buf.length → buf'[q]? =
            if inRanges (offsets.map fun o => (o.begin, o.size)) q then some (m (idx * ps + q)) else buf[q]? := by
  obtain ⟨i, h1, h2, h3⟩ := geo_layout ps fl hps hps31 h63 h32 hfl
  refine ⟨i, h1, ?_⟩
  intro m idx offsets buf ho
  have := loadPieceBlocks_spec i ps h2 hps31 idx 0 m offsets buf
    (fun o hm => ⟨(ho o hm).1, Nat.zero_le _, by have := (ho o hm).2.2; omega⟩) 0 i.files (fileSizes fl) h3 (by omega)
    (fun o hm => by have := (ho o hm).2.1; omega) (Nat.zero_le _)
  refine ⟨_, this, fill_length .., ?_⟩
  intro q hq
  unfold fill
  rw [List.getElem?_mapIdx, List.getElem?_eq_getElem hq]
  simp only [Option.map_some, Nat.zero_add]
  have hiff : covered offsets q = true ↔ inRanges (offsets.map fun o => (o.begin, o.size)) q := by
    unfold covered inRanges
    simp only [List.any_eq_true, decide_eq_true_eq, List.mem_map]
    constructor
    · rintro ⟨o, h, h'⟩; exact ⟨_, ⟨o, h, rfl⟩, h'⟩
    · rintro ⟨_, ⟨o, h, rfl⟩, h'⟩; exact ⟨o, h, h'⟩
  by_cases hc : covered offsets q = true
  · rw [if_pos hc, if_pos (hiff.mp hc)]
  · rw [if_neg hc, if_neg (fun h => hc (hiff.mpr h))]

/-- Loading one block (as done for uploads) returns exactly its bytes. -/
theorem C14_load_block_partial (ps : Nat) (fl : FileList) (hps : 0 < ps) (hps31 : ps < 2147483648)
    (h63 : (fileSizes fl).sum < 9223372036854775808) (h32 : pieceCount ps (fileSizes fl).sum < 4294967296)
    (hfl : NoBoundaryEnd ps fl) :
    ∃ i, parseInfo ps (pieceCount ps (fileSizes fl).sum) fl = .ok i ∧
      ∀ (m : Mem) (b : BlockInfo) (buf : List UInt8), b.begin + b.length ≤ ps →
        b.index * ps + b.begin + b.length ≤ (fileSizes fl).sum → buf.length = b.length →
        loadPieceBlock i (m.files 0 (fileSizes fl)) b buf = .ok (.Success, m.read (b.index * ps + b.begin) b.length) := by
  obtain ⟨i, h1, h2, h3⟩ := geo_layout ps fl hps hps31 h63 h32 hfl
  refine ⟨i, h1, ?_⟩
  intro m b buf hb hin hbuf
  have := loadPieceBlocks_spec i ps h2 hps31 b.index b.begin m [⟨b.begin, b.length⟩] buf
    (by intro o ho; simp at ho; subst ho; simp only; omega) 0 i.files (fileSizes fl) h3 (by omega)
    (by intro o ho; simp at ho; subst ho; simp only; omega) (Nat.zero_le _)
  refine this.trans ?_
  congr 2
  unfold fill
  apply List.ext_getElem?
  intro j
  rw [List.getElem?_mapIdx, read_get?]
  by_cases hj : j < b.length
  · rw [List.getElem?_eq_getElem (by omega), if_pos hj]
    have : covered [⟨b.begin, b.length⟩] (b.begin + j) = true := by
      simp [covered]; omega
    simp only [Option.map_some, this, if_true]
    congr 2
    omega
  · rw [List.getElem?_eq_none (by omega), if_neg hj]; rfl

/-- A stored block is what a later load returns, whatever was stored before, and whatever is stored
afterwards outside of it. -/
theorem C14_latest_block_partial (ps : Nat) (fl : FileList) (hps : 0 < ps) (hps31 : ps < 2147483648)
    (h63 : (fileSizes fl).sum < 9223372036854775808) (h32 : pieceCount ps (fileSizes fl).sum < 4294967296)
    (hfl : NoBoundaryEnd ps fl) :
    ∃ i, parseInfo ps (pieceCount ps (fileSizes fl).sum) fl = .ok i ∧
      ∀ (m : Mem) (before after : List (List Block)) (b : Block) (buf : List UInt8),
        (∀ blocks ∈ before ++ [b] :: after, blocks ≠ [] ∧ (∀ b ∈ blocks, LegalBlock ps (fileSizes fl).sum b) ∧
          IsSortOf blocks blocks) →
        (∀ blocks ∈ after, ∀ c ∈ blocks, blockStart ps c + c.data.length ≤ blockStart ps b ∨
          blockStart ps b + b.data.length ≤ blockStart ps c) →
        blockStart ps b + b.data.length ≤ (fileSizes fl).sum → buf.length = b.info.length →
        ∃ sts fs, storeRun i (m.files 0 (fileSizes fl)) (before ++ [b] :: after) = .ok (sts, fs) ∧
          loadPieceBlock i fs b.info buf = .ok (.Success, b.data) := by
  obtain ⟨i, h1, hs⟩ := C14_store_partial ps fl hps hps31 h63 h32 hfl
  obtain ⟨i', h1', hl⟩ := C14_load_block_partial ps fl hps hps31 h63 h32 hfl
  have : i' = i := by rw [h1] at h1'; exact (Res.ok.inj h1').symm
  subst this
  refine ⟨i', h1, ?_⟩
  intro m before after b buf hleg hdis hin hbuf
  refine ⟨_, _, hs m _ hleg, ?_⟩
  have hlb := (hleg [b] (by simp)).2.1 b (by simp)
  have hlen := hlb.len
  have hip := hlb.inPiece
  rw [hl _ b.info buf hip (by unfold blockStart at hin; omega) hbuf]
  congr 2
  rw [List.flatten_append, List.foldl_append, List.flatten_cons, List.foldl_append]
  simp only [List.foldl_cons, List.foldl_nil]
  generalize List.foldl (memStore ps) m before.flatten = m0
  apply List.ext_getElem?
  intro j
  rw [read_get?]
  split
  · rename_i hj
    rw [foldl_put_outside ps after.flatten]
    · unfold memStore blockStart Mem.write
      rw [dif_pos (by omega), List.getElem?_eq_getElem (by omega)]
      congr 2
      omega
    · intro c hc
      obtain ⟨bl, hbl, hcb⟩ := List.mem_flatten.mp hc
      have := (hleg bl (by simp [hbl])).2.1 c hcb
      exact ⟨this.len, this.inPiece⟩
    · intro c hc
      obtain ⟨bl, hbl, hcb⟩ := List.mem_flatten.mp hc
      have h := hdis bl hbl c hcb
      have hc' := ((hleg bl (by simp [hbl])).2.1 c hcb).len
      unfold blockStart at h
      omega
  · rw [List.getElem?_eq_none (by omega)]

/-- A new file is allocated to its full size, all zero. -/
theorem C14_allocate (i : Info) (f : File) : preallocate i f f.size none = some (List.replicate f.size 0) := by
  unfold preallocate
  simp only [Option.isNone_none, true_or, if_true, Option.isSome_none, Bool.false_eq_true, false_and, if_false,
    Option.getD_none]
  rw [if_neg (by omega)]
  split
  · rename_i h
    congr 1
    unfold fileWrite
    simp only [List.cons_ne_nil, if_false, List.length_nil, Nat.sub_zero, List.nil_append, List.drop_nil, List.append_nil]
    rw [List.take_of_length_le (by simp), show f.size = f.size - 1 + 1 by omega]
    simp [List.replicate_succ']
  · rename_i h
    simp at h
    rw [h]; rfl

/-- Example: three files in pieces of 4 bytes, a block spanning all of them. -/
example : ∃ i, parseInfo 4 (pieceCount 4 6) (.multi [1, 0, 5]) = .ok i ∧
    storeRun i (Mem.files (fun _ => 7) 0 [1, 0, 5]) [[⟨⟨0, 0, 4⟩, [1, 2, 3, 4]⟩, ⟨⟨1, 0, 2⟩, [5, 6]⟩], [⟨⟨0, 1, 2⟩, [9, 9]⟩]] =
      .ok ([.Success, .Success], [some [1], some [], some [9, 9, 4, 5, 6]]) ∧
    NoBoundaryEnd 4 (.multi [1, 0, 5]) ∧ LegalBlock 4 6 ⟨⟨0, 0, 4⟩, [1, 2, 3, 4]⟩ := by
  refine ⟨_, rfl, by decide +kernel, ?_, ⟨rfl, by decide, by decide⟩⟩
  unfold NoBoundaryEnd
  decide

/-- A file of a multi-file torrent filling exactly its first piece: storing that piece reports success
and writes nothing, loading it reports success and returns nothing, for every piece size and any data. -/
theorem C14_boundary_violated (ps s : Nat) (hps : 0 < ps) (hps31 : ps < 2147483648) (hs : s < 2147483648)
    (data buf : List UInt8) (fs : Fs) (hf : fs.length = 2) (h0 : ∀ c ∈ fs, c ≠ none) :
    ∃ i, parseInfo ps (pieceCount ps (ps + s)) (.multi [ps, s]) = .ok i ∧
      storeSorted i fs [⟨⟨0, 0, ps⟩, data⟩] = .ok (.Success, fs) ∧
      loadPieceBlock i fs ⟨0, 0, ps⟩ buf = .ok (.Success, buf) := by
  obtain ⟨i, h1, h2, h3, h4, h5, h6, h7⟩ := parse_multi ps (pieceCount ps (ps + s)) [ps, s] hps (by omega)
    (by simp; omega) (by
      apply Nat.lt_of_le_of_lt (Nat.div_le_self _ _)
      simp; omega)
  refine ⟨i, h1, ?_⟩
  have g0 := h6 0 (by simp)
  have g1 := h6 1 (by simp)
  have e0 : (ps - 1) / ps = 0 := Nat.div_eq_of_lt (by omega)
  simp [fileStart, fileEnd, Nat.pos_iff_ne_zero.mp hps, e0, Nat.div_self hps] at g0 g1
  obtain ⟨f0, f1, hff⟩ : ∃ f0 f1, i.files = [f0, f1] := by
    match h : i.files, h5 with
    | [a, b], _ => exact ⟨a, b, rfl⟩
  obtain ⟨c0, c1, hcc⟩ : ∃ c0 c1, fs = [some c0, some c1] := by
    match fs, hf, h0 with
    | [some a, some b], _, _ => exact ⟨a, b, rfl⟩
    | [none, _], _, h => exact absurd rfl (h none (by simp))
    | [some _, none], _, h => exact absurd rfl (h none (by simp))
  have es : (ps + s - 1) / ps = if s = 0 then 0 else 1 + (s - 1) / ps := by
    split
    · rename_i h; subst h; simpa using e0
    · rw [show ps + s - 1 = (s - 1) + ps by omega, Nat.add_div_right _ hps]; omega
  rw [hff] at g0 g1
  simp at g0 g1
  subst hcc
  have hst1 : f1.startPieceIndex = 1 := by rw [g1]
  have a0 : f0.startPieceIndex = 0 := by rw [g0]
  have a1 : f0.startPiecePos = 0 := by rw [g0]
  have a2 : f0.endPieceIndex = 0 := by rw [g0]
  have a3 : f0.endPiecePos = 0 := by rw [g0]
  have hp0 : getFileBlockPosition i f0 0 0 ps = ⟨0, 0, 0⟩ := by
    unfold getFileBlockPosition
    have hsub : sub32 ps (sub32 ps 0) = 0 := by
      rw [sub32_eq (a := ps) (b := 0) (by omega) (by omega)]
      rw [sub32_eq (by omega) (by omega)]; omega
    simp [a0, a1, a2, a3, u32_id (show ps < 4294967296 by omega), hps, hsub]
    rfl
  have hfc : fileContainsPiece f1 0 = false := by unfold fileContainsPiece; simp [hst1]
  have hfc0 : fileContainsPiece f0 0 = true := by unfold fileContainsPiece; simp [a0]
  constructor
  · unfold storeSorted
    simp only [List.head?_cons, List.getLast?_singleton, lowerFile, hff]
    simp [List.takeWhile, storeLoop, a0, hst1, storeFile, blocksInfo, hfc0, hp0]
  · unfold loadPieceBlock loadPieceBlocks
    simp only [lowerFile, hff]
    simp [List.takeWhile, loadLoop, hfc0, hfc, loadFile, loadOffsets, hp0]

/-- Growing a file that so far holds only its two edge pieces moves the end piece to the wrong place:
here the file's last two bytes 8, 9 of a 10-byte file become bytes 9 and 10, and the file 11 bytes long. -/
theorem C14_temp_move_violated :
    ∃ i f, parseInfo 4 3 (.multi [10]) = .ok i ∧ i.files = [f] ∧
      storeSorted i [some [0, 0, 0, 0, 0, 0]] [⟨⟨2, 0, 2⟩, [8, 9]⟩] = .ok (.Success, [some [0, 0, 0, 0, 8, 9]]) ∧
      preallocate i f 10 (some [0, 0, 0, 0, 8, 9]) = some [0, 0, 0, 0, 8, 9, 0, 0, 0, 8, 9] ∧
      loadPieceBlock i [some [0, 0, 0, 0, 8, 9, 0, 0, 0, 8, 9]] ⟨2, 0, 2⟩ [1, 1] = .ok (.Success, [0, 8]) := by
  refine ⟨_, _, rfl, rfl, ?_, ?_, ?_⟩ <;> decide +kernel

/-- An empty list of blocks is not handled. -/
theorem C14_empty_store_violated (i : Info) (fs : Fs) : storeSorted i fs [] = .ub := rfl

end Verif
