import Verif.Proof.PieceState
/-! C18 completion of a piece. -/

namespace Verif
open Layout Spec PieceState

/-- For every piece of `n` blocks and every sequence of arriving blocks (any order, any duplicates,
positions outside the piece included): the calls answered with `true` are exactly the first arrivals
inside the piece, the remaining count is the number of blocks that never arrived, it is zero exactly
when all of them arrived, and the downloaded size is the sum of the first arrivals (in 32 bits).
Missing for the full property: offsets that are not multiples of the block size
(`C18_misaligned_violated`). -/
theorem C18_piece_complete_partial (n idx : Nat) (hn : n < 4294967296) (bs : List BlockInfo)
    (hb : ∀ b ∈ bs, Aligned b) :
    let r := addBlocks (init {} idx n) bs
    r.1.length = bs.length ∧ ((r.1.zip bs).filter (·.1)).map (·.2) = firstArrivals n [] bs ∧
    r.2.remainingBlocks = ((List.range n).filter (fun k => ¬ Arrived bs k)).length ∧
    (r.2.remainingBlocks = 0 ↔ ∀ k, k < n → Arrived bs k) ∧
    r.2.downloadedSize = ((firstArrivals n [] bs).map (·.length)).sum % 4294967296 ∧ r.2.index = idx := by
  obtain ⟨h1, h2, seen', h3, h4, h5, h6, h7⟩ := addBlocks_rep n idx hn bs hb [] 0 (init {} idx n) (by
    have := rep_init n idx {}
    simpa [init, u32] using this)
  have hs : ∀ k, Arrived seen' k ↔ Arrived bs k := by intro k; rw [h3]; simp [Arrived]
  have hfil : ((List.range n).filter (fun k => ¬ Arrived seen' k)) = ((List.range n).filter (fun k => ¬ Arrived bs k)) := by
    apply List.filter_congr; intro k _; simp only [hs]
  rw [hfil] at h5
  have hacc : ∀ (as : List Bool) (cs : List BlockInfo), ((as.zip cs).filter (·.1)).map (·.2) = accepted as cs := by
    intro as
    induction as with
    | nil => intro cs; simp [accepted]
    | cons a as ih =>
      intro cs
      cases cs with
      | nil => simp [accepted]
      | cons c cs => cases a <;> simp [accepted, ih]
  refine ⟨h1, ?_, h5, ?_, ?_, h7⟩
  · rw [hacc]; exact h2
  · rw [h5, List.length_eq_zero_iff, List.filter_eq_nil_iff]
    constructor
    · intro h k hk
      have := h k (List.mem_range.mpr hk)
      simpa using this
    · intro h k hk
      simpa using h k (List.mem_range.mp hk)
  · rw [h6]; simp [u32]

/-- Three blocks, the second repeated, the third out of order, one outside. -/
example : addBlocks (init {} 7 3) [⟨7, 32768, 100⟩, ⟨7, 16384, 16384⟩, ⟨7, 16384, 16384⟩, ⟨7, 49152, 5⟩, ⟨7, 0, 16384⟩] =
    ([true, true, false, false, true], { blocksState := [1, 1, 1], remainingBlocks := 0, downloadedSize := 32868, index := 7 }) := by
  decide +kernel

/-- Blocks offset by one byte from the block grid complete a piece: with three blocks at 16383,
32767 and 0 no block `1` or `2` ever arrived, and yet the piece counts as complete. -/
theorem C18_misaligned_violated :
    (addBlocks (init {} 0 3) [⟨0, 16383, 1⟩, ⟨0, 32767, 1⟩, ⟨0, 0, 16384⟩]).2.remainingBlocks = 0 ∧
    ¬ Arrived [⟨0, 16383, 1⟩, ⟨0, 32767, 1⟩, ⟨0, 0, 16384⟩] 1 := by
  decide +kernel

/-- The length of a block plays no role: empty blocks complete the piece. -/
theorem C18_empty_block_violated :
    (addBlocks (init {} 0 2) [⟨0, 0, 0⟩, ⟨0, 16384, 0⟩]).2.remainingBlocks = 0 := by
  decide +kernel

/-- A piece kept over a stop continues where it was: a new request for it gets the kept blocks once,
later requests start afresh, and the reported size of kept pieces drops by exactly that piece. -/
theorem C18_unfinished_resumed (i : Info) (ps : List PState) (p : PState) (hp : p.downloadedSize ≠ 0)
    (hb : p.blocksState ≠ []) (hnew : ∀ q ∈ ps, q.index = p.index → q.downloadedSize = 0) :
    let kept := unfinishedAdd ps [p]
    (requestPiece i kept p.index).1 = p ∧
    unfinishedSize (requestPiece i kept p.index).2 = unfinishedSize ps ∧
    (requestPiece i (requestPiece i kept p.index).2 p.index).1 =
      init {} p.index (getPieceBlocksCount i p.index) := by
  have hl : ∀ (ps : List PState), (∀ q ∈ ps, q.index = p.index → q.downloadedSize = 0) →
      unfinishedLoad p.index (ps ++ [p]) = (p, ps ++ [{ p with blocksState := [], downloadedSize := 0 }]) := by
    intro ps
    induction ps with
    | nil => intro _; simp [unfinishedLoad, hp]
    | cons q qs ih =>
      intro h
      simp only [List.cons_append, unfinishedLoad]
      rw [if_neg (by intro hh; exact hh.2 (h q (by simp) hh.1)), ih (fun x hx => h x (by simp [hx]))]
  have he : p.blocksState.isEmpty = false := by simpa using hb
  have hreq : requestPiece i (unfinishedAdd ps [p]) p.index =
      (p, ps ++ [{ p with blocksState := [], downloadedSize := 0 }]) := by
    unfold requestPiece unfinishedAdd
    rw [hl ps hnew]; simp [he]
  simp only [hreq]
  refine ⟨trivial, by simp [unfinishedSize], ?_⟩
  unfold requestPiece
  have hfind : (unfinishedLoad p.index (ps ++ [{ p with blocksState := [], downloadedSize := 0 }])).1 = {} := by
    rw [load_find]
    have : (ps ++ [{ p with blocksState := [], downloadedSize := 0 }]).find?
        (fun u : PState => decide (u.index = p.index ∧ u.downloadedSize ≠ 0)) = none := by
      rw [List.find?_eq_none]
      intro q hq
      rcases List.mem_append.mp hq with h | h
      · have := hnew q h; simpa using this
      · have := List.mem_singleton.mp h
        subst this; simp
    rw [this]; rfl
  simp [hfind]

example : (requestPiece { pieceSize := 32768, piecesCount := 2, lastPieceIndex := 1, lastPieceSize := 32768 }
    (unfinishedAdd [{ blocksState := [1, 0], remainingBlocks := 1, downloadedSize := 16384, index := 0 }]
      [{ blocksState := [0, 1], remainingBlocks := 1, downloadedSize := 9, index := 1 }]) 1).1.blocksState = [0, 1] := by
  decide +kernel

end Verif
