import Verif.Proof.SelectedFiles

/-! C94: the room a selection of files needs. -/

namespace Verif
open Layout SelectedFiles Spec Spec.SelectedFiles

/-- For every selection the files that get room, and how much, are exactly those that keep data: selected files all of it, others the
bytes in pieces that also hold bytes of selected files.
Missing for the full property: empty files (`C94_empty_violated`, `C94_last_violated`). -/
theorem C94_selection_partial (ps : Nat) (sizes : List Nat) (hps : 0 < ps) (hps32 : ps < 4294967296)
    (h64 : sizes.sum < 18446744073709551616) (h32 : sizes.sum / ps < 4294967296) (hpos : ∀ s ∈ sizes, 0 < s)
    (sel : List Bool) (hl : sel.length = sizes.length) :
    ∃ i, parseInfo ps (pieceCount ps sizes.sum) (.multi sizes) = .ok i ∧ ofSelection i sel = .ok (room ps sizes sel) := by
  obtain ⟨i, h1, g⟩ := Good.parsed hps hps32 h64 h32 hpos
  exact ⟨i, h1, g.ofSelection hl⟩

/-! Non-vacuity: of the first and the last file the parts in the pieces of the second are kept. -/
example : room 4 [10, 3, 9] [false, true, false] = [(0, 2), (1, 3), (2, 3)] := by decide +kernel

/-- Selecting one file needs the room of the selection of only this file.  Missing as in `C94_selection_partial`. -/
theorem C94_file_partial (ps : Nat) (sizes : List Nat) (hps : 0 < ps) (hps32 : ps < 4294967296)
    (h64 : sizes.sum < 18446744073709551616) (h32 : sizes.sum / ps < 4294967296) (hpos : ∀ s ∈ sizes, 0 < s)
    (idx : Nat) (hi : idx < sizes.length) :
    ∃ i, parseInfo ps (pieceCount ps sizes.sum) (.multi sizes) = .ok i ∧ ofFile i idx = .ok (room ps sizes (only sizes.length idx)) := by
  obtain ⟨i, h1, g⟩ := Good.parsed hps hps32 h64 h32 hpos
  exact ⟨i, h1, g.ofFile hi⟩

/-! Non-vacuity. -/
example : room 4 [10, 3, 9] (only 3 0) = [(0, 10), (1, 2)] := by decide +kernel

/-- An empty file that is selected makes the files around it need room. -/
theorem C94_empty_violated :
    (parseInfo 4 1 (.multi [2, 0, 2])).bind (fun i => ofSelection i [false, true, false]) = .ok [(0, 2), (1, 0), (2, 2)] ∧
    room 4 [2, 0, 2] [false, true, false] = [(1, 0)] := by decide +kernel

/-- An empty file behind the end of the last piece: a piece that does not exist is looked up, whatever is selected. -/
theorem C94_last_violated :
    ∀ a b, (parseInfo 4 1 (.multi [4, 0])).bind (fun i => ofSelection i [a, b]) = .ub := by decide +kernel

end Verif
