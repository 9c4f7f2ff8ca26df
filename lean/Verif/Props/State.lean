import Verif.Proof.State
/-! C44: the state of a torrent and the list of torrents survive a restart. -/

namespace Verif
open Verif State Spec.Saved

/-- A state saved and loaded, into whatever was there before, is the same again. Missing: a size of
4 GiB and more (see `C44_full_size_violated`) and more than about 21800 files with unfinished pieces
(the objects of the parser are numbered with 16 bits). -/
theorem C44_restart_partial (s s0 : TState) (h : Fits s) (hsize : s.fullSize < 2 ^ 32)
    (hc : 29 + 9 * s.unfinished.length + 3 * s.selection.length < 65536) (fuel : Nat) (hfuel : (save s).length ≤ fuel) :
    load fuel s0 (save s) = .ok (true, expected s) := by
  rw [load_save s s0 h hc fuel hfuel]
  unfold restored expected
  rw [Nat.mod_eq_of_lt hsize]

/-- With any size, everything else comes back. Missing: as before, too many files. -/
theorem C44_rest_partial (s s0 : TState) (h : Fits s)
    (hc : 29 + 9 * s.unfinished.length + 3 * s.selection.length < 65536) (fuel : Nat) (hfuel : (save s).length ≤ fuel) :
    ∃ n, load fuel s0 (save s) = .ok (true, { expected s with fullSize := n }) :=
  ⟨_, load_save s s0 h hc fuel hfuel⟩

/-- The list of torrents comes back in the same order. Missing: 21845 torrents and more (the objects of
the parser are numbered with 16 bits). -/
theorem C44_list_partial (ns ns0 : List (List UInt8)) (hl : ∀ n ∈ ns, n.length < 2 ^ 31) (hc : 1 + 3 * ns.length < 65536)
    (fuel : Nat) (hfuel : (saveList ns).length ≤ fuel) : loadList fuel ns0 (saveList ns) = .ok (true, ns) :=
  loadList_save ns ns0 hl hc fuel hfuel

/-- A torrent of 5 GiB comes back as one of 1 GiB. -/
theorem C44_full_size_violated : ∃ s, Fits s ∧ 29 + 9 * s.unfinished.length + 3 * s.selection.length < 65536 ∧
    ∀ s0 fuel, (save s).length ≤ fuel → ∃ s', load fuel s0 (save s) = .ok (true, s') ∧ s.fullSize = 5 * 2 ^ 30 ∧ s'.fullSize = 2 ^ 30 := by
  have hf : Fits { fullSize := 5 * 2 ^ 30, lastStateTime := 7 } := by constructor <;> simp
  exact ⟨_, hf, by decide, fun s0 fuel hfuel => ⟨_, load_save _ s0 hf (by decide) fuel hfuel, rfl, rfl⟩⟩

/-! ### Examples -/

namespace StateEx

def s : TState :=
  { name := ascii "file", pieceSize := 16384, fullSize := 40000, downloadPath := ascii "/tmp", selection := [(true, 50), (false, 90)],
    pieces := [1, 0, 3], lastStateTime := 1700000000, addedTime := 1600000000, started := true,
    unfinished := [{ blocksState := [1, 0], remainingBlocks := 1, downloadedSize := 100, index := 2 }, { index := 1 }],
    downloaded := 5000000000, uploaded := 6 }

example : Fits s := by constructor <;> decide +kernel

example : (save s).length ≤ 400 ∧ 29 + 9 * s.unfinished.length + 3 * s.selection.length < 65536 := by decide +kernel

example : load 400 {} (save s) = .ok (true, { s with unfinished := [{ blocksState := [1, 0], remainingBlocks := 1, downloadedSize := 100, index := 2 }] }) := by
  decide +kernel

example : loadList 100 [] (saveList [ascii "aa", ascii "bb"]) = .ok (true, [ascii "aa", ascii "bb"]) := by decide +kernel

end StateEx
end Verif
