import Verif.Proof.FileCheckAll
import Verif.Props.Progress
/-! C53 checking the files of a torrent. -/

namespace Verif
open FileCheck Spec Spec.FileCheck Layout Storage Progress

/-- The setup of a check of the torrent `fl` in pieces of `ps` bytes. -/
private theorem setup_of (ps : Nat) (fl : FileList) (j : Job) (hps : 0 < ps) (hps31 : ps ≤ 2147483648) (ht : (fileSizes fl).sum % ps ≠ 0)
    (hi : j.info.pieceSize = ps) (hh : j.hashes.length = pieceCount ps (fileSizes fl).sum)
    (hw : j.wanted.length = pieceCount ps (fileSizes fl).sum) : Setup j ps (fileSizes fl).sum :=
  ⟨hps, by omega, hi, ht, by rw [hh, count_eq _ _ hps ht], by rw [hw, count_eq _ _ hps ht]⟩

/-- Any torrent whose last piece is shorter than the others, any contents of its files, of some of which only the ends are kept, any
pieces of whole files that are asked for, any number of workers: a worker finds, in order, exactly its pieces that are asked for, are
stored and have the hash of the metadata, and it stays inside its buffer and tables.
Missing for the full property: `C53_boundary_violated`, `C53_missing_violated`, `C53_longer_violated`, `C53_last_violated`; pieces of more
than 2 GiB. -/
theorem C53_worker_partial (ps : Nat) (fl : FileList) (hps : 0 < ps) (hps31 : ps ≤ 2147483648)
    (h64 : (fileSizes fl).sum < 18446744073709551616) (h32 : pieceCount ps (fileSizes fl).sum < 4294967296)
    (hshort : (fileSizes fl).sum % ps ≠ 0) (sha : List UInt8 → List UInt8) (hashes : List (List UInt8)) (wanted : List Bool)
    (hh : hashes.length = pieceCount ps (fileSizes fl).sum) (hw : wanted.length = pieceCount ps (fileSizes fl).sum) :
    ∃ i, parseInfo ps (pieceCount ps (fileSizes fl).sum) fl = .ok i ∧ ∀ (m : Mem) (kept : List Bool) (workers worker : Nat),
      KeptOk ps 0 (fileSizes fl) kept → OfFiles i.files wanted →
      checkStoredPieces ⟨i, sha, hashes, wanted, workers, worker⟩ (stored m ps 0 (fileSizes fl) kept) =
        .ok ((List.range (pieceCount ps (fileSizes fl).sum)).filter fun k =>
          k % workers = worker ∧ Wanted wanted k ∧
            gap ps 0 (fileSizes fl) kept k = false ∧ There sha hashes m ps (fileSizes fl).sum k) := by
  obtain ⟨i, e, hi, hr⟩ := row_layout ps fl hps (by omega) h64 h32 hshort
  refine ⟨i, e, fun m kept workers worker hk hof => ?_⟩
  have u := setup_of ps fl ⟨i, sha, hashes, wanted, workers, worker⟩ hps hps31 hshort hi hh hw
  rw [stored_spec u hps31 _ kept hr (stock_of ps hps _ kept 0 (fun _ => false) hk (by simp)) rfl hof, count_eq _ _ hps hshort, expected]
  congr 1
  apply List.filter_congr
  intro k _
  rw [Bool.eq_iff_iff]
  rw [good, Bool.and_eq_true, decide_eq_true_iff, decide_eq_true_iff]
  simp only [FileCheck.Mine, Wanted, There, pieceBytes, Bool.not_eq_true', Bool.false_or]
  constructor
  · rintro ⟨h1, ⟨h2, h3⟩, h4⟩; exact ⟨h2, h3, h1, h4⟩
  · rintro ⟨h2, h3, h1, h4⟩; exact ⟨h1, ⟨h2, h3⟩, h4⟩

/-- What is asked for at the start -- everything, or the pieces of the files that have changed -- are pieces of whole files, and finding
out which pieces that are stays inside the tables. -/
theorem C53_asked_partial (ps : Nat) (fl : FileList) (hps : 0 < ps) (hps31 : ps ≤ 2147483648)
    (h64 : (fileSizes fl).sum < 18446744073709551616) (h32 : pieceCount ps (fileSizes fl).sum < 4294967296)
    (hshort : (fileSizes fl).sum % ps ≠ 0) :
    ∃ i, parseInfo ps (pieceCount ps (fileSizes fl).sum) fl = .ok i ∧
      OfFiles i.files (List.replicate (pieceCount ps (fileSizes fl).sum) true) ∧
      ∀ changed, ∃ wanted, changedPieces i.files changed (List.replicate (pieceCount ps (fileSizes fl).sum) false) = .ok wanted ∧
        wanted.length = pieceCount ps (fileSizes fl).sum ∧ OfFiles i.files wanted ∧
        ∀ k, Wanted wanted k ↔ ∃ f, (f, true) ∈ i.files.zip changed ∧ f.startPieceIndex ≤ k ∧ k ≤ f.endPieceIndex := by
  obtain ⟨i, e, hi, hr⟩ := row_layout ps fl hps (by omega) h64 h32 hshort
  have hn : ∀ f ∈ i.files, f.endPieceIndex < pieceCount ps (fileSizes fl).sum := by
    intro f hf
    have := (row_start hr f hf).2.2
    rw [Nat.zero_add] at this
    rw [count_eq _ _ hps hshort]
    omega
  refine ⟨i, e, fun f hf k h1 h2 h3 => ?_, fun changed => ?_⟩
  · refine Or.inl ?_
    have := hn f hf
    unfold Wanted
    rw [List.getElem?_replicate, if_pos (by omega)]
  · obtain ⟨w, ew, hl, hk⟩ := changed_spec i.files changed (List.replicate (pieceCount ps (fileSizes fl).sum) false) (by simpa using hn)
    have := ofFiles_changed hr changed w _ hn ew
    refine ⟨w, ew, this.1, this.2, fun k => ?_⟩
    unfold Wanted
    rw [hk k]
    simp only [List.length_replicate, List.getElem?_replicate]
    constructor
    · rintro (h | h)
      · split at h <;> simp at h
      · exact h.2
    · rintro ⟨f, h1, h2, h3⟩
      have := hn f (List.of_mem_zip h1).1
      exact Or.inr ⟨by omega, f, h1, h2, h3⟩

/-- After a check, in whatever order the four workers find their pieces, the progress says of every piece asked for whether its bytes are
stored and have the hash of the metadata, and of the other pieces what it said before. -/
theorem C53_check_partial (ps : Nat) (fl : FileList) (hps : 0 < ps) (hps31 : ps ≤ 2147483648)
    (h64 : (fileSizes fl).sum < 18446744073709551616) (h32 : pieceCount ps (fileSizes fl).sum < 4294967296)
    (hshort : (fileSizes fl).sum % ps ≠ 0) (sha : List UInt8 → List UInt8) (hashes : List (List UInt8)) (wanted : List Bool)
    (hh : hashes.length = pieceCount ps (fileSizes fl).sum) (hw : wanted.length = pieceCount ps (fileSizes fl).sum)
    (st : Start) (l0 l : Pieces) (hst : StartsAs st l0) (ops : List ProgOp) (hl : l0.run ops = some l)
    (hll : l.length = pieceCount ps (fileSizes fl).sum) :
    ∃ i p, parseInfo ps (pieceCount ps (fileSizes fl).sum) fl = .ok i ∧ run (start st) ops = .ok p ∧
      ∀ (m : Mem) (kept : List Bool) (a b : Nat), KeptOk ps 0 (fileSizes fl) kept → OfFiles i.files wanted →
        ∃ found, findAll ⟨i, sha, hashes, wanted, 4, b⟩ (stored m ps 0 (fileSizes fl) kept) 4 = .ok found ∧
          ∀ order, order.isPerm found = true →
            ∃ p', checkFiles ⟨i, sha, hashes, wanted, a, b⟩ (stored m ps 0 (fileSizes fl) kept) p order = .ok p' ∧
              ∀ k (hk : k < l.length), hasPiece p' k =
                .ok (if Wanted wanted k then
                  decide (gap ps 0 (fileSizes fl) kept k = false ∧ There sha hashes m ps (fileSizes fl).sum k) else l[k].has) := by
  obtain ⟨i, e, hi, hr⟩ := row_layout ps fl hps (by omega) h64 h32 hshort
  obtain ⟨p, ep, r⟩ := run_rel (startsAs_rel hst) ops l hl
  refine ⟨i, p, e, ep, fun m kept a b hk hof => ?_⟩
  have u := setup_of ps fl ⟨i, sha, hashes, wanted, a, b⟩ hps hps31 hshort hi hh hw
  exact checkFiles_spec u hps31 _ kept hr hk rfl hof p l r (by rw [hll, count_eq _ _ hps hshort])

/-- Two files in pieces of 4 bytes; the hash of a piece is its bytes. Piece 1 spans the files and is damaged. -/
example : (do
    let i ← parseInfo 4 3 (.multi [6, 5])
    checkStoredPieces ⟨i, id, [[1, 2, 3, 4], [5, 6, 7, 8], [9, 10, 11]], [true, true, true], 1, 0⟩
      [some [1, 2, 3, 4, 5, 0], some [7, 8, 9, 10, 11]]) = .ok [0, 2] := by decide +kernel

/-- Of the file in the middle only the ends are kept: the pieces 1 and 4, which it shares, are found; 2 and 3 are not stored. -/
example : (do
    let i ← parseInfo 4 6 (.multi [6, 11, 5])
    checkStoredPieces ⟨i, id, [[0, 1, 2, 3], [4, 5, 6, 7], [8, 9, 10, 11], [12, 13, 14, 15], [16, 17, 18, 19], [20, 21]],
      [true, true, true, true, true, true], 1, 0⟩ (stored (fun k => UInt8.ofNat k) 4 0 [6, 11, 5] [false, true, false])) = .ok [0, 1, 4, 5] ∧
    KeptOk 4 0 [6, 11, 5] [false, true, false] ∧
    (List.range 6).map (gap 4 0 [6, 11, 5] [false, true, false]) = [false, false, true, true, false, false] := by
  refine ⟨by decide +kernel, ⟨by simp, by decide, by simp, trivial⟩, by decide +kernel⟩

example : (do
    let i ← parseInfo 4 3 (.multi [6, 5])
    changedPieces i.files [false, true] [false, false, false]) = .ok [false, true, true] := by decide +kernel

example : (do
    let i ← parseInfo 4 3 (.multi [6, 5])
    let p ← checkFiles ⟨i, id, [[1, 2, 3, 4], [5, 6, 7, 8], [9, 10, 11]], [false, true, true], 4, 0⟩
      [some [1, 2, 3, 4, 5, 0], some [7, 8, 9, 10, 11]] (start (.saved [2, 3, 2])) [2]
    let a ← hasPiece p 0
    let b ← hasPiece p 1
    let c ← hasPiece p 2
    pure [a, b, c]) = .ok [false, false, true] := by decide +kernel

/-- A torrent whose size is a multiple of the piece size: after the last piece the worker whose turn it would be asks whether the piece
after it is to be checked, and reads past the end of the table. -/
theorem C53_boundary_violated :
    (do let i ← parseInfo 4 1 (.single 4)
        checkStoredPieces ⟨i, id, [[1, 2, 3, 4]], [true], 4, 1⟩ [some [1, 2, 3, 4]]) = .ub ∧
    (do let i ← parseInfo 4 1 (.single 4)
        checkStoredPieces ⟨i, id, [[1, 2, 3, 4]], [true], 4, 0⟩ [some [1, 2, 3, 4]]) = .ok [0] := by decide +kernel

/-- A piece that spans three files, of which the one in the middle does not exist: its bytes are taken from what the buffer had there, here
the zeros it was made with. The piece is found though two of its bytes are nowhere. -/
theorem C53_missing_violated :
    (do let i ← parseInfo 4 2 (.multi [1, 2, 2])
        checkStoredPieces ⟨i, id, [[7, 0, 0, 9], [5]], [true, true], 1, 0⟩ [some [7], none, some [9, 5]]) = .ok [0, 1] := by decide +kernel

/-- A file that is longer than it should be: none of its pieces are found, though all their bytes are there. -/
theorem C53_longer_violated :
    (do let i ← parseInfo 4 2 (.single 6)
        checkStoredPieces ⟨i, id, [[1, 2, 3, 4], [5, 6]], [true, true], 1, 0⟩ [some [1, 2, 3, 4, 5, 6, 7]]) = .ok [] ∧
    (do let i ← parseInfo 4 2 (.single 6)
        checkStoredPieces ⟨i, id, [[1, 2, 3, 4], [5, 6]], [true, true], 1, 0⟩ [some [1, 2, 3, 4, 5, 6]]) = .ok [0, 1] := by
  decide +kernel

/-- If of the last file only the ends are kept its end is not found, though all its bytes are there. -/
theorem C53_last_violated :
    (do let i ← parseInfo 4 3 (.single 10)
        checkStoredPieces ⟨i, id, [[0, 1, 2, 3], [4, 5, 6, 7], [8, 9]], [true, true, true], 1, 0⟩
          (stored (fun k => UInt8.ofNat k) 4 0 [10] [true])) = .ok [0] ∧
    gap 4 0 [10] [true] 2 = false := by
  decide +kernel

end Verif
