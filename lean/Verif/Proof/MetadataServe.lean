import Verif.Model.MetadataServe
import Verif.Proof.Metadata

namespace Verif.Metadata
open Verif Layout Bencode Spec

/-- The dictionary of a request. -/
def requestDict (index : Nat) : BVal := .dict [(ascii "msg_type", .int 0), (ascii "piece", .int index)]

theorem pieceRequest_eq (index : Nat) : pieceRequest index = (requestDict index).enc := by
  simp only [pieceRequest, requestDict, BVal.enc, encDict, encStr, endMap, addRawItemNumber, addNumber, startMap]
  have h1 : ascii "8:msg_type" = dec (ascii "msg_type").length ++ chr ':' :: ascii "msg_type" := by decide +kernel
  have h2 : ascii "5:piece" = dec (ascii "piece").length ++ chr ':' :: ascii "piece" := by decide +kernel
  rw [h1, h2]
  simp

theorem load_request (index : Nat) (after : List UInt8) (hi : index < 2147483648) (hne : after ≠ []) (fuel : Nat)
    (hfuel : (pieceRequest index).length ≤ fuel) :
    load fuel (pieceRequest index) after = .ok (true, { type := some 0, piece := some index }) := by
  rw [pieceRequest_eq] at *
  generalize hv : requestDict index = v at *
  have hfits : v.fits := by
    rw [← hv]
    simp only [requestDict, BVal.fits, fitsDict]
    refine ⟨by decide, by omega, by decide, by omega, trivial⟩
  have hcnt : v.count < 65536 := by rw [← hv]; simp [requestDict, BVal.count, countDict]
  obtain ⟨p, h1, h2, h3, h4, h5⟩ := parseAt_enc v fuel (v.enc ++ after) 0 v.enc.length after
    (by simp) hne (by simp) hfits hcnt (by omega)
  obtain ⟨o, h6, h7⟩ := root_at h5
  unfold load
  rw [show parse fuel v.enc after = .ok p from h1]
  simp only [Res.bind_ok, h6]
  have hvt : v.ty = .dictionary := by rw [← hv]; rfl
  rw [hvt] at h7
  rw [if_neg (by rw [h7]; simp)]
  have h5' : AtPos (v.enc ++ after) p.objs 0 (.dict [(ascii "msg_type", .int 0), (ascii "piece", .int index)]) 0 := by
    rw [← hv] at h5 ⊢; exact h5
  have hl1 : lookup [(ascii "msg_type", BVal.int 0), (ascii "piece", .int index)] (ascii "msg_type") .number =
      some (.int 0) := by simp [lookup, BVal.ty]
  have hl2 : lookup [(ascii "msg_type", BVal.int 0), (ascii "piece", .int index)] (ascii "piece") .number =
      some (.int index) := by
    simp [lookup, BVal.ty, show ascii "msg_type" ≠ ascii "piece" by decide]
  have hk1 := findKey_lookup h5' (ascii "msg_type") .number
  rw [hl1] at hk1
  obtain ⟨_, j, pos', hj, hj2⟩ := hk1
  obtain ⟨oj, hj3, hj4, _⟩ := hj2.int
  have hg2 := getIntKey_dict h5' (ascii "piece") (by intro n hn; rw [hl2] at hn; cases hn; omega)
  rw [hl2] at hg2
  simp only at hg2
  rw [toInt32_id (by omega) (by omega)] at hg2
  rw [hj]
  simp only [Res.bind_ok, hj3, hj4 (by omega), show toInt32 ((0 : Nat) : Int) = 0 by decide, hg2]
  have e1 : ((index : Int) % 4294967296).toNat = index := by omega
  rw [e1]
  simp

/-- What `serve` does with a request. -/
theorem serve_request (info : List UInt8) (piece : Nat) :
    serve info true { type := some 0, piece := some piece } =
      .ok (if u32 (piece * 16384) < info.length then
        some (pieceResponse piece ((info.drop (u32 (piece * 16384))).take 16384) info.length) else none) := by
  rw [show 16384 = PieceSize from rfl]
  unfold serve
  simp only [Bool.not_true, Bool.false_eq_true, if_false]
  by_cases h : u32 (piece * PieceSize) < info.length
  · rw [if_pos h, if_pos h, if_pos (by omega)]
    congr 3
    by_cases h2 : PieceSize ≤ info.length - u32 (piece * PieceSize)
    · rw [Nat.min_eq_left h2]
    · rw [Nat.min_eq_right (by omega), List.take_of_length_le (by simp), List.take_of_length_le (by simp; omega)]
  · rw [if_neg h, if_neg h]

theorem serve_ok {info : List UInt8} {ok : Bool} {msg : Msg} (h1 : ok = true → msg.type ≠ none)
    (h2 : ok = true → msg.type = some 0 → msg.piece ≠ none) :
    ∃ r, serve info ok msg = .ok r ∧ ∀ b, r = some b → ∃ piece, msg.piece = some piece ∧ msg.type = some 0 ∧
      u32 (piece * 16384) < info.length ∧
      b = pieceResponse piece ((info.drop (u32 (piece * 16384))).take 16384) info.length := by
  by_cases hk : ok
  · subst hk
    cases ht : msg.type with
    | none => exact absurd ht (h1 rfl)
    | some t =>
      by_cases h0 : t = 0
      · subst h0
        cases hp : msg.piece with
        | none => exact absurd hp (h2 rfl ht)
        | some piece =>
          have e : serve info true msg = serve info true { type := some 0, piece := some piece } := by
            unfold serve; simp only [ht, hp]
          rw [e, serve_request]
          refine ⟨_, rfl, ?_⟩
          intro b hb
          split at hb
          · next hlt => exact ⟨piece, rfl, rfl, hlt, (Option.some.inj hb).symm⟩
          · cases hb
      · refine ⟨none, ?_, by simp⟩
        unfold serve
        simp only [ht, Bool.not_true, Bool.false_eq_true, if_false]
  · refine ⟨none, ?_, by simp⟩
    unfold serve; simp [hk]

end Verif.Metadata
