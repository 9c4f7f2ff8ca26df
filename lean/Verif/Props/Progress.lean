import Verif.Proof.ProgressRun

/-! C10 progress counters, C11 received bytes, C12 bitfields. -/

namespace Verif
open Progress Spec

/-! ### C10 -/

/-- The start of a history: a new torrent of `n` pieces, or the flags saved for the pieces `l`. -/
inductive StartsAs : Start → Pieces → Prop where
  | fresh (n) : StartsAs (.fresh n) (List.replicate n Piece.new)
  | saved (l) : StartsAs (.saved (l.map Pieces.flagByte)) l

theorem startsAs_rel {st l} (h : StartsAs st l) : Rel (start st) l := by
  cases h with
  | fresh n => exact init_rel n
  | saved l => exact calculatePieces_rel _ l rfl

/-- After any history whose indices are inside the torrent, no undefined behaviour happened and
every answer of the progress object is what counting the pieces of the specification gives. -/
theorem C10_progress_exact (st : Start) (l0 : Pieces) (hst : StartsAs st l0) (ops : List ProgOp)
    (l : Pieces) (hl : l0.run ops = some l) :
    ∃ s, run (start st) ops = .ok s ∧
      getReceivedPiecesCount s = l.countP (·.has) ∧
      s.selectedPieces = l.countP (·.sel) ∧
      s.selectedReceivedPiecesCount = l.countP (fun p => p.has && p.sel) ∧
      (empty s = true ↔ ∀ p ∈ l, p.has = false) ∧
      (finished s = true ↔ l ≠ [] ∧ ∀ p ∈ l, p.has = true) ∧
      (selectedFinished s = true ↔ l ≠ [] ∧ ∀ p ∈ l, p.sel = true → p.has = true) ∧
      ∀ i (hi : i < l.length), hasPiece s i = .ok l[i].has ∧ selectedPiece s i = .ok l[i].sel ∧
        wantedPiece s i = .ok (l[i].sel && !l[i].has) := by
  obtain ⟨s, h1, r⟩ := run_rel (startsAs_rel hst) ops l hl
  refine ⟨s, h1, r.received, r.selected, r.selrec, ?_, ?_, ?_, ?_⟩
  · unfold empty
    rw [r.received]
    simp only [beq_iff_eq, Pieces.received]
    constructor
    · intro h p hp
      have h0 : l.countP (·.has) = 0 := by omega
      simpa using List.countP_eq_zero.mp h0 p hp
    · intro h
      have : l.countP (·.has) = 0 := List.countP_eq_zero.mpr (by intro p hp; simp [h p hp])
      omega
  · rw [finished_eq r]; simp
  · unfold selectedFinished
    rw [r.selrec, r.selected, r.pieces]
    have e : (l.map enc).isEmpty = l.isEmpty := by cases l <;> rfl
    rw [e]
    simp only [Bool.and_eq_true, Bool.not_eq_true', List.isEmpty_eq_false_iff, beq_iff_eq,
      Int.ofNat_inj, Pieces.selectedReceived, Pieces.selected]
    rw [selFinished_count]
  · intro i hi
    refine ⟨hasPiece_eq r i hi, selectedPiece_eq r i hi, ?_⟩
    rw [wantedPiece_eq r i hi, Bool.and_comm]

example : StartsAs (.fresh 3) (List.replicate 3 Piece.new) ∧
    Pieces.run (List.replicate 3 Piece.new) [.add 0, .select 0 1 false, .add 1, .remove 0, .add 5]
      = some [⟨false, false⟩, ⟨true, false⟩, ⟨false, true⟩, ⟨false, true⟩, ⟨false, true⟩, ⟨true, true⟩] :=
  ⟨.fresh 3, by decide⟩

/-- The index guard is exact: every other history runs into undefined behaviour. -/
theorem C10_out_of_range_is_ub (st : Start) (l0 : Pieces) (hst : StartsAs st l0) (ops : List ProgOp)
    (h32 : ∀ i, .add i ∈ ops → i < 4294967296) (hl : l0.run ops = none) :
    run (start st) ops = .ub :=
  run_ub (startsAs_rel hst) ops h32 hl

example : Pieces.run (List.replicate 3 Piece.new) [.add 0, .remove 3] = none := by decide

/-! ### C11 -/

/-- After any history on a torrent of `full` bytes in pieces of `ps` bytes, the reported number of
received bytes is the sum of the sizes of the received pieces, likewise for the selected ones, and
it is `full` when everything is received -- provided the last piece is shorter than the others.
Missing for the full property: torrents whose size is a multiple of the piece size, see
`C11_received_bytes_violated`. -/
theorem C11_received_bytes_partial (st : Start) (l0 : Pieces) (hst : StartsAs st l0)
    (ops : List ProgOp) (l : Pieces) (hl : l0.run ops = some l) (ps full : Nat) (hps : 0 < ps)
    (hlen : l.length = (full + ps - 1) / ps) (hshort : full % ps ≠ 0) :
    ∃ s, run (start st) ops = .ok s ∧
      getReceivedBytes s ps full = .ok (l.bytes ps full (·.has) : Int) ∧
      getReceivedSelectedBytes s ps full = .ok (l.bytes ps full (fun p => p.has && p.sel) : Int) ∧
      ((∀ p ∈ l, p.has = true) ↔ getReceivedBytes s ps full = .ok (full : Int)) := by
  obtain ⟨s, h1, r⟩ := run_rel (startsAs_rel hst) ops l hl
  have hdm := Nat.div_add_mod full ps
  have hmod := Nat.mod_lt full hps
  have hlen' : l.length = full / ps + 1 := by
    rw [hlen]
    rw [Nat.div_eq_iff hps]
    rw [Nat.add_mul, Nat.mul_comm (full / ps)]
    omega
  rcases List.eq_nil_or_concat l with rfl | ⟨l', p, rfl⟩
  · simp at hlen'
  · simp only [List.concat_eq_append, List.length_append, List.length_cons, List.length_nil,
      Nat.zero_add, Nat.add_right_cancel_iff] at *
    have hle : l'.length * ps ≤ full := by rw [hlen', Nat.mul_comm]; omega
    have hsub : full - l'.length * ps = full % ps := by rw [hlen', Nat.mul_comm]; omega
    have hge : full ≤ (l'.length + 1) * ps := by rw [Nat.add_mul, hlen', Nat.mul_comm]; omega
    have hb := fun q => bytes_snoc l' p ps full q hle hge
    have hlast : s.pieces.getLast? = some (enc p) := by rw [r.pieces]; simp
    have e1 : getReceivedBytes s ps full = .ok (Pieces.bytes (l' ++ [p]) ps full (·.has) : Int) := by
      unfold getReceivedBytes
      rw [hlast]
      simp only [enc_has, r.received, Pieces.received, hb, hsub, List.countP_append, List.countP_cons,
        List.countP_nil]
      cases p.has <;> simp [Nat.pos_iff_ne_zero.mp hps, Int.add_sub_cancel] <;> omega
    refine ⟨s, h1, e1, ?_, ?_⟩
    · unfold getReceivedSelectedBytes
      rw [hlast]
      simp only [enc_lastsel, r.selrec, Pieces.selectedReceived, hb, hsub, List.countP_append,
        List.countP_cons, List.countP_nil]
      cases p.has <;> cases p.sel <;> simp [Nat.pos_iff_ne_zero.mp hps, Int.add_sub_cancel] <;> omega
    · rw [e1]
      simp only [Res.ok.injEq, Int.ofNat_inj, hb, hsub]
      have hcl : l'.countP (·.has) ≤ l'.length := List.countP_le_length
      have hall : l'.countP (·.has) = l'.length ↔ ∀ q ∈ l', q.has = true := List.countP_eq_length
      have hfull : full = l'.length * ps + full % ps := by omega
      simp only [List.mem_append, List.mem_singleton, or_imp, forall_and, forall_eq]
      rw [← hall]
      constructor
      · rintro ⟨ha, hp⟩; rw [ha, hp]; simp; omega
      · intro h
        have hmul : l'.countP (·.has) * ps ≤ l'.length * ps := Nat.mul_le_mul_right _ hcl
        cases hp : p.has with
        | false => rw [hp] at h; simp at h; omega
        | true =>
          rw [hp] at h
          simp only [if_true] at h
          refine ⟨?_, rfl⟩
          exact Nat.eq_of_mul_eq_mul_right hps (by omega)

example : (List.replicate 3 Piece.new).length = (10 + 4 - 1) / 4 ∧ 10 % 4 ≠ 0 ∧
    Pieces.run (List.replicate 3 Piece.new) [.add 2, .add 0] = some [⟨true, true⟩, ⟨false, true⟩, ⟨true, true⟩] := by
  decide

/-- The property fails for every torrent whose size is a multiple of the piece size: with all
pieces received the reported number misses one whole piece. -/
theorem C11_received_bytes_violated (n ps : Nat) (hps : 0 < ps) :
    ∃ s, run (start (.saved (List.replicate (n + 1) 1))) [] = .ok s ∧ finished s = true ∧
      getReceivedBytes s ps ((n + 1) * ps) = .ok ((n * ps : Nat) : Int) := by
  have hst : StartsAs (.saved (List.replicate (n + 1) 1)) (List.replicate (n + 1) ⟨true, true⟩) := by
    have := StartsAs.saved (List.replicate (n + 1) ⟨true, true⟩)
    rw [List.map_replicate] at this
    exact this
  have r := startsAs_rel hst
  refine ⟨_, rfl, ?_, ?_⟩
  · rw [finished_eq r]; simp
  · unfold getReceivedBytes
    rw [r.pieces, r.received]
    rw [show ((List.replicate (n + 1) (⟨true, true⟩ : Piece)).map enc).getLast? = some 1 by
      rw [List.map_replicate]; rw [List.getLast?_replicate]; simp; decide]
    simp [HasFlag, Pieces.received, List.countP_replicate]
    omega

/-! ### C12 -/

/-- For every history on at most 2^24 pieces the bitfield sent has one bit per piece, set exactly for
the received pieces, and zero spare bits; a peer that knows the piece count and a peer that does
not yet know it both read back the same set of pieces, and no byte outside is read.
Missing for the full property: more than 2^24 pieces and too short received bitfields, see
`C12_bitfield_float_violated` and `C12_short_bitfield_violated`. -/
theorem C12_bitfield_roundtrip_partial (st : Start) (l0 : Pieces) (hst : StartsAs st l0)
    (ops : List ProgOp) (l : Pieces) (hl : l0.run ops = some l) (hcount : l.length ≤ 16777216 - 7) :
    ∃ s d, run (start st) ops = .ok s ∧ toBitfield s = .ok d ∧
      d.length = (l.length + 7) / 8 ∧
      (∀ k (hk : k < l.length), bit d k = l[k].has) ∧
      (∀ k, l.length ≤ k → bit d k = false) ∧
      (∃ p, fromBitfieldData (init {} l.length) d = .ok p ∧ p.pieces.length = l.length ∧
        p.receivedPiecesCount = l.countP (·.has) ∧
        ∀ k (hk : k < l.length), hasPiece p k = .ok l[k].has) ∧
      (∃ p, fromBitfieldData {} d = .ok p ∧ p.pieces.length = 8 * ((l.length + 7) / 8) ∧
        ∀ k (hk : k < l.length), p.pieces[k]? = some (if l[k].has then 1 else 0)) := by
  obtain ⟨s, h1, r⟩ := run_rel (startsAs_rel hst) ops l hl
  obtain ⟨d, hd, hdl, hbits⟩ := toBitfieldLoop_spec r l.length 0 (List.replicate ((l.length + 7) / 8) 0)
    (by omega) (by omega) (by simp) (by intro k; rw [bit_replicate_zero]; simp)
  have hbit : ∀ k (hk : k < l.length), bit d k = l[k].has := by
    intro k hk; rw [hbits k]; simp [hk]
  have hcnt : (List.range l.length).countP (bit d) = l.countP (·.has) := by
    rw [show l.countP (·.has) = ((List.range l.length).map (fun k => (l[k]?.map (·.has)).getD false)).countP id by
      rw [show (List.range l.length).map (fun k => (l[k]?.map (·.has)).getD false) = l.map (·.has) by
        apply List.ext_getElem (by simp)
        intro i h1 h2
        simp at h2
        simp [h2]]
      rw [List.countP_map]; rfl]
    rw [List.countP_map]
    apply List.countP_congr
    intro k hk
    simp only [List.mem_range] at hk
    simp [hbit k hk, hk]
  refine ⟨s, d, h1, ?_, hdl, hbit, ?_, ?_, ?_⟩
  · unfold toBitfield
    rw [length_eq r, bfInit, toFloat_small _ (by omega)]
    exact hd
  · intro k hk
    rw [hbits k]; simp; omega
  · by_cases h0 : l.length = 0
    · refine ⟨init {} 0, ?_, ?_, ?_, ?_⟩
      · have : d = [] := List.eq_nil_of_length_eq_zero (by omega)
        subst this
        rw [h0]; rfl
      · rw [h0]; rfl
      · have : l = [] := List.eq_nil_of_length_eq_zero h0
        subst this; rfl
      · intro k hk; omega
    · have hi := init_rel l.length
      have hne : (init {} l.length).pieces.isEmpty = false := by
        rw [hi.pieces]; simpa using h0
      have hil : (init {} l.length).pieces.length = l.length := by rw [hi.pieces]; simp
      have hinit2 : init (init {} l.length) l.length = init {} l.length := by
        simp [init]
      obtain ⟨p, hp1, hp2, hp3, hp4⟩ := fromBitfieldLoop_spec d l.length 0 (init {} l.length)
        (by omega) (by omega) (by omega) (by intro k hk; omega) (by simp [init])
      rw [hil] at hp2 hp3 hp4
      refine ⟨p, ?_, hp2, by rw [hp4, hcnt], ?_⟩
      · unfold fromBitfieldData
        simp only [hne, Bool.false_eq_true, if_false, hil, hinit2, hp1]
      · intro k hk
        unfold hasPiece
        split
        · rename_i hf
          unfold finished at hf
          simp only [hp2, hp4, hcnt, Bool.and_eq_true, beq_iff_eq, Int.ofNat_inj] at hf
          rw [List.countP_eq_length.mp hf.2 _ (List.getElem_mem hk)]
        · simp only [rd, hp3 k hk, hbit k hk]
          cases l[k].has <;> rfl
  · obtain ⟨p, hp1, hp2, hp3, hp4⟩ := fromBitfieldLoop_spec d (d.length * 8) 0 (init {} (d.length * 8))
      (by simp [init]) (by simp [init]; omega) (by simp [init]; omega) (by intro k hk; omega) (by simp [init])
    have hil : (init {} (d.length * 8)).pieces.length = d.length * 8 := by simp [init]
    rw [hil] at hp2 hp3
    refine ⟨p, ?_, by omega, ?_⟩
    · unfold fromBitfieldData
      simp only [List.isEmpty_nil, if_true, hp1]
    · intro k hk
      rw [hp3 k (by omega), hbit k hk]
      rfl

example : Pieces.run (List.replicate 10 Piece.new) [.add 0, .add 9, .select 0 9 false] ≠ none ∧
    (match run (start (.fresh 10)) [.add 0, .add 9] with
      | .ok s => toBitfield s
      | _ => .ub) = .ok [128, 64] := by decide +kernel

/-- A peer that completed the handshake (so the piece count is known) and sends a too short
bitfield makes the parser read outside the message. -/
theorem C12_short_bitfield_violated (n : Nat) (hn : 0 < n) :
    fromBitfieldData (init {} n) [] = .ub := by
  obtain ⟨m, rfl⟩ : ∃ m, n = m + 1 := ⟨n - 1, by omega⟩
  have hi := init_rel (m + 1)
  have hne : (init {} (m + 1)).pieces.isEmpty = false := by
    rw [hi.pieces]; simp
  have hil : (init {} (m + 1)).pieces.length = m + 1 := by rw [hi.pieces]; simp
  unfold fromBitfieldData
  simp only [hne, Bool.false_eq_true, if_false, hil]
  simp [fromBitfieldLoop, rd]

/-- Above 2^24 pieces the byte index is computed in `float` and rounds up: recording piece
16777223 of a torrent of 16777224 pieces writes outside the bitfield. -/
theorem C12_bitfield_float_violated : bfPut (bfInit 16777224) 16777223 = .ub := by
  have h1 : byteIdx 16777223 = 2097153 := by decide +kernel
  have h2 : (toFloat 16777224 + 7) / 8 = 2097153 := by decide +kernel
  have key : ∀ n, rd (List.replicate n (0 : UInt8)) n = .ub := by
    intro n
    simp [rd]
  unfold bfPut bfInit
  rw [h1, h2, key]
  rfl

end Verif
