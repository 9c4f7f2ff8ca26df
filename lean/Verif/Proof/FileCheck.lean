import Verif.Model.FileCheck
import Verif.Proof.StorageGeo
/-! What a worker finds when all files are there. -/

namespace Verif.FileCheck
open Verif Verif.Spec Layout Storage

/-- The worker is to check piece `k`. -/
def Mine (j : Job) (k : Nat) : Prop := k % j.workers = j.worker ∧ j.wanted[k]? = some true

instance (j : Job) (k : Nat) : Decidable (Mine j k) := by unfold Mine; infer_instance

theorem mine_eq (j : Job) (k : Nat) (h : k < j.wanted.length) : mine j k = .ok (decide (Mine j k)) := by
  have he : j.wanted[k]? = some j.wanted[k] := List.getElem?_eq_getElem h
  by_cases hk : k % j.workers = j.worker
  · have : Mine j k ↔ j.wanted[k] = true := by unfold Mine; rw [he]; simp [hk]
    simp only [mine, if_pos hk, rd_eq_ok h, this, Bool.decide_eq_true]
  · have : ¬ Mine j k := fun h => hk h.1
    simp [mine, hk, this]

/-- The worker is to find piece `k`; `A`: it is in the files. -/
def good (j : Job) (m : Mem) (ps total : Nat) (A : Nat → Bool) (k : Nat) : Bool :=
  A k && decide (Mine j k ∧ j.hashes[k]? = some (j.sha (m.read (k * ps) (min ps (total - k * ps)))))

def expected (j : Job) (m : Mem) (ps total : Nat) (A : Nat → Bool) (n : Nat) : List Nat := (List.range n).filter (good j m ps total A)

theorem expected_succ (j : Job) (m : Mem) (ps total : Nat) (A : Nat → Bool) (n : Nat) :
    expected j m ps total A (n + 1) = expected j m ps total A n ++ if good j m ps total A n then [n] else [] := by
  simp only [expected, List.range_succ, List.filter_append]
  congr 1
  simp [List.filter_cons]

theorem expected_skip (j : Job) (m : Mem) (ps total : Nat) (A : Nat → Bool) {a b : Nat} (hab : a ≤ b) (h : ∀ k, a ≤ k → k < b → ¬ Mine j k ∨ A k = false) :
    expected j m ps total A b = expected j m ps total A a := by
  induction b with
  | zero => rw [show a = 0 by omega]
  | succ b ih =>
    by_cases hb : a = b + 1
    · rw [hb]
    · rw [expected_succ, ih (by omega) (fun k h1 h2 => h k h1 (by omega))]
      have : good j m ps total A b = false := by
        rcases h b (by omega) (by omega) with h | h <;> simp [good, h]
      simp [this]

theorem verify_eq (j : Job) (k n : Nat) (w : Worker) (d : List UInt8) (hn : n ≤ w.buf.length) (hk : k < j.hashes.length)
    (hd : w.buf.take n = d) :
    verify j k n w = .ok { w with found := w.found ++ if j.hashes[k]? = some (j.sha d) then [k] else [] } := by
  unfold verify
  rw [if_neg (by omega), rd_eq_ok hk, hd, List.getElem?_eq_getElem hk]
  simp only [Res.bind_ok, Res.pure_eq, Option.some.injEq]
  by_cases h : j.sha d = j.hashes[k]
  · simp [h]
  · rw [if_neg h, if_neg (fun e => h e.symm)]; simp

theorem read_append (m : Mem) (a x y : Nat) : m.read a x ++ m.read (a + x) y = m.read a (x + y) := by
  apply List.ext_getElem?
  intro q
  by_cases h : q < x
  · rw [List.getElem?_append_left (by rw [read_length]; exact h), read_get?, read_get?, if_pos h, if_pos (by omega)]
  · rw [List.getElem?_append_right (by rw [read_length]; omega), read_length, read_get?, read_get?]
    by_cases h2 : q - x < y
    · rw [if_pos h2, if_pos (by omega)]; congr 2; omega
    · rw [if_neg h2, if_neg (by omega)]

/-- A file at `off` in pieces of `ps` bytes. -/
structure Placed (ps : Nat) (f : File) (off size : Nat) : Prop where
  fsize : f.size = size
  start : f.startPieceIndex = off / ps
  spos : f.startPiecePos = off % ps
  fin : f.endPieceIndex = if size = 0 then off / ps else (off + size - 1) / ps
  epos : f.endPiecePos = (off + size) % ps

/-- What the buffer and the stream are like when piece `k` was read or skipped. -/
structure Loaded (j : Job) (m : Mem) (ps off size k : Nat) (w : Worker) (s : Stream) : Prop where
  len : w.buf.length = ps
  content : s.content = m.read off size
  full : Mine j k → (k + 1) * ps ≤ off + size → s.failed = false ∧ s.pos = (k + 1) * ps - off ∧ w.buf = m.read (k * ps) ps
  short : Mine j k → off + size < (k + 1) * ps →
    s.failed = true ∧ w.buf.take (off + size - k * ps) = m.read (k * ps) (off + size - k * ps)
  other : ¬ Mine j k → s.failed = false ∧ s.pos = (k + 1) * ps - off

theorem advance_loaded (j : Job) (m : Mem) (ps off size k bp p : Nat) (w : Worker) (s : Stream)
    (hl : w.buf.length = ps) (hc : s.content = m.read off size) (hf : s.failed = false) (hp : s.pos = p) (hps : p ≤ size)
    (hbp : bp ≤ ps) (hk : k * ps + bp = off + p) (hb : Mine j k → w.buf.take bp = m.read (k * ps) bp) :
    ∃ w' s', advance (decide (Mine j k)) bp (ps - bp) w s = .ok (w', s') ∧ Loaded j m ps off size k w' s' ∧
      w'.idx = w.idx ∧ w'.found = w.found := by
  have hk1 : (k + 1) * ps = k * ps + ps := Nat.succ_mul k ps
  unfold advance
  by_cases hm : Mine j k
  · have hd : ((s.content.drop s.pos).take (ps - bp)) = m.read (off + p) (min (ps - bp) (size - p)) := by
      rw [hc, hp]
      by_cases h : p + (ps - bp) ≤ size
      · rw [read_slice _ _ _ _ _ h, Nat.min_eq_left (by omega)]
      · rw [Nat.min_eq_right (by omega), List.take_of_length_le (by rw [List.length_drop, read_length]; omega)]
        have := read_slice m off size p (size - p) (by omega)
        rw [List.take_of_length_le (by rw [List.length_drop, read_length]; omega)] at this
        exact this
    have hlen : (m.read (off + p) (min (ps - bp) (size - p))).length = min (ps - bp) (size - p) := read_length ..
    simp only [hm, decide_true, if_true, Stream.read, hf, Bool.false_eq_true, if_false, hd, hlen]
    unfold putBuf
    rw [if_pos (by rw [hlen]; omega)]
    refine ⟨_, _, rfl, ⟨?_, hc, fun _ h => ?_, fun _ h => ?_, fun h => absurd hm h⟩, rfl, rfl⟩
    · simp only [List.length_append, List.length_take, List.length_drop, hlen]; omega
    · have hmin : min (ps - bp) (size - p) = ps - bp := by omega
      refine ⟨by simp only [hmin, Nat.lt_irrefl, decide_false], by simp only [hp, hmin]; omega, ?_⟩
      simp only [hmin, hb hm, read_length]
      rw [← hk, read_append, show bp + (ps - bp) = ps by omega, List.drop_of_length_le (by omega), List.append_nil]
    · have hmin : min (ps - bp) (size - p) = size - p := by omega
      refine ⟨by simp only [hmin, decide_eq_true_eq]; omega, ?_⟩
      simp only [hmin, hb hm, read_length]
      rw [← hk, read_append, show bp + (size - p) = off + size - k * ps by omega]
      rw [List.take_append_of_le_length (by rw [read_length]; exact Nat.le_refl _), List.take_of_length_le (by rw [read_length]; exact Nat.le_refl _)]
  · simp only [hm, decide_false, Bool.false_eq_true, if_false, Stream.skip, hf]
    exact ⟨_, _, rfl, ⟨hl, hc, fun h => absurd h hm, fun h => absurd h hm, fun _ => ⟨rfl, by simp only [hp]; omega⟩⟩, rfl, rfl⟩

/-- The torrent has `total` bytes, the last piece is shorter than the others. -/
structure Setup (j : Job) (ps total : Nat) : Prop where
  pos : 0 < ps
  small : ps < 4294967296
  psize : j.info.pieceSize = ps
  tail : total % ps ≠ 0
  hashes : j.hashes.length = total / ps + 1
  wanted : j.wanted.length = total / ps + 1

theorem pieceLoop_spec {j : Job} {m : Mem} {ps total off size : Nat} {A : Nat → Bool} {f : File} (u : Setup j ps total) (g : Placed ps f off size)
    (ht : off + size ≤ total) (hA : ∀ k, off / ps ≤ k → k * ps < off + size → A k = true) : ∀ (n k : Nat) (w : Worker) (s : Stream), w.idx = k → k ≤ (off + size) / ps → n = f.endPieceIndex + 1 - k →
    off / ps ≤ k → off ≤ k * ps + ps →
    Loaded j m ps off size k w s → w.found = expected j m ps total A k →
    ∃ w' s', pieceLoop j f n w s = .ok (w', s') ∧ w'.idx = (off + size) / ps ∧ Loaded j m ps off size ((off + size) / ps) w' s' ∧
      w'.found = expected j m ps total A ((off + size) / ps) := by
  have hE : (off + size) / ps ≤ f.endPieceIndex + 1 := by
    rw [g.fin]
    split
    · rename_i h; rw [h, Nat.add_zero]; omega
    · have h1 := Nat.div_add_mod (off + size - 1) ps
      have h2 := Nat.mod_lt (off + size - 1) u.pos
      rw [Nat.div_le_iff_le_mul u.pos, Nat.add_mul, Nat.one_mul, Nat.mul_comm]
      omega
  have hT : (off + size) / ps ≤ total / ps := Nat.div_le_div_right ht
  intro n
  induction n with
  | zero =>
    intro k w s hi hk hn _ _ L hf
    have : k = (off + size) / ps := by omega
    subst this
    exact ⟨w, s, rfl, hi, L, hf⟩
  | succ n ih =>
    intro k w s hi hk hn hok0 hok L hf
    unfold pieceLoop
    have hk1 : (k + 1) * ps = k * ps + ps := Nat.succ_mul k ps
    by_cases hc : s.failed = true ∨ f.size < s.pos
    · rw [if_pos hc]
      have hge : off + size < (k + 1) * ps := by
        rw [g.fsize] at hc
        apply Decidable.byContradiction
        intro hn
        by_cases hm : Mine j k
        · have := L.full hm (by omega)
          rcases hc with hc | hc
          · rw [this.1] at hc; cases hc
          · omega
        · have := L.other hm
          rcases hc with hc | hc
          · rw [this.1] at hc; cases hc
          · omega
      have : (off + size) / ps < k + 1 := by rw [Nat.div_lt_iff_lt_mul u.pos]; exact hge
      have : k = (off + size) / ps := by omega
      subst this
      exact ⟨w, s, rfl, hi, L, hf⟩
    · rw [if_neg hc]
      rw [g.fsize] at hc
      have hle : (k + 1) * ps ≤ off + size := by
        apply Decidable.byContradiction
        intro hn
        by_cases hm : Mine j k
        · exact hc (Or.inl (L.short hm (by omega)).1)
        · have := (L.other hm).2; omega
      have hsp : s.failed = false ∧ s.pos = (k + 1) * ps - off := by
        by_cases hm : Mine j k
        · exact ⟨(L.full hm hle).1, (L.full hm hle).2.1⟩
        · exact L.other hm
      have hkE : k + 1 ≤ (off + size) / ps := by rw [Nat.le_div_iff_mul_le u.pos]; exact hle
      have hkl : k < j.wanted.length := by rw [u.wanted]; omega
      have hkl' : k + 1 < j.wanted.length := by rw [u.wanted]; omega
      have hmin : min ps (total - k * ps) = ps := by omega
      have hgood : good j m ps total A k = decide (Mine j k ∧ j.hashes[k]? = some (j.sha (m.read (k * ps) ps))) := by
        rw [good, hmin, hA k hok0 (by have := u.pos; omega), Bool.true_and]
      rw [hi, mine_eq j k hkl]
      simp only [Res.bind_ok]
      have tail : ∀ w1 : Worker, w1.idx = k → w1.buf = w.buf → w1.found = expected j m ps total A (k + 1) →
          ∃ w' s', (do
            let m ← mine j (w1.idx + 1)
            let r ← advance m 0 j.info.pieceSize { w1 with idx := w1.idx + 1 } s
            pieceLoop j f n r.1 r.2) = .ok (w', s') ∧ w'.idx = (off + size) / ps ∧ Loaded j m ps off size ((off + size) / ps) w' s' ∧
            w'.found = expected j m ps total A ((off + size) / ps) := by
        intro w1 h1 h2 h3
        rw [h1, mine_eq j (k + 1) hkl', u.psize]
        simp only [Res.bind_ok]
        obtain ⟨w2, s2, e1, L2, e2, e3⟩ := advance_loaded j m ps off size (k + 1) 0 ((k + 1) * ps - off) { w1 with idx := k + 1 } s
          (by simp only [h2]; exact L.len) L.content hsp.1 hsp.2 (by omega) (Nat.zero_le _) (by omega) (fun _ => by simp [Mem.read])
        rw [Nat.sub_zero] at e1
        rw [e1]
        simp only [Res.bind_ok]
        exact ih (k + 1) w2 s2 e2 hkE (by omega) (by omega) (by omega) L2 (e3.trans h3)
      by_cases hm : Mine j k
      · have hb := (L.full hm hle).2.2
        simp only [hm, decide_true, if_true]
        rw [u.psize, verify_eq j k ps w (m.read (k * ps) ps) (by rw [L.len]; exact Nat.le_refl _) (by rw [u.hashes]; omega)
          (by rw [hb, List.take_of_length_le (by rw [read_length]; exact Nat.le_refl _)])]
        simp only [Res.bind_ok]
        refine u.psize ▸ tail { w with found := w.found ++ if j.hashes[k]? = some (j.sha (m.read (k * ps) ps)) then [k] else [] } hi rfl ?_
        rw [expected_succ, hf, hgood]
        simp [hm]
      · simp only [hm, decide_false, Bool.false_eq_true, if_false, Res.pure_eq, Res.bind_ok]
        refine tail _ hi rfl ?_
        rw [expected_succ, hf, hgood]
        simp [hm]

/-- What a worker is like between two files. -/
structure Between (j : Job) (m : Mem) (ps total : Nat) (A : Nat → Bool) (off : Nat) (w : Worker) : Prop where
  len : w.buf.length = ps
  begun : Mine j (off / ps) → w.buf.take (off % ps) = m.read (off / ps * ps) (off % ps)
  found : w.found = expected j m ps total A (off / ps)

theorem whole_spec {j : Job} {m : Mem} {ps total off size : Nat} {A : Nat → Bool} {f : File} (u : Setup j ps total) (g : Placed ps f off size)
    (ht : off + size ≤ total) (hA : ∀ k, off / ps ≤ k → k * ps < off + size → A k = true) (w : Worker) (hi : w.idx = off / ps) (b : Between j m ps total A off w) :
    (∃ w', wholeFile j false f (m.read off size) w = .ok w' ∧ Between j m ps total A (off + size) w') ∧
    (off + size = total → ∃ w', wholeFile j true f (m.read off size) w = .ok w' ∧ w'.found = expected j m ps total A (total / ps + 1)) := by
  have hT : (off + size) / ps ≤ total / ps := Nat.div_le_div_right ht
  have hO : off / ps ≤ (off + size) / ps := Nat.div_le_div_right (by omega)
  have hmo := Nat.mod_lt off u.pos
  have hdo := Nat.div_add_mod off ps
  have hmE := Nat.mod_lt (off + size) u.pos
  have hdE := Nat.div_add_mod (off + size) ps
  rw [Nat.mul_comm] at hdo hdE
  have key : ∃ w' s', (do
      let m1 ← mine j w.idx
      let r ← advance m1 f.startPiecePos (sub32 j.info.pieceSize f.startPiecePos) w { content := m.read off size }
      pieceLoop j f (f.endPieceIndex + 1 - w.idx) r.1 r.2) = .ok (w', s') ∧ w'.idx = (off + size) / ps ∧
      Loaded j m ps off size ((off + size) / ps) w' s' ∧ w'.found = expected j m ps total A ((off + size) / ps) := by
    rw [hi, mine_eq j (off / ps) (by rw [u.wanted]; omega), g.spos, u.psize, sub32_eq u.small (by omega)]
    simp only [Res.bind_ok]
    obtain ⟨w1, s1, e1, L1, e2, e3⟩ := advance_loaded j m ps off size (off / ps) (off % ps) 0 w { content := m.read off size }
      b.len rfl rfl rfl (Nat.zero_le _) (by omega) (by omega) b.begun
    rw [e1]
    simp only [Res.bind_ok]
    exact pieceLoop_spec u g ht hA _ _ w1 s1 (e2.trans hi) hO rfl (Nat.le_refl _) (by omega) L1 (e3.trans b.found)
  obtain ⟨w1, s1, e1, e2, L, e3⟩ := key
  have hshort : off + size < ((off + size) / ps + 1) * ps := by rw [Nat.succ_mul]; omega
  have hsub : off + size - (off + size) / ps * ps = (off + size) % ps := by omega
  have run : ∀ last, wholeFile j last f (m.read off size) w = lastPiece j last f w1 := by
    intro last
    unfold wholeFile
    cases hm : mine j w.idx with
    | ub => rw [hm] at e1; cases e1
    | diverge => rw [hm] at e1; cases e1
    | ok m1 =>
      rw [hm] at e1
      simp only [Res.bind_ok] at e1 ⊢
      cases ha : advance m1 f.startPiecePos (sub32 j.info.pieceSize f.startPiecePos) w { content := m.read off size } with
      | ub => rw [ha] at e1; cases e1
      | diverge => rw [ha] at e1; cases e1
      | ok r =>
        rw [ha] at e1
        simp only [Res.bind_ok] at e1 ⊢
        rw [e1]
        rfl
  refine ⟨⟨w1, ?_, L.len, fun hm => ?_, e3⟩, fun he => ?_⟩
  · rw [run]; simp [lastPiece]
  · have := (L.short hm hshort).2
    rwa [hsub] at this
  · rw [run]
    have hend : f.endPieceIndex = (off + size) / ps := by
      rw [g.fin]
      split
      · rename_i h; rw [h, Nat.add_zero]
      · rw [Nat.div_eq_iff u.pos]
        have := u.tail
        rw [← he] at this
        omega
    have hne : (off + size) % ps ≠ 0 := by rw [he]; exact u.tail
    have hmin : min ps (total - total / ps * ps) = total % ps := by rw [← he]; omega
    unfold lastPiece
    rw [if_pos ⟨by rw [e2, hend], rfl⟩, e2, mine_eq j _ (by rw [u.wanted]; omega)]
    simp only [Res.bind_ok]
    by_cases hm : Mine j ((off + size) / ps)
    · have hs := (L.short hm hshort).2
      rw [hsub] at hs
      simp only [hm, decide_true, if_true]
      rw [g.epos, verify_eq j _ _ w1 _ (by rw [L.len]; omega) (by rw [u.hashes]; omega) hs]
      refine ⟨_, rfl, ?_⟩
      simp only
      rw [he] at hm ⊢
      rw [expected_succ, e3, he, good, hmin, hA (total / ps) (by rw [← he]; exact hO) (by rw [← he]; omega)]
      simp [hm]
    · simp only [hm, decide_false, Bool.false_eq_true, if_false]
      refine ⟨_, rfl, ?_⟩
      simp only
      rw [he] at hm
      rw [expected_succ, e3, he, good]
      simp [hm]

/-- If a piece of the file is to be checked, then the first or the last one. -/
def Ends (wanted : List Bool) (f : File) : Prop :=
  ∀ k, f.startPieceIndex ≤ k → k ≤ f.endPieceIndex → wanted[k]? = some true →
    wanted[f.startPieceIndex]? = some true ∨ wanted[f.endPieceIndex]? = some true


end Verif.FileCheck
