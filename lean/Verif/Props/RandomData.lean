import Verif.Model.RandomData
import Verif.Spec.RandomData

/-! C105: keys and padding are filled with fresh random bytes. -/

namespace Verif
open RandomData Spec.RandomData

namespace RandomDataProof

theorem word_length (v : Nat) : (word v).length = 8 := by simp [word]

theorem word_bytes (draw : Nat → Nat) (pos : Nat) : word (draw pos) = (List.range 8).map (byteOf draw pos) := by
  unfold word
  apply List.map_congr_left
  intro i hi
  have hi := List.mem_range.1 hi
  unfold byteOf
  rw [Nat.div_eq_of_lt hi, Nat.mod_eq_of_lt hi, Nat.add_zero]

theorem word_take (draw : Nat → Nat) (pos k : Nat) (hk : k ≤ 8) : (word (draw pos)).take k = (List.range k).map (byteOf draw pos) := by
  rw [word_bytes, ← List.map_take, List.take_range, Nat.min_eq_left hk]

theorem byteOf_later (draw : Nat → Nat) (pos n i : Nat) : byteOf draw pos (8 * n + i) = byteOf draw (pos + n) i := by
  unfold byteOf
  rw [show (8 * n + i) / 8 = n + i / 8 by omega, show (8 * n + i) % 8 = i % 8 by omega, Nat.add_assoc]

theorem bytes_append (draw : Nat → Nat) (pos n k : Nat) : (List.range (8 * n + k)).map (byteOf draw pos) =
    (List.range (8 * n)).map (byteOf draw pos) ++ (List.range k).map (byteOf draw (pos + n)) := by
  rw [List.range_add, List.map_append, List.map_map]
  congr 1
  apply List.map_congr_left
  intro i _
  exact byteOf_later draw pos n i

theorem filled_filled (draw : Nat → Nat) (pos : Nat) (buf : List UInt8) (off n k : Nat) (h : off + (8 * n + k) ≤ buf.length) :
    filled draw (pos + n) (filled draw pos buf off (8 * n)) (off + 8 * n) k = filled draw pos buf off (8 * n + k) := by
  have hl : (buf.take off ++ (List.range (8 * n)).map (byteOf draw pos)).length = off + 8 * n := by
    simp only [List.length_append, List.length_take, List.length_map, List.length_range]; omega
  unfold filled
  rw [bytes_append, List.take_left' hl, List.drop_append, hl, List.drop_eq_nil_of_le (by rw [hl]; omega), List.nil_append, List.drop_drop,
    show off + 8 * n + (off + 8 * n + k - (off + 8 * n)) = off + (8 * n + k) by omega]
  simp only [List.append_assoc]

theorem filled_length (draw : Nat → Nat) (pos : Nat) (buf : List UInt8) (off size : Nat) (h : off + size ≤ buf.length) :
    (filled draw pos buf off size).length = buf.length := by
  unfold filled
  simp only [List.length_append, List.length_take, List.length_map, List.length_range, List.length_drop]
  omega

theorem put_filled (draw : Nat → Nat) (pos : Nat) (buf : List UInt8) (off k : Nat) (h : off + k ≤ buf.length) :
    put buf off ((List.range k).map (byteOf draw pos)) = .ok (filled draw pos buf off k) := by
  unfold put filled
  rw [if_pos (by simpa using h)]
  simp only [List.length_map, List.length_range]

theorem words_filled (draw : Nat → Nat) (n : Nat) : ∀ (pos : Nat) (buf : List UInt8) (off : Nat), off % 8 = 0 ∨ n = 0 → off + 8 * n ≤ buf.length →
    words draw pos buf off n = .ok (filled draw pos buf off (8 * n)) := by
  induction n with
  | zero =>
    intro pos buf off _ _
    unfold words filled
    simp
  | succ n ih =>
    intro pos buf off ha hl
    have ha : off % 8 = 0 := by omega
    unfold words
    rw [if_neg (by omega), word_bytes, put_filled draw pos buf off 8 (by omega), Res.bind_ok,
      ih (pos + 1) _ (off + 8) (by omega) (by rw [filled_length _ _ _ _ _ (by omega)]; omega)]
    have := filled_filled draw pos buf off 1 (8 * n) (by omega)
    rw [Nat.mul_one] at this
    rw [this, show 8 + 8 * n = 8 * (n + 1) by omega]

end RandomDataProof
open RandomDataProof

/-- At a multiple of 8, or for fewer than 8 bytes, inside the buffer: exactly the bytes asked for become those of the next numbers, each used once, and
no more numbers are taken than needed.
Missing for the full property: other places (`C105_padding_violated`) and numbers nobody else has (`C105_same_violated`, `C105_few_violated`). -/
theorem C105_fill_partial (draw : Nat → Nat) (pos : Nat) (buf : List UInt8) (off size : Nat) (ha : off % 8 = 0 ∨ size < 8)
    (hl : off + size ≤ buf.length) : fill draw pos buf off size = .ok (filled draw pos buf off size, pos + (size + 7) / 8) := by
  unfold fill
  rw [words_filled draw (size / 8) pos buf off (by omega) (by omega), Res.bind_ok]
  have hf := filled_filled draw pos buf off (size / 8) (size % 8) (by omega)
  rw [Nat.div_add_mod] at hf
  split
  · next h0 =>
    rw [show 8 * (size / 8) = size by omega, show (size + 7) / 8 = size / 8 by omega]
  · next h0 =>
    rw [word_take _ _ _ (by omega), put_filled _ _ _ _ _ (by rw [filled_length _ _ _ _ _ (by omega)]; omega), Res.bind_ok, hf,
      show (size + 7) / 8 = size / 8 + 1 by omega, Nat.add_assoc]

example : fill (fun i => 0x0807060504030201 + i) 0 (List.replicate 12 9) 0 11 =
    .ok ([1, 2, 3, 4, 5, 6, 7, 8, 2, 2, 3, 9], 2) := by decide +kernel

/-- A buffer too short is never filled in silence. -/
theorem C105_outside (draw : Nat → Nat) (pos : Nat) (buf : List UInt8) (off size : Nat) (hs : 0 < size) (hl : buf.length < off + size) :
    fill draw pos buf off size = .ub := by
  have hw : ∀ (n pos : Nat) (b : List UInt8) (off : Nat), (b.length < off + 8 * n → 0 < n → words draw pos b off n = .ub) ∧
      (∀ r, words draw pos b off n = .ok r → r.length = b.length) := by
    intro n
    induction n with
    | zero =>
      intro pos b off
      refine ⟨fun _ h => absurd h (Nat.lt_irrefl 0), fun r hr => ?_⟩
      unfold words at hr
      injection hr with hr
      rw [hr]
    | succ n ih =>
      intro pos b off
      unfold words
      by_cases ha : off % 8 = 0
      · rw [if_neg (by omega), word_bytes]
        by_cases hp : off + 8 ≤ b.length
        · rw [put_filled draw pos b off 8 hp, Res.bind_ok]
          have hfl := filled_length draw pos b off 8 hp
          obtain ⟨i1, i2⟩ := ih (pos + 1) (filled draw pos b off 8) (off + 8)
          rw [hfl] at i1 i2
          exact ⟨fun h _ => i1 (by omega) (by omega), i2⟩
        · have : put b off ((List.range 8).map (byteOf draw pos)) = .ub := by
            unfold put
            rw [if_neg (by simpa using hp)]
          rw [this, Res.bind_ub]
          exact ⟨fun _ _ => rfl, fun r hr => by cases hr⟩
      · rw [if_pos (by omega)]
        exact ⟨fun _ _ => rfl, fun r hr => by cases hr⟩
  obtain ⟨h1, h2⟩ := hw (size / 8) pos buf off
  unfold fill
  cases hr : words draw pos buf off (size / 8) with
  | ub => rfl
  | diverge =>
    exfalso
    have hd : ∀ (n pos : Nat) (b : List UInt8) (off : Nat), words draw pos b off n ≠ .diverge := by
      intro n
      induction n with
      | zero => intro pos b off h; cases h
      | succ n ih =>
        intro pos b off h
        unfold words at h
        split at h
        · cases h
        · unfold put at h
          split at h
          · exact ih _ _ _ h
          · cases h
    exact hd _ _ _ _ hr
  | ok b =>
    rw [Res.bind_ok]
    have hb := h2 b hr
    split
    · next h0 =>
      rw [h1 (by omega) (by omega)] at hr
      cases hr
    · next h0 =>
      rw [word_take _ _ _ (by omega)]
      have : put b (off + 8 * (size / 8)) ((List.range (size % 8)).map (byteOf draw (pos + size / 8))) = .ub := by
        unfold put
        rw [if_neg (by simp only [List.length_map, List.length_range]; omega)]
      rw [this]
      rfl

example : fill (fun i => i) 0 [1, 2, 3] 0 4 = .ub ∧ fill (fun i => i) 0 [1, 2, 3] 0 3 = .ok ([0, 0, 0], 1) := by decide +kernel

/-- A private key, and the padding behind a public key, are filled wholly; keys made in turn by a thread are of different numbers. -/
theorem C105_keys_partial (mt : Nat → Nat → Nat) (s : St) (thread now later size1 size2 : Nat) :
    ∃ seed pos s1 s2, key mt s thread now size1 = .ok ((List.range size1).map (byteOf (mt seed) pos), s1) ∧
      key mt s1 thread later size2 = .ok ((List.range size2).map (byteOf (mt seed) (pos + (size1 + 7) / 8)), s2) := by
  have hk : ∀ (s : St) (now size : Nat), key mt s thread now size =
      .ok ((List.range size).map (byteOf (mt (genOf s thread now).1) (genOf s thread now).2),
        { gens := (thread, (genOf s thread now).1, (genOf s thread now).2 + (size + 7) / 8) :: s.gens.filter fun g => g.1 ≠ thread }) := by
    intro s now size
    unfold key
    simp only []
    rw [C105_fill_partial _ _ _ _ _ (Or.inl rfl) (by simp), Res.bind_ok]
    simp [filled]
  have hg : ∀ (x y : Nat) (l : List (Nat × Nat × Nat)), genOf { gens := (thread, x, y) :: l } thread later = (x, y) := by
    intro x y l
    unfold genOf
    rw [List.find?_cons_of_pos (by simp)]
  have h2 := hk { gens := (thread, (genOf s thread now).1, (genOf s thread now).2 + (size1 + 7) / 8) :: s.gens.filter fun g => g.1 ≠ thread } later size2
  rw [hg] at h2
  exact ⟨_, _, _, _, hk s now size1, h2⟩

/-- The same for the padding sent with a public key. -/
theorem C105_key_padding_partial (draw : Nat → Nat) (pos pad : Nat) :
    keyPadding draw pos pad = .ok (List.replicate 96 0 ++ (List.range pad).map (byteOf draw pos), pos + (pad + 7) / 8) := by
  unfold keyPadding
  rw [C105_fill_partial _ _ _ _ _ (Or.inl rfl) (by simp)]
  unfold filled
  rw [List.take_replicate, List.drop_eq_nil_of_le (by simp), List.append_nil, Nat.min_eq_left (by omega)]

example : (key (fun s i => s + i) {} 1 5 9).map' (·.1) = .ok [5, 0, 0, 0, 0, 0, 0, 0, 6] ∧
    (keyPadding (fun i => 7 + i) 0 2).map' (·.1.drop 95) = .ok [0, 7, 0] := by decide +kernel

/-- Threads that first use their generators in different seconds, within 2^32, have different seeds. -/
theorem C105_seconds_partial (now later : Nat) (h : now % 4294967296 ≠ later % 4294967296) :
    ∃ a b, a ≠ b ∧ ∀ (mt : Nat → Nat → Nat) (t u size : Nat),
      (key mt {} t now size).map' (·.1) = .ok ((List.range size).map (byteOf (mt a) 0)) ∧
      (key mt {} u later size).map' (·.1) = .ok ((List.range size).map (byteOf (mt b) 0)) := by
  have hk : ∀ (mt : Nat → Nat → Nat) (t now size : Nat), (key mt {} t now size).map' (·.1) = .ok ((List.range size).map (byteOf (mt (seedAt now)) 0)) := by
    intro mt t now size
    unfold key
    simp only [genOf, List.find?_nil]
    rw [C105_fill_partial _ _ _ _ _ (Or.inl rfl) (by simp), Res.bind_ok]
    simp [filled]
  refine ⟨seedAt now, seedAt later, ?_, fun mt t u size => ⟨hk mt t now size, hk mt u later size⟩⟩
  unfold seedAt
  split <;> split <;> omega

example : (key (fun s i => s + i) {} 1 5 2).map' (·.1) = .ok [5, 0] ∧ (key (fun s i => s + i) {} 1 6 2).map' (·.1) = .ok [6, 0] := by decide +kernel

/-- **Violated**: whatever the generator, two threads that first use theirs in the same second make the same private key. -/
theorem C105_same_violated (mt : Nat → Nat → Nat) (now : Nat) :
    ∃ k s1 s2, key mt {} 1 now 96 = .ok (k, s1) ∧ key mt s1 2 now 96 = .ok (k, s2) := by
  have h1 : ∀ s : St, genOf s 2 now = (seedAt now, 0) → ∃ s2, key mt s 2 now 96 = .ok ((List.range 96).map (byteOf (mt (seedAt now)) 0), s2) := by
    intro s hs
    refine ⟨{ gens := (2, seedAt now, 12) :: s.gens.filter fun g => g.1 ≠ 2 }, ?_⟩
    unfold key
    rw [hs]
    simp only []
    rw [C105_fill_partial _ _ _ _ _ (Or.inl rfl) (by simp), Res.bind_ok]
    simp [filled]
  have h0 : key mt {} 1 now 96 = .ok ((List.range 96).map (byteOf (mt (seedAt now)) 0), { gens := [(1, seedAt now, 12)] }) := by
    unfold key
    simp only [genOf, List.find?_nil]
    rw [C105_fill_partial _ _ _ _ _ (Or.inl rfl) (by simp), Res.bind_ok]
    simp [filled]
  obtain ⟨s2, h2⟩ := h1 { gens := [(1, seedAt now, 12)] } (by simp [genOf])
  exact ⟨_, _, s2, h0, h2⟩

/-- **Violated**: whatever the generator, the first private key of 768 bits is one of 2^32, and told by the second in which it was made. -/
theorem C105_few_violated (mt : Nat → Nat → Nat) :
    ∃ keys : Nat → List UInt8, ∀ thread now, ∃ s, key mt {} thread now 96 = .ok (keys (now % 4294967296), s) := by
  refine ⟨fun n => (List.range 96).map (byteOf (mt (seedAt n)) 0), fun thread now => ?_⟩
  refine ⟨{ gens := [(thread, seedAt now, 12)] }, ?_⟩
  unfold key
  simp only [genOf, List.find?_nil]
  rw [C105_fill_partial _ _ _ _ _ (Or.inl rfl) (by simp), Res.bind_ok]
  simp [filled, seedAt]

/-- **Violated**: padding of 8 bytes or more in the third and fourth message of an encrypted handshake is stored as words at places that are not a
multiple of 8. -/
theorem C105_padding_violated (draw : Nat → Nat) (pos pad msg : Nat) (hp : 8 ≤ pad) :
    pe3Padding draw pos pad msg = .ub ∧ pe4Padding draw pos pad = .ub := by
  have hw : ∀ (buf : List UInt8) (off : Nat), off % 8 ≠ 0 → fill draw pos buf off pad = .ub := by
    intro buf off h
    unfold fill
    obtain ⟨n, hn⟩ : ∃ n, pad / 8 = n + 1 := ⟨pad / 8 - 1, by omega⟩
    rw [hn]
    unfold words
    rw [if_pos h]
    rfl
  exact ⟨hw _ 54 (by decide), hw _ 14 (by decide)⟩

end Verif
