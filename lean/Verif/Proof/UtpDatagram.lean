import Verif.Spec.Utp
namespace Verif.Utp
open Verif Spec

theorem rd_append {α} (l m : List α) {i : Nat} (h : i < l.length) : rd (l ++ m) i = rd l i := by
  unfold rd; rw [List.getElem?_append_left h]

/-- The extensions found in memory are those inside the datagram. -/
theorem extensions_inside (after : List UInt8) : ∀ (n : Nat) (mem : List UInt8) (t : Nat), mem.length < n →
    ∃ r, extensionsLeft n (mem ++ after) mem.length t = .ok r ∧ extensionsLeft n mem mem.length t = .ok r ∧
      ∀ l, r = some l → l ≤ mem.length ∧ ∃ es, readExtensions n (mem ++ after) t = .ok es ∧ readExtensions n mem t = .ok es := by
  intro n
  induction n with
  | zero => intro mem t h; omega
  | succ n ih =>
    intro mem t hn
    cases t with
    | zero => exact ⟨some mem.length, rfl, rfl, fun l hl => ⟨by cases hl; exact Nat.le_refl _, [], rfl, rfl⟩⟩
    | succ t =>
      by_cases h2 : mem.length < 2
      · exact ⟨none, by rw [extensionsLeft.eq_3 _ _ _ _ (by simp), if_pos h2], by rw [extensionsLeft.eq_3 _ _ _ _ (by simp), if_pos h2], fun l hl => by cases hl⟩
      · have h0 := rd_eq_ok (l := mem) (i := 0) (by omega)
        have h1 := rd_eq_ok (l := mem) (i := 1) (by omega)
        have h0' := rd_append mem after (i := 0) (by omega)
        have h1' := rd_append mem after (i := 1) (by omega)
        rw [h0] at h0'
        rw [h1] at h1'
        generalize mem[1] = len at *
        generalize mem[0] = next at *
        by_cases h3 : mem.length - 2 < len.toNat
        · refine ⟨none, ?_, ?_, fun l hl => by cases hl⟩
          · rw [extensionsLeft.eq_3 _ _ _ _ (by simp), if_neg h2, h1', Res.bind_ok, if_pos h3]; rfl
          · rw [extensionsLeft.eq_3 _ _ _ _ (by simp), if_neg h2, h1, Res.bind_ok, if_pos h3]; rfl
        · obtain ⟨r, e1, e2, e3⟩ := ih (mem.drop (2 + len.toNat)) next.toNat (by rw [List.length_drop]; omega)
          have hd : (mem ++ after).drop (2 + len.toNat) = mem.drop (2 + len.toNat) ++ after := by
            rw [List.drop_append_of_le_length (by omega)]
          have hl : (mem.drop (2 + len.toNat)).length = mem.length - 2 - len.toNat := by rw [List.length_drop]; omega
          rw [hl] at e1 e2 e3
          refine ⟨r, ?_, ?_, fun l hl => ?_⟩
          · rw [extensionsLeft.eq_3 _ _ _ _ (by simp), if_neg h2, h1', Res.bind_ok, if_neg h3, h0', Res.bind_ok, hd, e1]
          · rw [extensionsLeft.eq_3 _ _ _ _ (by simp), if_neg h2, h1, Res.bind_ok, if_neg h3, h0, Res.bind_ok, e2]
          · obtain ⟨f1, es, f2, f3⟩ := e3 l hl
            have ht : ((mem ++ after).drop 2).take len.toNat = (mem.drop 2).take len.toNat := by
              rw [List.drop_append_of_le_length (by omega), List.take_append_of_le_length (by rw [List.length_drop]; omega)]
            refine ⟨by omega, (t + 1, (mem.drop 2).take len.toNat) :: es, ?_, ?_⟩
            · rw [readExtensions.eq_3 _ _ _ (by simp), h1', Res.bind_ok, h0', Res.bind_ok,
                if_neg (by rw [List.length_drop, List.length_append]; omega), hd, f2, ht]; rfl
            · rw [readExtensions.eq_3 _ _ _ (by simp), h1, Res.bind_ok, h0, Res.bind_ok,
                if_neg (by rw [List.length_drop]; omega), f3]; rfl

theorem parseHeaderSize_inside (data after : List UInt8) (h : 20 ≤ data.length) (hl : data.length < 4294967296) :
    ∃ n, parseHeaderSize data after = .ok n ∧ parseHeaderSize data [] = .ok n ∧
      (n = 0 ∨ 20 ≤ n ∧ n ≤ data.length ∧
        ∃ es, readExtensions data.length ((data ++ after).drop 20) (Header.read data).ext = .ok es ∧
          readExtensions data.length ((data ++ []).drop 20) (Header.read data).ext = .ok es) := by
  have ht := rd_eq_ok (l := data) (i := 1) (by omega)
  have he : (Header.read data).ext = data[1].toNat := by
    unfold Header.read
    simp only
    have : (data.drop 1).take 1 = [data[1]] := by
      rw [List.drop_eq_getElem_cons (by omega : 1 < data.length)]; rfl
    rw [this]
    simp [beVal]
  obtain ⟨r, e1, e2, e3⟩ := extensions_inside after data.length (data.drop 20) data[1].toNat (by rw [List.length_drop]; omega)
  have hd : (data ++ after).drop 20 = data.drop 20 ++ after := List.drop_append_of_le_length h
  rw [List.length_drop] at e1 e2 e3
  unfold parseHeaderSize
  rw [ht, Res.bind_ok, hd, e1, Res.bind_ok, List.append_nil, Res.bind_ok, e2, Res.bind_ok, he]
  cases r with
  | none => exact ⟨0, rfl, rfl, Or.inl rfl⟩
  | some l =>
    obtain ⟨f1, es, f2, f3⟩ := e3 l rfl
    exact ⟨_, rfl, rfl, Or.inr ⟨by omega, by omega, es, f2, f3⟩⟩

theorem header_length (h : Header) : h.bytes.length = 20 := by simp [Header.bytes, be16, be32]

/-- Extensions as written are read back. -/
theorem extensions_written (t : List UInt8) : ∀ (es : List (Nat × List UInt8)) (n : Nat), (∀ e ∈ es, e.1 ≠ 0 ∧ e.1 < 256 ∧ e.2.length < 256) →
    (extBytes es).length < n →
    extensionsLeft n (extBytes es ++ t) ((extBytes es).length + t.length) (firstExt es) = .ok (some t.length) ∧
      readExtensions n (extBytes es ++ t) (firstExt es) = .ok es := by
  intro es
  induction es with
  | nil =>
    intro n _ hn
    refine ⟨?_, ?_⟩
    · simp only [firstExt, extBytes, List.nil_append, List.length_nil, Nat.zero_add]
      unfold extensionsLeft
      cases n <;> rfl
    · simp only [firstExt]; unfold readExtensions; cases n <;> rfl
  | cons e es ih =>
    intro n h hn
    obtain ⟨n, rfl⟩ : ∃ m, n = m + 1 := ⟨n - 1, by omega⟩
    obtain ⟨h1, h2, h3⟩ := h e List.mem_cons_self
    have hb : extBytes (e :: es) = UInt8.ofNat (firstExt es) :: UInt8.ofNat e.2.length :: (e.2 ++ extBytes es) := by
      cases es with
      | nil => simp [extBytes, firstExt]
      | cons f es => simp [extBytes, firstExt]
    have hf : firstExt es < 256 := by
      cases es with
      | nil => simp [firstExt]
      | cons f es => exact (h f (by simp)).2.1
    have hlen : (extBytes (e :: es)).length = 2 + e.2.length + (extBytes es).length := by
      rw [hb]; simp only [List.length_cons, List.length_append]; omega
    have hlt : (UInt8.ofNat e.2.length).toNat = e.2.length := by rw [UInt8.toNat_ofNat']; omega
    have hft : (UInt8.ofNat (firstExt es)).toNat = firstExt es := by rw [UInt8.toNat_ofNat']; omega
    obtain ⟨i1, i2⟩ := ih n (fun f hf => h f (List.mem_cons_of_mem _ hf)) (by omega)
    have hd : (extBytes (e :: es) ++ t).drop (2 + e.2.length) = extBytes es ++ t := by
      rw [hb, List.cons_append, List.cons_append, show 2 + e.2.length = e.2.length + 1 + 1 by omega, List.drop_succ_cons, List.drop_succ_cons,
        List.append_assoc, List.drop_left' rfl]
    have hr1 : rd (extBytes (e :: es) ++ t) 1 = .ok (UInt8.ofNat e.2.length) := by rw [hb]; rfl
    have hr0 : rd (extBytes (e :: es) ++ t) 0 = .ok (UInt8.ofNat (firstExt es)) := by rw [hb]; rfl
    have hft' : firstExt (e :: es) = e.1 := rfl
    rw [hft']
    constructor
    · rw [extensionsLeft.eq_3 _ _ _ _ h1, if_neg (by omega), hr1, Res.bind_ok, hlt, if_neg (by omega), hr0, Res.bind_ok, hd, hft,
        show (extBytes (e :: es)).length + t.length - 2 - e.2.length = (extBytes es).length + t.length by omega, i1]
    · rw [readExtensions.eq_3 _ _ _ h1, hr1, Res.bind_ok, hr0, Res.bind_ok, hlt,
        if_neg (by rw [List.length_drop, List.length_append]; omega), hd, hft, i2]
      have : ((extBytes (e :: es) ++ t).drop 2).take e.2.length = e.2 := by
        rw [hb]; simp only [List.cons_append, List.drop_succ_cons, List.drop_zero, List.append_assoc]
        exact List.take_left' rfl
      rw [this]; rfl

end Verif.Utp
