import Verif.Proof.Bencode

namespace Verif.Bencode
open Verif

/-- "d-4:" parses its own start again. -/
theorem loop_diverges (after : List UInt8) (n : Nat) (objs : List Obj) :
    internalParse ⟨ascii "d-4:" ++ after, 4⟩ n ⟨0, objs⟩ = .diverge := by
  induction n using Nat.strongRecOn generalizing objs with
  | _ n ih =>
    match n with
    | 0 => rfl
    | 1 => rfl
    | n + 2 =>
      have h1 : strtol ((ascii "d-4:" ++ after).drop 1) = .ok (-4, 2) := rfl
      have hd : dictLoop ⟨ascii "d-4:" ++ after, 4⟩ (n + 1) 0 ⟨1, objs ++ [{ type := .dictionary }]⟩ = .diverge := by
        unfold dictLoop
        have hn : notEnd ⟨ascii "d-4:" ++ after, 4⟩ 1 = .ok true := rfl
        have hs : parseString ⟨ascii "d-4:" ++ after, 4⟩ ⟨1, objs ++ [{ type := .dictionary }]⟩ =
            .ok (some (objs ++ [({ type := .dictionary } : Obj)]).length,
              ⟨0, objs ++ [{ type := .dictionary }] ++ [{ data := 4, size := -4, type := .text }]⟩) := by
          unfold parseString
          simp only
          rw [h1, Res.bind_ok]
          have h2 : rd (ascii "d-4:" ++ after) (1 + 2) = .ok (chr ':') := rfl
          rw [h2, Res.bind_ok]
          rfl
        rw [hn, Res.bind_ok, if_pos rfl, hs, Res.bind_ok]
        simp only
        rw [ih n (by omega)]
        rfl
      unfold internalParse
      have h0 : rd (ascii "d-4:" ++ after) 0 = .ok (chr 'd') := rfl
      rw [h0, Res.bind_ok, if_neg (by decide), if_neg (by decide), if_neg (by decide), if_pos rfl, hd]
      rfl

theorem notEnd_ok {e : Env} {p : Nat} {b : Bool} (h : notEnd e p = .ok b) :
    p < e.mem.length ∧ (e.bodyEnd ≤ p → b = false) := by
  unfold notEnd rd at h
  rcases Nat.lt_or_ge p e.mem.length with hp | hp
  · refine ⟨hp, fun hle => ?_⟩
    rw [List.getElem?_eq_getElem hp] at h
    simp only [Res.bind_ok, Res.pure_eq, Res.ok.injEq] at h
    rw [← h, decide_eq_false (by omega), Bool.and_false]
  · rw [List.getElem?_eq_none hp] at h; cases h

theorem finish_ok_reads {e : Env} {root count : Nat} {s : PSt} {r} (h : finish e root count s = .ok r) :
    s.pos + 1 < e.mem.length ∧ r.2.pos = s.pos + 1 ∧ r.1 = some root := by
  unfold finish at h
  generalize hn : notEnd e (s.pos + 1) = x at h
  cases x with
  | ub => cases h
  | diverge => cases h
  | ok b =>
    have := notEnd_ok hn
    simp only [Res.bind_ok, Res.pure_eq, Res.ok.injEq] at h
    subst h
    exact ⟨this.1, rfl, rfl⟩

/-- Unclosed nested lists: each level moves one byte further past the end. -/
theorem nested_reads (k : Nat) (after : List UInt8) (n : Nat) : ∀ j objs r, 0 < j → j ≤ k →
    internalParse ⟨List.replicate k (chr 'l') ++ after, k⟩ n ⟨k - j, objs⟩ = .ok r →
    r.2.pos = k + j ∧ j < after.length ∧ r.1 ≠ none := by
  induction n using Nat.strongRecOn with
  | _ n ih =>
    intro j objs r hj hjk h
    match n with
    | 0 => cases h
    | 1 =>
      have hl : rd (List.replicate k (chr 'l') ++ after) (k - j) = .ok (chr 'l') := by
        unfold rd; rw [List.getElem?_append_left (by simp; omega), List.getElem?_replicate_of_lt (by omega)]
      unfold internalParse at h
      simp only at h
      rw [hl, Res.bind_ok, if_neg (by decide), if_neg (by decide), if_pos rfl] at h
      cases h
    | n + 2 =>
      have hl : rd (List.replicate k (chr 'l') ++ after) (k - j) = .ok (chr 'l') := by
        unfold rd; rw [List.getElem?_append_left (by simp; omega), List.getElem?_replicate_of_lt (by omega)]
      unfold internalParse at h
      simp only at h
      rw [hl, Res.bind_ok, if_neg (by decide), if_neg (by decide), if_pos rfl] at h
      -- the loop ends at `k + j - 1`
      have key : ∀ x, listLoop ⟨List.replicate k (chr 'l') ++ after, k⟩ (n + 1) 0 ⟨k - j + 1, objs ++ [{ type := .list }]⟩ = .ok x →
          x.2.pos = k + j - 1 := by
        intro x hx
        have ends : ∀ m c (s : PSt) y, k ≤ s.pos → listLoop ⟨List.replicate k (chr 'l') ++ after, k⟩ m c s = .ok y → y.2 = s := by
          intro m c s y hs hy
          cases m with
          | zero => cases hy
          | succ m =>
            unfold listLoop at hy
            generalize hn : notEnd ⟨List.replicate k (chr 'l') ++ after, k⟩ s.pos = z at hy
            cases z with
            | ub => cases hy
            | diverge => cases hy
            | ok b =>
              have := (notEnd_ok hn).2 hs
              subst this
              simp only [Res.bind_ok, Bool.false_eq_true, if_false, Res.pure_eq, Res.ok.injEq] at hy
              rw [← hy]
        by_cases hj1 : j = 1
        · rw [ends _ _ _ _ (by simp only; omega) hx]; simp only; omega
        · unfold listLoop at hx
          have hl2 : notEnd ⟨List.replicate k (chr 'l') ++ after, k⟩ (k - j + 1) = .ok true := by
            unfold notEnd rd
            simp only
            rw [List.getElem?_append_left (by simp; omega), List.getElem?_replicate_of_lt (by omega)]
            simp only [Res.bind_ok, Res.pure_eq, Res.ok.injEq, Bool.and_eq_true, decide_eq_true_eq]
            exact ⟨by decide, by omega⟩
          rw [hl2, Res.bind_ok, if_pos rfl] at hx
          generalize hi : internalParse ⟨List.replicate k (chr 'l') ++ after, k⟩ n ⟨k - j + 1, objs ++ [{ type := .list }]⟩ = z at hx
          cases z with
          | ub => cases hx
          | diverge => cases hx
          | ok z =>
            rw [show k - j + 1 = k - (j - 1) by omega] at hi
            obtain ⟨e1, e2, e3⟩ := ih n (by omega) (j - 1) _ z (by omega) (by omega) hi
            obtain ⟨o, s⟩ := z
            simp only at e1 e3
            cases o with
            | none => exact absurd rfl e3
            | some i =>
              simp only [Res.bind_ok] at hx
              generalize hn : notEnd ⟨List.replicate k (chr 'l') ++ after, k⟩ s.pos = w at hx
              cases w with
              | ub => cases hx
              | diverge => cases hx
              | ok b =>
                simp only [Res.bind_ok] at hx
                rw [ends _ _ _ _ (by simp only; omega) hx]
                simp only; omega
      generalize hx : listLoop ⟨List.replicate k (chr 'l') ++ after, k⟩ (n + 1) 0 ⟨k - j + 1, objs ++ [{ type := .list }]⟩ = x at h
      cases x with
      | ub => cases h
      | diverge => cases h
      | ok x =>
        have hk := key x hx
        simp only [Res.bind_ok] at h
        obtain ⟨h1, h2, h3⟩ := finish_ok_reads h
        simp only [List.length_append, List.length_replicate] at h1
        refine ⟨by omega, by omega, by rw [h3]; simp⟩

end Verif.Bencode
