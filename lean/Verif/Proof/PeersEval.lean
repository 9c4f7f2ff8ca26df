import Verif.Spec.PeersEval
/-! Which connections are closed. -/

namespace Verif.PeersEval
open Verif Spec.PeersEval

theorem minus_eq {a b : Nat} (h : b ≤ a) (ha : a < 18446744073709551616) : minus a b = a - b := by
  unfold minus; omega

/-- A connection of each kind. -/
def IsUpload (now : Nat) (p : Peer) : Bool := decide (Old now p) && decide (Idle now p) && p.interested
def IsIdle (now : Nat) (p : Peer) : Bool := decide (Old now p) && decide (Idle now p) && !p.interested
def IsActive (now : Nat) (p : Peer) : Bool := decide (Old now p) && !decide (Idle now p)

/-- `p` is not faster than `q`. -/
def NotFaster (p q : Peer) : Prop := p.downloadSpeed < q.downloadSpeed ∨ p.downloadSpeed = q.downloadSpeed ∧ p.downloaded ≤ q.downloaded

theorem look_eq {now : Nat} (h : 20 ≤ now) (hn : now < 18446744073709551616) (f : Found) (p : Peer) :
    (look now f p).idleUploads = f.idleUploads ++ (if IsUpload now p then [p] else []) ∧
    (look now f p).idlePeers = f.idlePeers ++ (if IsIdle now p then [p] else []) ∧
    (look now f p).slowest = if IsActive now p ∧ slower p f.slowest then some p else f.slowest := by
  unfold look IsUpload IsIdle IsActive Old Idle
  rw [minus_eq (by omega) hn, minus_eq h hn]
  by_cases h1 : p.connectionTime > now - 10 ∨ p.connectionTime = 0
  · rw [if_pos h1]
    have : ¬ (p.connectionTime ≠ 0 ∧ p.connectionTime + 10 ≤ now) := by omega
    simp [this]
  · rw [if_neg h1]
    have h1' : p.connectionTime ≠ 0 ∧ p.connectionTime + 10 ≤ now := by omega
    by_cases h2 : p.lastActivity < now - 20
    · have h2' : p.lastActivity + 20 < now := by omega
      rw [if_pos h2]
      cases p.interested <;> simp [h1', h2']
    · have h2' : ¬ p.lastActivity + 20 < now := by omega
      rw [if_neg h2]
      by_cases h3 : slower p f.slowest = true <;> simp [h1', h2', h3]

theorem found_eq {now : Nat} (h : 20 ≤ now) (hn : now < 18446744073709551616) (l : List Peer) : ∀ f : Found,
    (l.foldl (look now) f).idleUploads = f.idleUploads ++ l.filter (IsUpload now) ∧
    (l.foldl (look now) f).idlePeers = f.idlePeers ++ l.filter (IsIdle now) ∧
    (∀ p, (l.foldl (look now) f).slowest = some p →
      (f.slowest = some p ∨ p ∈ l ∧ IsActive now p = true) ∧
      (∀ q, f.slowest = some q → NotFaster p q) ∧ ∀ q ∈ l, IsActive now q = true → NotFaster p q) ∧
    ((l.foldl (look now) f).slowest = none → f.slowest = none ∧ ∀ q ∈ l, IsActive now q = false) := by
  induction l with
  | nil =>
    intro f
    refine ⟨by simp, by simp, ?_, ?_⟩
    · intro p hp
      refine ⟨Or.inl hp, ?_, by simp⟩
      intro q hq
      simp only [List.foldl_nil] at hp
      rw [hp] at hq
      simp only [Option.some.injEq] at hq
      rw [hq]; unfold NotFaster; omega
    · intro hp; exact ⟨hp, by simp⟩
  | cons x l ih =>
    intro f
    obtain ⟨a1, a2, a3⟩ := look_eq h hn f x
    obtain ⟨b1, b2, b3, b4⟩ := ih (look now f x)
    rw [List.foldl_cons]
    refine ⟨?_, ?_, ?_, ?_⟩
    · rw [b1, a1, List.filter_cons]; split <;> simp
    · rw [b2, a2, List.filter_cons]; split <;> simp
    · intro p hp
      obtain ⟨c1, c2, c3⟩ := b3 p hp
      rw [a3] at c1 c2
      by_cases hc : IsActive now x = true ∧ slower x f.slowest = true
      · rw [if_pos hc] at c1 c2
        have hpx := c2 x rfl
        refine ⟨?_, ?_, ?_⟩
        · rcases c1 with c1 | c1
          · simp only [Option.some.injEq] at c1
            right; rw [← c1]; exact ⟨by simp, hc.1⟩
          · right; exact ⟨List.mem_cons_of_mem _ c1.1, c1.2⟩
        · intro q hq
          have := hc.2
          rw [hq] at this
          simp only [slower, Bool.or_eq_true, decide_eq_true_eq, Bool.and_eq_true] at this
          unfold NotFaster at hpx ⊢; omega
        · intro q hq ha
          rcases List.mem_cons.1 hq with rfl | hq
          · exact hpx
          · exact c3 q hq ha
      · rw [if_neg hc] at c1 c2
        refine ⟨?_, c2, ?_⟩
        · rcases c1 with c1 | c1
          · exact Or.inl c1
          · right; exact ⟨List.mem_cons_of_mem _ c1.1, c1.2⟩
        · intro q hq ha
          rcases List.mem_cons.1 hq with rfl | hq
          · have hns : ¬ slower q f.slowest = true := fun hs => hc ⟨ha, hs⟩
            cases hf : f.slowest with
            | none => rw [hf] at hns; simp [slower] at hns
            | some y =>
              rw [hf] at hns
              have hpy := c2 y hf
              simp only [slower, Bool.or_eq_true, decide_eq_true_eq, Bool.and_eq_true] at hns
              unfold NotFaster at hpy ⊢; omega
          · exact c3 q hq ha
    · intro hp
      obtain ⟨c1, c2⟩ := b4 hp
      rw [a3] at c1
      by_cases hc : IsActive now x = true ∧ slower x f.slowest = true
      · rw [if_pos hc] at c1; simp at c1
      · rw [if_neg hc] at c1
        refine ⟨c1, ?_⟩
        intro q hq
        rcases List.mem_cons.1 hq with rfl | hq
        · rw [c1] at hc
          simp only [slower, and_true] at hc
          simpa using hc
        · exact c2 q hq

/-- The connections considered: all idle ones, and of the idle uploads all but five of the best. -/
theorem candidates_spec {su : List Peer → List Peer} (hs : Sorts Better su) {now : Nat} (h : 20 ≤ now) (hn : now < 18446744073709551616)
    (l : List Peer) :
    ∃ A B, candidates su (l.foldl (look now) {}) = l.filter (IsIdle now) ++ A ∧ (A ++ B).Perm (l.filter (IsUpload now)) ∧
      (A = [] ∨ B.length = 5) ∧ (A = [] → (l.filter (IsUpload now)).length ≤ 5) ∧ ∀ p ∈ A, ∀ q ∈ B, ¬ Better q p := by
  obtain ⟨b1, b2, -, -⟩ := found_eq h hn l {}
  simp only [List.nil_append] at b1 b2
  unfold candidates
  rw [b1, b2]
  by_cases hc : (l.filter (IsUpload now)).length > 5
  · rw [if_pos hc]
    obtain ⟨p1, p2⟩ := hs (l.filter (IsUpload now))
    refine ⟨_, (su (l.filter (IsUpload now))).drop ((l.filter (IsUpload now)).length - 5), rfl, ?_, Or.inr ?_, ?_, ?_⟩
    · rw [List.take_append_drop]; exact p1
    · rw [List.length_drop, p1.length_eq]; omega
    · intro h0
      have := congrArg List.length h0
      rw [List.length_take, p1.length_eq, List.length_nil] at this
      omega
    · intro p hp q hq
      rw [← List.take_append_drop ((l.filter (IsUpload now)).length - 5) (su (l.filter (IsUpload now)))] at p2
      exact (List.pairwise_append.1 p2).2.2 p hp q hq
  · rw [if_neg hc]
    exact ⟨[], l.filter (IsUpload now), by simp, by simp, Or.inl rfl, fun _ => by omega, by simp⟩

end Verif.PeersEval
