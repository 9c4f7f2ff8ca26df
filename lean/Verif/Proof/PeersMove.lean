import Verif.Proof.Peers
/-! Steps as moves. -/

namespace Verif.Peers
open Verif Net Spec.Peering

/-- The known peer of a connection after others came in. -/
def shift (pos n : Nat) (c : Conn) : Conn := if pos ≤ c.idx then { c with idx := c.idx + n } else c

/-- The small changes that events are made of. -/
inductive Move (e : Ev) : State → List Out → State → Prop
  | same {s s' : State} (hk : s'.known.map Known.bare = s.known.map Known.bare) (ha : s'.act = s.act) : Move e s [] s'
  | auto {s : State} {p : Known} {now max : Nat} {opens : Bool} (he : e = .next now max opens)
      (hp : s.known[s.cur]? = some p) (hr : ready now p = true) :
      Move e s [.dial p.addr now true] (dialAt s s.cur p.addr now opens)
  | manual {s : State} {p : Known} {i now : Nat} {a : Addr} {opens : Bool} (ha : a ∈ mentioned e) (ht : time e = some now)
      (ho : Opens e → opens = true) (hp : s.known[i]? = some p) (heq : p.addr.eq a = true) (hu : p.unwanted = false)
      (hact : active s a = false) : Move e s [.dial a now false] (dialAt s i a now opens)
  | add {s s' : State} {new : List Known} {pos : Nat} (hpos : pos ≤ s.known.length)
      (hk : s'.known = s.known.take pos ++ new ++ s.known.drop pos) (ha : s'.act = s.act.map (shift pos new.length))
      (hs : (new.map Known.addr).Sublist (mentioned e)) (hb : ∀ n ∈ new, n.bare = { addr := n.addr })
      (hnew : ∀ n ∈ new, ∀ k ∈ s.known, k.addr.eq n.addr = false) (hi : ∀ a, e ≠ .incoming a) : Move e s [] s'
  | incoming {s : State} {a : Addr} (he : e = .incoming a) : Move e s [] (incoming s a)
  | ban {s : State} {c : Conn} (hc : c ∈ s.act) :
      Move e s [.ban c.addr] { s with known := s.known.modify c.idx fun k => { k with unwanted := true } }
  | hand {s : State} {c : Conn} (hc : c ∈ s.act) :
      Move e s [] { s with known := s.known.modify c.idx fun k => { k with status := .connected } }
  | close {s : State} {c : Conn} {id now : Nat} (ht : time e = some now) (hc : s.act.find? (·.id == id) = some c) :
      Move e s [.gone c.addr now] { s with known := s.known.modify c.idx fun k => { k with status := .disconnected, last := now },
                                           act := s.act.eraseP (·.id == id) }
  | stop {s s' : State} {k : List Known} (hk : hangUp s.act s.known = .ok k) (hs : s'.known = k) (ha : s'.act = []) :
      Move e s [] s'

inductive Moves (e : Ev) : State → List Out → State → Prop
  | nil {s : State} : Moves e s [] s
  | cons {s s' s'' : State} {o o' : List Out} (h : Move e s o s') (t : Moves e s' o' s'') : Moves e s (o ++ o') s''

theorem Move.one {e : Ev} {s s' : State} {o : List Out} (h : Move e s o s') : Moves e s o s' := by
  have := Moves.cons h .nil
  rwa [List.append_nil] at this

theorem nextLoop_moves {now max : Nat} {opens : Bool} {n c : Nat} {s : State} {r : State × List Out}
    (h : nextLoop now opens n c s = .ok r) : Moves (.next now max opens) s r.2 r.1 := by
  induction n generalizing c s r with
  | zero => simp only [nextLoop] at h; cases h; exact .nil
  | succ n ih =>
    cases c with
    | zero => simp only [nextLoop] at h; cases h; exact .nil
    | succ c =>
      simp only [nextLoop] at h
      split at h
      · cases h
      · rename_i p hp
        split at h
        · rename_i hr
          obtain ⟨r', h1, h2⟩ := bindR h
          cases h2
          have hrest := ih h1
          have hadv : Move (.next now max opens) (dialAt s s.cur p.addr now opens) []
              (advance (dialAt s s.cur p.addr now opens)) := .same rfl rfl
          exact .cons (.auto rfl hp hr) (.cons hadv hrest)
        · have hadv : Move (.next now max opens) s [] (advance s) := .same rfl rfl
          exact .cons hadv (ih h)

theorem shift_none {l : List Conn} {pos n : Nat} (h : ∀ c ∈ l, c.idx < pos) : l.map (shift pos n) = l := by
  conv => rhs; rw [← List.map_id l]
  apply List.map_congr_left
  intro c hc
  have := h c hc
  simp only [shift, id]
  rw [if_neg (by omega)]

theorem connect_moves {e : Ev} {s : State} {a : Addr} {now : Nat} {opens : Bool} {r : State × List Out} (hw : Wf s)
    (ha : mentioned e = [a]) (ht : time e = some now) (ho : Opens e → opens = true) (hi : ∀ a, e ≠ .incoming a)
    (h : connect s a now opens = .ok r) : Moves e s r.2 r.1 := by
  unfold connect at h
  split at h
  · cases h; exact .nil
  · rename_i hc
    have hact : active s a = false := by
      simp only [Bool.or_eq_true, Bool.not_eq_true', not_or] at hc
      simpa using hc.2
    cases hf : find s.known a with
    | none =>
      rw [hf] at h
      simp only [List.getElem?_concat_length, Bool.false_eq_true, if_false] at h
      cases h
      refine .cons (o := []) (s' := { s with known := s.known ++ [{ addr := a }] })
        (.add (new := [{ addr := a }]) (pos := s.known.length) (Nat.le_refl _) ?_ ?_ ?_ ?_ ?_ hi) (Move.one ?_)
      · simp
      · exact (shift_none hw.idx).symm
      · simp [ha]
      · simp [Known.bare]
      · simpa using find_none hf
      · exact .manual (p := { addr := a }) (by simp [ha]) ht ho (by simp) (eq_of_same (Same.refl a)) rfl hact
    | some i =>
      obtain ⟨k, hk, he⟩ := find_some hf
      rw [hf] at h
      simp only [hk] at h
      split at h
      · cases h; exact .nil
      · rename_i hu
        cases h
        exact Move.one (.manual (by simp [ha]) ht ho hk he (by simpa using hu) hact)

theorem update_inv {s s' : State} {idx : Nat} {f : Known → Known} (h : update s idx f = .ok s') :
    s' = { s with known := s.known.modify idx f } := by
  unfold update at h
  split at h <;> cases h
  rfl

theorem step_moves {s : State} {e : Ev} {r : State × List Out} (hw : Wf s) (h : step s e = .ok r) :
    Moves e s r.2 r.1 := by
  obtain ⟨r1, r2⟩ := r
  cases e with
  | start => cases h; exact Move.one (.same rfl rfl)
  | stop =>
    obtain ⟨h1, h2⟩ := quiet_inv h
    obtain ⟨k, h3, h4⟩ := bindR' h1
    cases h4
    subst h2
    exact Move.one (.stop h3 rfl rfl)
  | startConnecting => cases h; exact Move.one (.same rfl rfl)
  | stopConnecting => cases h; exact Move.one (.same rfl rfl)
  | next now max opens =>
    simp only [step, connectNext] at h
    split at h
    · cases h; exact .nil
    · exact nextLoop_moves h
  | found first ps flags =>
    obtain ⟨h1, h2⟩ := quiet_inv h
    subst h2
    obtain ⟨⟨known, new⟩, h3, h4⟩ := bindR' h1
    obtain ⟨g1, g2, g3, g4⟩ := scan_spec h3
    have hl : known.length = s.known.length := by
      have := congrArg List.length g1
      simpa using this
    have g4' : ∀ n ∈ new, ∀ k ∈ known, k.addr.eq n.addr = false := by
      intro n hn k hk
      have : k.addr ∈ s.known.map Known.addr := by rw [← bare_addr g1]; exact List.mem_map_of_mem hk
      obtain ⟨k', hk', he⟩ := List.mem_map.mp this
      rw [← he]; exact g4 n hn k' hk'
    have hsame : Move (.found first ps flags) s [] { s with known := known } := .same g1 rfl
    dsimp only at h4
    split at h4
    · cases h4; exact Move.one hsame
    · split at h4
      · rename_i hc
        have hc0 : s.cur ≠ 0 := by
          simp only [Bool.and_eq_true, bne_iff_ne] at hc
          exact hc.2
        have hcur : s.cur < s.known.length := by
          rcases hw.cur with h | ⟨h, _⟩
          · exact h
          · exact absurd h hc0
        cases h4
        exact .cons (o := []) (o' := []) hsame
          (Move.one (.add (new := new) (pos := s.cur) (by simp [hl]; omega) rfl rfl g2 g3 g4' (by simp)))
      · cases h4
        refine .cons (o := []) (o' := []) hsame
          (Move.one (.add (new := new) (pos := known.length) (Nat.le_refl _) ?_ ?_ g2 g3 g4' (by simp)))
        · simp
        · exact (shift_none (by rw [hl]; exact hw.idx)).symm
  | connect a now opens =>
    exact connect_moves hw rfl rfl id (by simp) h
  | holepunch a now max opens =>
    simp only [step, holepunch] at h
    split at h
    · exact connect_moves hw rfl rfl id (by simp) h
    · cases h; exact .nil
  | incoming a => cases h; exact Move.one (.incoming rfl)
  | disconnect id unwanted =>
    simp only [step, disconnect] at h
    split at h
    · cases h; exact .nil
    · rename_i c hc
      split at h
      · obtain ⟨s', h1, h2⟩ := bindR' h
        cases h2
        cases update_inv h1
        exact Move.one (.ban (List.mem_of_find?_eq_some hc))
      · cases h; exact .nil
  | handshake id =>
    obtain ⟨h1, h2⟩ := quiet_inv h
    subst h2
    simp only [handshake] at h1
    split at h1
    · cases h1; exact .nil
    · rename_i c hc
      cases update_inv h1
      exact Move.one (.hand (List.mem_of_find?_eq_some hc))
  | closed id now =>
    simp only [step, closed] at h
    split at h
    · cases h; exact .nil
    · rename_i c hc
      obtain ⟨s', h1, h2⟩ := bindR' h
      cases h2
      cases update_inv h1
      exact Move.one (.close rfl hc)

/-- What every move keeps, a step keeps. -/
theorem Moves.keep {e : Ev} {I : State → List Out → Prop}
    (hm : ∀ s s' o tr, I s tr → Move e s o s' → I s' (tr ++ o)) {s s' : State} {o tr : List Out}
    (h : Moves e s o s') (hi : I s tr) : I s' (tr ++ o) := by
  induction h generalizing tr with
  | nil => simpa using hi
  | cons h1 _ ih => rw [← List.append_assoc]; exact ih (hm _ _ _ _ hi h1)

end Verif.Peers
