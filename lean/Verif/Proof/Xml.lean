import Verif.Spec.Xml
/-! Reading what was written. -/

namespace Verif.Xml
open Verif Bencode Spec.XmlTree

/-! ### Elements -/

theorem upd_append_left {X Y : List El} {k : Nat} {f : El → El} (h : k < X.length) : upd (X ++ Y) k f = upd X k f ++ Y := by
  unfold upd
  rw [List.getElem?_append_left h]
  rw [List.getElem?_eq_getElem h]
  simp [List.set_append_left _ _ h]

theorem upd_at (X : List El) (e : El) (Y : List El) (f : El → El) : upd (X ++ e :: Y) X.length f = X ++ f e :: Y := by
  unfold upd
  rw [List.getElem?_append_right (Nat.le_refl _)]
  simp

@[simp] theorem upd_length (X : List El) (k : Nat) (f : El → El) : (upd X k f).length = X.length := by
  unfold upd; split <;> simp

/-- The element of a piece of text. -/
def txt (v : List UInt8) : El := { name := v, kind := .string }

mutual
/-- The elements of a tree that is `d` deep. -/
def flat (d nx : Nat) : Tree → List El
  | .text n v => { name := n, kind := .node, hasValue := v ≠ [], next := nx } :: (if v = [] then [] else [txt v])
  | .cdata n v => [{ name := n, kind := .node, next := nx }, { name := v, kind := .cdata }]
  | .node n cs => { name := n, kind := .node, hasValue := true, next := nx, first := 2 } :: txt (indent (d + 1)) :: sibs (d + 1) cs ++ [txt (indent d)]
/-- The elements of siblings. -/
def sibs (d : Nat) : List Tree → List El
  | [] => []
  | c :: cs => flat d (if cs.isEmpty then 0 else c.count + 1) c ++ (if cs.isEmpty then [] else txt (indent d) :: sibs d cs)
end

mutual
theorem flat_length (d nx : Nat) : (t : Tree) → t.Good → (flat d nx t).length = t.count
  | .text n v, _ => by simp only [flat, Tree.count]; split <;> simp
  | .cdata n v, _ => by simp [flat, Tree.count]
  | .node n cs, h => by
    simp only [Tree.Good] at h
    have := sibs_length (d + 1) cs h.2.2 h.2.1
    simp only [flat, Tree.count, List.length_append, List.length_cons, List.length_nil]
    omega
theorem sibs_length (d : Nat) : (cs : List Tree) → goodKids cs → cs ≠ [] → (sibs d cs).length + 1 = countKids cs
  | [], _, h => absurd rfl h
  | [c], h, _ => by
    simp only [goodKids] at h
    simp [sibs, countKids, flat_length d _ c h.1]; omega
  | c :: c' :: cs, h, _ => by
    have h' := h
    rw [goodKids] at h
    have := sibs_length d (c' :: cs) h.2 (by simp)
    rw [sibs]
    simp [countKids, flat_length d _ c h.1] at *
    omega
end

/-! ### Single tags -/

theorem takeWhile_stop {p : UInt8 → Bool} {l r : List UInt8} {c : UInt8} (h : ∀ x ∈ l, p x = true) (hc : p c = false) :
    (l ++ c :: r).takeWhile p = l := by
  induction l with
  | nil => simp [hc]
  | cons x l ih => simp [h x (by simp), ih (fun y hy => h y (by simp [hy]))]

theorem dropWhile_stop {p : UInt8 → Bool} {l r : List UInt8} {c : UInt8} (h : ∀ x ∈ l, p x = true) (hc : p c = false) :
    (l ++ c :: r).dropWhile p = c :: r := by
  induction l with
  | nil => simp [hc]
  | cons x l ih => simp [h x (by simp), ih (fun y hy => h y (by simp [hy]))]

theorem takeWhile_all' {p : UInt8 → Bool} {l : List UInt8} (h : ∀ x ∈ l, p x = true) : l.takeWhile p = l := by
  induction l with
  | nil => rfl
  | cons x l ih => simp [h x (by simp), ih (fun y hy => h y (by simp [hy]))]

theorem dropWhile_all' {p : UInt8 → Bool} {l : List UInt8} (h : ∀ x ∈ l, p x = true) : l.dropWhile p = [] := by
  induction l with
  | nil => rfl
  | cons x l ih => simp [h x (by simp), ih (fun y hy => h y (by simp [hy]))]

/-- What a letter is not. -/
theorem letter {c : UInt8} (h : (65 ≤ c.toNat ∧ c.toNat ≤ 90) ∨ (97 ≤ c.toNat ∧ c.toNat ≤ 122)) :
    c ≠ chr '<' ∧ c ≠ chr '>' ∧ c ≠ chr '/' ∧ c ≠ chr '?' ∧ c ≠ chr '!' ∧ isSpace c = false := by
  have e : chr '<' = 60 ∧ chr '>' = 62 ∧ chr '/' = 47 ∧ chr '?' = 63 ∧ chr '!' = 33 := by decide
  obtain ⟨e1, e2, e3, e4, e5⟩ := e
  refine ⟨?_, ?_, ?_, ?_, ?_, ?_⟩
  · rintro rfl; rw [e1] at h; revert h; decide
  · rintro rfl; rw [e2] at h; revert h; decide
  · rintro rfl; rw [e3] at h; revert h; decide
  · rintro rfl; rw [e4] at h; revert h; decide
  · rintro rfl; rw [e5] at h; revert h; decide
  · unfold isSpace
    simp
    omega

theorem tag_open {s : St} {n : List UInt8} (h : GoodName n) : tag s n = some (openTag s n) := by
  obtain ⟨h0, h⟩ := h
  have sp : ∀ x ∈ n, (!isSpace x) = true := fun x hx => by simp [(letter (h x hx)).2.2.2.2.2]
  cases n with
  | nil => exact absurd rfl h0
  | cons c n =>
    have hc := letter (h c (by simp))
    have hl : (c :: n).getLast? ≠ some (chr '/') := by
      intro e
      exact (letter (h _ (List.mem_of_getLast? e))).2.2.1 rfl
    unfold tag
    simp only [takeWhile_all' sp, dropWhile_all' sp]
    rw [if_neg (by simp [hc.2.2.1]), if_neg (by simp [hl, hc.2.2.2.1]), if_neg (by
      intro ⟨_, e, _⟩
      have : c = chr '!' := by
        have := congrArg List.head? e
        simpa [ascii, chr] using this
      exact hc.2.2.2.2.1 this)]
    simp [attrs, addAttrs]

theorem tag_close {s : St} {n : List UInt8} (h : GoodName n) : tag s (chr '/' :: n) = some (closeTag s) := by
  obtain ⟨h0, h⟩ := h
  have sp : ∀ x ∈ chr '/' :: n, (!isSpace x) = true := by
    intro x hx
    rcases List.mem_cons.1 hx with rfl | hx
    · decide
    · simp [(letter (h x hx)).2.2.2.2.2]
  unfold tag
  simp only [takeWhile_all' sp, dropWhile_all' sp]
  rw [if_pos (by simp)]
  simp [attrs, addAttrs]

theorem noCdata {c : UInt8} {l : List UInt8} (h : c ≠ chr '!') : ¬ ((c :: l).take 8 = ascii "![CDATA[" ∧ 8 < (c :: l).length) := by
  intro ⟨e, _⟩
  have := congrArg List.head? e
  exact h (by simpa [ascii, chr] using this)

theorem loop_tag {m : Nat} {s s' : St} {pre t rest : List UInt8} (hp : chr '<' ∉ pre) (ht : chr '>' ∉ t)
    (h1 : t.head? ≠ some (chr '!')) (ht0 : t ≠ []) (h : tag (text s pre) t = some s') :
    loop (m + 1) s (pre ++ chr '<' :: (t ++ chr '>' :: rest)) = loop m s' rest := by
  have p1 : ∀ x ∈ pre, (fun c => c != chr '<') x = true := fun x hx => by
    simp only [bne_iff_ne]; rintro rfl; exact hp hx
  have p2 : ∀ x ∈ t, (fun c => c != chr '>') x = true := fun x hx => by
    simp only [bne_iff_ne]; rintro rfl; exact ht hx
  rw [loop]
  simp only [takeWhile_stop (r := t ++ chr '>' :: rest) p1 (show (chr '<' != chr '<') = false by simp), dropWhile_stop (r := t ++ chr '>' :: rest) p1 (show (chr '<' != chr '<') = false by simp)]
  cases t with
  | nil => exact absurd rfl ht0
  | cons c t =>
    rw [if_neg (show ¬ (List.take 8 (c :: t ++ chr '>' :: rest) = ascii "![CDATA[" ∧ 8 < (c :: t ++ chr '>' :: rest).length) from
      noCdata (l := t ++ chr '>' :: rest) (by simpa using h1))]
    simp only [takeWhile_stop (r := rest) p2 (show (chr '>' != chr '>') = false by simp), dropWhile_stop (r := rest) p2 (show (chr '>' != chr '>') = false by simp), h]

theorem loop_open {m : Nat} {s : St} {pre n rest : List UInt8} (hp : chr '<' ∉ pre) (hn : GoodName n) :
    loop (m + 1) s (pre ++ chr '<' :: (n ++ chr '>' :: rest)) = loop m (openTag (text s pre) n) rest :=
  loop_tag hp (fun h => (letter (hn.2 _ h)).2.1 rfl)
    (by intro e; exact (letter (hn.2 _ (List.mem_of_head? e))).2.2.2.2.1 rfl) hn.1 (tag_open hn)

theorem loop_close {m : Nat} {s : St} {pre n rest : List UInt8} (hp : chr '<' ∉ pre) (hn : GoodName n) :
    loop (m + 1) s (pre ++ chr '<' :: chr '/' :: (n ++ chr '>' :: rest)) = loop m (closeTag (text s pre)) rest :=
  loop_tag (t := chr '/' :: n) hp
    (by intro h; rcases List.mem_cons.1 h with h | h
        · exact absurd h (by decide)
        · exact (letter (hn.2 _ h)).2.1 rfl)
    (by simp; decide) (by simp) (tag_close hn)

theorem cdata_found (v rest : List UInt8) (h : ¬ ascii "]]>" <:+: v) : cdata (v ++ ascii "]]>" ++ rest) = some (v, rest) := by
  have e : ascii "]]>" = [chr ']', chr ']', chr '>'] := by decide
  have e' := e
  rw [e]
  induction v with
  | nil => simp [cdata]
  | cons c v ih =>
    rw [List.cons_append, List.cons_append, cdata, if_neg, ih]
    · rfl
    · intro h'; exact h (h'.trans (List.suffix_cons _ _).isInfix)
    · intro ⟨h1, h2⟩
      subst h1
      match v, h, h2 with
      | [], _, h2 => revert h2; simp; decide
      | [x], _, h2 =>
        simp at h2; exact absurd h2.2 (by decide)
      | x :: y :: v, h, h2 =>
        simp at h2
        apply h
        obtain ⟨rfl, rfl⟩ := h2
        exact ⟨[], v, by rw [e']; simp⟩

theorem loop_cdata {m : Nat} {s : St} {v rest : List UInt8} (h : ¬ ascii "]]>" <:+: v) :
    loop (m + 1) s (ascii "<![CDATA[" ++ v ++ ascii "]]>" ++ rest) = loop m { s with els := s.els ++ [{ name := v, kind := .cdata }] } rest := by
  have e : ascii "<![CDATA[" = chr '<' :: ascii "![CDATA[" := by decide
  have l8 : (ascii "![CDATA[").length = 8 := by decide
  rw [e, loop]
  simp only [List.cons_append, List.takeWhile_cons, List.dropWhile_cons, bne_self_eq_false, Bool.false_eq_true, if_false]
  rw [if_pos]
  · rw [List.append_assoc, List.append_assoc, List.drop_append_of_le_length (by rw [l8]; exact Nat.le_refl _), List.drop_of_length_le (by rw [l8]; exact Nat.le_refl _)]
    rw [List.nil_append, ← List.append_assoc, cdata_found v rest h]
    simp [text]
  · constructor
    · rw [List.append_assoc, List.append_assoc, List.take_append_of_le_length (by rw [l8]; exact Nat.le_refl _), List.take_of_length_le (by rw [l8]; exact Nat.le_refl _)]
    · simp [ascii]; omega

/-! ### Trees -/

/-- What opening a child does to the elements before it. -/
def link (B : List El) (p prev : Nat) : List El :=
  let B1 := upd B p fun e => { e with hasValue := true }
  let B2 := if prev = 0 then B1 else upd B1 prev fun e => { e with next := (B.length + 1 - prev) % 65536 }
  upd B2 p fun e => if e.first = 0 then { e with first := (B.length + 1 - p) % 65536 } else e

@[simp] theorem link_length (B : List El) (p prev : Nat) : (link B p prev).length = B.length := by
  unfold link; simp only; split <;> simp

theorem indent_ok (d : Nat) : chr '<' ∉ indent d ∧ indent d ≠ [] := by
  constructor
  · intro h
    rcases List.mem_cons.1 h with h | h
    · exact absurd h (by decide)
    · exact absurd (List.eq_of_mem_replicate h) (by decide)
  · simp [indent]

theorem open_child {B : List El} {p prev : Nat} {st : List Nat} {d : Nat} {n : List UInt8} (hp : p < B.length) (hv : prev < B.length) :
    openTag (text ⟨B, p :: st, prev⟩ (indent d)) n
      = ⟨link B p prev ++ [txt (indent d), { name := n, kind := .node }], (B.length + 1) :: p :: st, 0⟩ := by
  unfold text
  rw [if_neg (indent_ok d).2]
  unfold openTag link
  simp only [List.length_append, upd_length, List.length_cons, List.length_nil]
  by_cases h0 : prev = 0
  · simp only [h0, if_true]
    rw [upd_append_left (by simpa using hp)]
    simp [txt]
  · simp only [h0, if_false]
    rw [upd_append_left (by simpa using hv), upd_append_left (by simpa using hp)]
    simp [txt]

/-- The reading goes on from one state to another, with fuel for at most that many bytes. -/
def Reads (s : St) (l : List UInt8) (s' : St) : Prop :=
  ∃ k, k ≤ l.length ∧ ∀ m rest, loop (k + m) s (l ++ rest) = loop m s' rest

theorem Reads.trans {s s' s'' : St} {l l' : List UInt8} (h : Reads s l s') (h' : Reads s' l' s'') : Reads s (l ++ l') s'' := by
  obtain ⟨k, hk, h⟩ := h
  obtain ⟨k', hk', h'⟩ := h'
  refine ⟨k + k', by simp; omega, fun m rest => ?_⟩
  rw [Nat.add_assoc, List.append_assoc, h, h']

theorem reads_open {s : St} {pre n : List UInt8} (hp : chr '<' ∉ pre) (hn : GoodName n) :
    Reads s (pre ++ chr '<' :: n ++ [chr '>']) (openTag (text s pre) n) := by
  refine ⟨1, by simp; omega, fun m rest => ?_⟩
  rw [Nat.add_comm]
  simpa using loop_open (m := m) (rest := rest) (s := s) hp hn

theorem reads_close {s : St} {pre n : List UInt8} (hp : chr '<' ∉ pre) (hn : GoodName n) :
    Reads s (pre ++ chr '<' :: chr '/' :: n ++ [chr '>']) (closeTag (text s pre)) := by
  refine ⟨1, by simp; omega, fun m rest => ?_⟩
  rw [Nat.add_comm]
  simpa using loop_close (m := m) (rest := rest) (s := s) hp hn

theorem reads_cdata {s : St} {v : List UInt8} (h : ¬ ascii "]]>" <:+: v) :
    Reads s (ascii "<![CDATA[" ++ v ++ ascii "]]>") { s with els := s.els ++ [{ name := v, kind := .cdata }] } := by
  refine ⟨1, by simp [ascii], fun m rest => ?_⟩
  rw [Nat.add_comm]
  exact loop_cdata (m := m) (rest := rest) (s := s) h

/-- The link to the next sibling, when the parent has children. -/
theorem link_more {X : List El} {hd : El} {Z : List El} {h : El} {Y : List El} (h1 : hd.hasValue = true) (h2 : hd.first ≠ 0)
    (hY : Y.length + 2 < 65536) :
    link (X ++ hd :: Z ++ h :: Y) X.length (X.length + 1 + Z.length) = X ++ hd :: Z ++ { h with next := Y.length + 2 } :: Y := by
  unfold link
  have hh : ({ hd with hasValue := true } : El) = hd := by cases hd; simp_all
  have e1 : ∀ W, upd (X ++ hd :: W) X.length (fun e => { e with hasValue := true }) = X ++ hd :: W := fun W => by rw [upd_at, hh]
  have e2 : ∀ W q, upd (X ++ hd :: W) X.length (fun e => if e.first = 0 then { e with first := q } else e) = X ++ hd :: W := fun W q => by
    rw [upd_at]; simp [h2]
  have e3 : X.length + 1 + Z.length = (X ++ hd :: Z).length := by simp; omega
  simp only [List.append_assoc, List.cons_append, e1]
  rw [if_neg (by omega)]
  have e4 := upd_at (X ++ hd :: Z) h Y (fun e => { e with next := ((X ++ hd :: (Z ++ h :: Y)).length + 1 - (X.length + 1 + Z.length)) % 65536 })
  rw [← e3] at e4
  simp only [List.append_assoc, List.cons_append] at e4
  rw [e4, e2]
  have : ((X ++ hd :: (Z ++ h :: Y)).length + 1 - (X.length + 1 + Z.length)) % 65536 = Y.length + 2 := by
    simp only [List.length_append, List.length_cons]
    omega
  rw [this]

theorem link_first {X : List El} {n : List UInt8} :
    link (X ++ [{ name := n, kind := .node }]) X.length 0 = X ++ [{ name := n, kind := .node, hasValue := true, first := 2 }] := by
  unfold link
  simp only [if_true, upd_at]
  have : (X ++ [({ name := n, kind := .node } : El)]).length + 1 - X.length = 2 := by simp; omega
  rw [this]

theorem flat_cons (d nx : Nat) (t : Tree) : ∃ h Y, flat d nx t = h :: Y ∧ ∀ nx', flat d nx' t = { h with next := nx' } :: Y := by
  cases t <;> simp only [flat, List.cons_append] <;> exact ⟨_, _, rfl, fun _ => rfl⟩

theorem sibs_more (d : Nat) (c c' : Tree) (cs : List Tree) :
    sibs d (c :: c' :: cs) = flat d (c.count + 1) c ++ txt (indent d) :: sibs d (c' :: cs) := by
  rw [sibs]; simp

theorem sibs_one (d : Nat) (c : Tree) : sibs d [c] = flat d 0 c := by
  rw [sibs]; simp

mutual
theorem reads_child (d : Nat) : (t : Tree) → t.Good → t.count < 65536 → (B : List El) → (p prev : Nat) → (st : List Nat) →
    p < B.length → prev < B.length →
    Reads ⟨B, p :: st, prev⟩ (indent d ++ t.write d) ⟨link B p prev ++ txt (indent d) :: flat d 0 t, p :: st, B.length + 1⟩
  | .text n v, hg, _, B, p, prev, st, hp, hv => by
    simp only [Tree.Good] at hg
    have h1 := reads_open (s := ⟨B, p :: st, prev⟩) (indent_ok d).1 hg.1
    rw [open_child hp hv] at h1
    have h2 := reads_close (s := ⟨link B p prev ++ [txt (indent d), { name := n, kind := .node }], (B.length + 1) :: p :: st, 0⟩) hg.2 hg.1
    have h := h1.trans h2
    have e : closeTag (text ⟨link B p prev ++ [txt (indent d), { name := n, kind := .node }], (B.length + 1) :: p :: st, 0⟩ v)
        = ⟨link B p prev ++ txt (indent d) :: flat d 0 (.text n v), p :: st, B.length + 1⟩ := by
      unfold text
      by_cases hv0 : v = []
      · rw [if_pos hv0]; simp [closeTag, flat, hv0]
      · rw [if_neg hv0]
        have := upd_at (link B p prev ++ [txt (indent d)]) { name := n, kind := .node } [] (fun e => { e with hasValue := true })
        simp only [List.append_assoc, List.cons_append, List.nil_append, List.length_append, link_length, List.length_cons, List.length_nil, Nat.zero_add] at this
        simp only [closeTag, this]
        simp [flat, hv0, txt]
    rw [e] at h
    simpa [Tree.write] using h
  | .cdata n v, hg, _, B, p, prev, st, hp, hv => by
    simp only [Tree.Good] at hg
    have h1 := reads_open (s := ⟨B, p :: st, prev⟩) (indent_ok d).1 hg.1
    rw [open_child hp hv] at h1
    have h2 := reads_cdata (s := ⟨link B p prev ++ [txt (indent d), { name := n, kind := .node }], (B.length + 1) :: p :: st, 0⟩) hg.2
    have h3 := reads_close (pre := []) (s := { (⟨link B p prev ++ [txt (indent d), { name := n, kind := .node }], (B.length + 1) :: p :: st, 0⟩ : St) with
      els := (link B p prev ++ [txt (indent d), { name := n, kind := .node }]) ++ [{ name := v, kind := .cdata }] }) (by simp) hg.1
    have h := (h1.trans h2).trans h3
    simpa [Tree.write, text, closeTag, flat] using h
  | .node n cs, hg, hc, B, p, prev, st, hp, hv => by
    simp only [Tree.Good] at hg
    simp only [Tree.count] at hc
    have h1 := reads_open (s := ⟨B, p :: st, prev⟩) (indent_ok d).1 hg.1
    rw [open_child hp hv] at h1
    have h2 := reads_kids (d + 1) cs hg.2.2 (by omega) hg.2.1 (link B p prev ++ [txt (indent d)]) n (p :: st)
    simp only [List.length_append, link_length, List.length_cons, List.length_nil, Nat.zero_add] at h2
    obtain ⟨prev', h2⟩ := h2
    have h3 := reads_close (pre := indent d) (n := n) (s := ⟨link B p prev ++ [txt (indent d)] ++ { name := n, kind := .node, hasValue := true, first := 2 } :: txt (indent (d + 1)) :: sibs (d + 1) cs, (B.length + 1) :: p :: st, prev'⟩)
      (indent_ok d).1 hg.1
    rw [List.append_assoc] at h2
    have h := (h1.trans h2).trans h3
    have e : closeTag (text ⟨link B p prev ++ [txt (indent d)] ++ { name := n, kind := .node, hasValue := true, first := 2 } :: txt (indent (d + 1)) :: sibs (d + 1) cs, (B.length + 1) :: p :: st, prev'⟩ (indent d))
        = ⟨link B p prev ++ txt (indent d) :: flat d 0 (.node n cs), p :: st, B.length + 1⟩ := by
      unfold text
      rw [if_neg (indent_ok d).2]
      have := upd_at (link B p prev ++ [txt (indent d)]) { name := n, kind := .node, hasValue := true, first := 2 } (txt (indent (d + 1)) :: sibs (d + 1) cs) (fun e => { e with hasValue := true })
      simp only [List.length_append, link_length, List.length_cons, List.length_nil, Nat.zero_add] at this
      simp only [closeTag, this]
      simp [flat, txt]
    rw [e] at h
    simpa [Tree.write, indent] using h
theorem reads_kids (d : Nat) : (cs : List Tree) → goodKids cs → countKids cs < 65536 → cs ≠ [] → (X : List El) → (n : List UInt8) → (st : List Nat) →
    ∃ prev, Reads ⟨X ++ [{ name := n, kind := .node }], X.length :: st, 0⟩ (writeKids d cs)
      ⟨X ++ { name := n, kind := .node, hasValue := true, first := 2 } :: txt (indent d) :: sibs d cs, X.length :: st, prev⟩
  | [], _, _, h, _, _, _ => absurd rfl h
  | c :: cs, hg, hc, _, X, n, st => by
    simp only [goodKids] at hg
    simp only [countKids] at hc
    have h1 := reads_child d c hg.1 (by omega) (X ++ [{ name := n, kind := .node }]) X.length 0 st (by simp) (by simp)
    rw [link_first] at h1
    have h2 := reads_more d cs hg.2 c hg.1 (by omega) X { name := n, kind := .node, hasValue := true, first := 2 } [txt (indent d)] st rfl (by simp)
    obtain ⟨prev, h2⟩ := h2
    refine ⟨prev, ?_⟩
    have e : (X ++ [({ name := n, kind := .node } : El)]).length + 1 = X.length + 1 + [txt (indent d)].length := by simp
    rw [e] at h1
    simp only [List.append_assoc, List.cons_append, List.nil_append] at h1 h2
    have h := h1.trans h2
    simpa [writeKids, indent] using h
theorem reads_more (d : Nat) : (cs : List Tree) → goodKids cs → (c : Tree) → c.Good → c.count + countKids cs + 1 < 65536 →
    (X : List El) → (hd : El) → (Z : List El) → (st : List Nat) → hd.hasValue = true → hd.first ≠ 0 →
    ∃ prev, Reads ⟨X ++ hd :: Z ++ flat d 0 c, X.length :: st, X.length + 1 + Z.length⟩ (writeKids d cs)
      ⟨X ++ hd :: Z ++ sibs d (c :: cs), X.length :: st, prev⟩
  | [], _, c, _, _, X, hd, Z, st, _, _ => by
    refine ⟨X.length + 1 + Z.length, 0, by simp, fun m rest => ?_⟩
    rw [sibs_one]; simp [writeKids]
  | c' :: cs, hg, c, hgc, hc, X, hd, Z, st, h1, h2 => by
    simp only [goodKids] at hg
    simp only [countKids] at hc
    obtain ⟨h, Y, e, e'⟩ := flat_cons d 0 c
    have hl := flat_length d 0 c hgc
    rw [e, List.length_cons] at hl
    have h1' := reads_child d c' hg.1 (by omega) (X ++ hd :: Z ++ flat d 0 c) X.length (X.length + 1 + Z.length) st (by simp) (by rw [e]; simp; omega)
    rw [e, link_more h1 h2 (by omega)] at h1'
    rw [show Y.length + 2 = c.count + 1 by omega, ← e' (c.count + 1), ← e] at h1'
    obtain ⟨prev, h3⟩ := reads_more d cs hg.2 c' hg.1 (by omega) X hd (Z ++ flat d (c.count + 1) c ++ [txt (indent d)]) st h1 h2
    refine ⟨prev, ?_⟩
    have el : (X ++ hd :: Z ++ flat d 0 c).length + 1 = X.length + 1 + (Z ++ flat d (c.count + 1) c ++ [txt (indent d)]).length := by
      simp only [List.length_append, List.length_cons, List.length_nil, flat_length d _ c hgc]; omega
    rw [el] at h1'
    simp only [List.append_assoc, List.cons_append, List.nil_append] at h1' h3
    have h := h1'.trans h3
    rw [sibs_more]
    simpa [writeKids, indent] using h
end

/-- The elements of a document with text around it. -/
theorem parse_around (n : List UInt8) (cs : List Tree) (hg : (Tree.node n cs).Good) (hc : (Tree.node n cs).count < 65536)
    {pre post : List UInt8} (hpre : chr '<' ∉ pre) (hpost : chr '<' ∉ post) :
    parse (pre ++ (Tree.node n cs).write 0 ++ post) = .ok (some (flat 0 0 (.node n cs))) := by
  simp only [Tree.Good] at hg
  simp only [Tree.count] at hc
  have h1 := reads_open (s := {}) (pre := pre) hpre hg.1
  have e0 : text {} pre = {} := by unfold text; split <;> rfl
  have e1 : openTag (text {} pre) n = ⟨[] ++ [{ name := n, kind := .node }], [([] : List El).length], 0⟩ := by rw [e0]; simp [openTag]
  rw [e1] at h1
  obtain ⟨prev, h2⟩ := reads_kids 1 cs hg.2.2 (by omega) hg.2.1 [] n []
  have h3 := reads_close (pre := indent 0) (n := n) (s := ⟨[] ++ { name := n, kind := .node, hasValue := true, first := 2 } :: txt (indent 1) :: sibs 1 cs, [([] : List El).length], prev⟩) (indent_ok 0).1 hg.1
  have h := (h1.trans h2).trans h3
  obtain ⟨k, hk, h⟩ := h
  have el : (pre ++ chr '<' :: n ++ [chr '>'] ++ writeKids 1 cs ++ (indent 0 ++ chr '<' :: chr '/' :: n ++ [chr '>'])) = pre ++ (Tree.node n cs).write 0 := by
    simp [Tree.write, indent]
  rw [el] at h hk
  have h := h ((pre ++ (Tree.node n cs).write 0 ++ post).length + 1 - k) post
  have hl : (pre ++ (Tree.node n cs).write 0).length ≤ (pre ++ (Tree.node n cs).write 0 ++ post).length := by
    rw [List.length_append (bs := post)]; omega
  unfold parse
  rw [show k + ((pre ++ (Tree.node n cs).write 0 ++ post).length + 1 - k) = (pre ++ (Tree.node n cs).write 0 ++ post).length + 1 by omega] at h
  rw [h]
  rw [show (pre ++ (Tree.node n cs).write 0 ++ post).length + 1 - k = ((pre ++ (Tree.node n cs).write 0 ++ post).length - k) + 1 by omega]
  have e2 : closeTag (text ⟨[] ++ { name := n, kind := .node, hasValue := true, first := 2 } :: txt (indent 1) :: sibs 1 cs, [([] : List El).length], prev⟩ (indent 0))
      = ⟨flat 0 0 (.node n cs), [], 0⟩ := by
    unfold text
    rw [if_neg (indent_ok 0).2]
    simp [closeTag, flat, upd, txt]
  have e3 : post.dropWhile (fun c => c != chr '<') = [] := by
    clear hl h
    induction post with
    | nil => rfl
    | cons c post ih =>
      have hne : c ≠ chr '<' := fun hh => hpost (hh ▸ List.mem_cons_self)
      rw [List.dropWhile_cons_of_pos (by simpa using hne)]
      exact ih fun hm => hpost (List.mem_cons_of_mem _ hm)
  have e4 : ∀ t, text ⟨flat 0 0 (.node n cs), [], 0⟩ t = ⟨flat 0 0 (.node n cs), [], 0⟩ := by intro t; unfold text; split <;> rfl
  rw [e2, loop]
  simp only [e3, e4, Res.bind]
  simp [flat]

/-- The elements of a document. -/
theorem parse_tree (n : List UInt8) (cs : List Tree) (hg : (Tree.node n cs).Good) (hc : (Tree.node n cs).count < 65536) :
    parse ((Tree.node n cs).write 0) = .ok (some (flat 0 0 (.node n cs))) := by
  have := parse_around n cs hg hc (pre := []) (post := []) (by simp) (by simp)
  simpa using this

/-! ### Looking at the elements -/

/-- Siblings, from one of them on, with its index. -/
def AtKids (els : List El) (k : Nat) (cs : List Tree) : Prop :=
  ∃ d A w C, els = A ++ sibs d cs ++ txt w :: C ∧ k = A.length

theorem rd_mid (A : List El) (e : El) (C : List El) : rd (A ++ e :: C) A.length = .ok e := by
  simp [rd]

theorem flat_head (d nx : Nat) (t : Tree) : ∃ h Y, flat d nx t = h :: Y ∧ h.name = t.name ∧ h.next = nx := by
  cases t <;> simp only [flat, List.cons_append] <;> exact ⟨_, _, rfl, rfl, rfl⟩

/-- The next sibling. -/
theorem at_next {els : List El} {k : Nat} {c : Tree} {cs : List Tree} (hg : c.Good) (h : AtKids els k (c :: cs)) :
    ∃ e, rd els k = .ok e ∧ e.name = c.name ∧ (cs = [] → e.next = 0) ∧ (cs ≠ [] → e.next ≠ 0 ∧ AtKids els (k + e.next) cs) := by
  obtain ⟨d, A, w, C, rfl, rfl⟩ := h
  cases cs with
  | nil =>
    rw [sibs_one]
    obtain ⟨h, Y, e, hn, hx⟩ := flat_head d 0 c
    rw [e]
    refine ⟨h, ?_, hn, fun _ => hx, fun h => absurd rfl h⟩
    have := rd_mid A h (Y ++ txt w :: C)
    simpa using this
  | cons c' cs =>
    rw [sibs_more]
    obtain ⟨h, Y, e, hn, hx⟩ := flat_head d (c.count + 1) c
    refine ⟨h, ?_, hn, (fun h => absurd h (by simp)), fun _ => ⟨by omega, d, A ++ flat d (c.count + 1) c ++ [txt (indent d)], w, C, by simp, ?_⟩⟩
    · rw [e]
      have := rd_mid A h (Y ++ txt (indent d) :: sibs d (c' :: cs) ++ txt w :: C)
      simpa using this
    · rw [hx]; simp [flat_length d _ c hg]

/-- Searching among siblings. -/
theorem search_at {els : List El} {name : List UInt8} : (cs : List Tree) → goodKids cs → (k m : Nat) → cs.length ≤ m →
    (cs ≠ [] → AtKids els k cs) →
    (cs.dropWhile (fun c => c.name ≠ name) = [] → search els name m (if cs = [] then none else some k) = .ok none) ∧
    (∀ c ds, cs.dropWhile (fun c => c.name ≠ name) = c :: ds →
      ∃ j, search els name m (if cs = [] then none else some k) = .ok (some j) ∧ AtKids els j (c :: ds))
  | [], _, _, m, _, _ => by
    refine ⟨fun _ => by cases m <;> simp [search], fun c ds h => by simp at h⟩
  | c :: cs, hg, k, 0, hm, _ => by simp at hm
  | c :: cs, hg, k, m + 1, hm, ha => by
    simp only [goodKids] at hg
    obtain ⟨e, h1, h2, h3, h4⟩ := at_next hg.1 (ha (by simp))
    rw [if_neg (by simp)]
    simp only [search, h1, Res.bind_ok, h2]
    by_cases hn : c.name = name
    · simp only [hn, if_true, List.dropWhile_cons]
      refine ⟨fun h => by simp at h, fun c' ds h => ⟨k, by simp, ?_⟩⟩
      simp at h
      obtain ⟨rfl, rfl⟩ := h
      exact ha (by simp)
    · simp only [hn, if_false, List.dropWhile_cons, ne_eq, not_false_eq_true, decide_true, if_true, nextSibling, h1, Res.bind_ok, Res.pure_eq]
      have ih := search_at (els := els) (name := name) cs hg.2 (k + e.next) m (by simpa using hm) (fun h => (h4 h).2)
      have : (if e.next = 0 then none else some (k + e.next)) = (if cs = [] then none else some (k + e.next)) := by
        by_cases hcs : cs = []
        · simp [hcs, h3 hcs]
        · simp [hcs, (h4 hcs).1]
      rw [this]
      exact ih

theorem goodKids_mem {cs : List Tree} (h : goodKids cs) : ∀ c ∈ cs, c.Good := by
  induction cs with
  | nil => simp
  | cons c cs ih =>
    simp only [goodKids] at h
    intro x hx
    rcases List.mem_cons.1 hx with rfl | hx
    · exact h.1
    · exact ih h.2 x hx

theorem goodKids_of_mem {cs : List Tree} (h : ∀ c ∈ cs, c.Good) : goodKids cs := by
  induction cs with
  | nil => simp [goodKids]
  | cons c cs ih => exact ⟨h c (by simp), ih fun x hx => h x (by simp [hx])⟩

theorem filter_dropWhile {cs : List Tree} {name : List UInt8} :
    cs.filter (fun c => c.name = name) = (cs.dropWhile (fun c => c.name ≠ name)).filter (fun c => c.name = name) := by
  induction cs with
  | nil => rfl
  | cons c cs ih =>
    by_cases h : c.name = name
    · simp [h]
    · simp [h, ih]

theorem sibs_le (d : Nat) : (cs : List Tree) → goodKids cs → cs.length ≤ (sibs d cs).length
  | [], _ => by simp
  | [c], _ => by
    rw [sibs_one]
    obtain ⟨h, Y, e, _⟩ := flat_head d 0 c
    simp [e]
  | c :: c' :: cs, hg => by
    rw [goodKids] at hg
    have := sibs_le d (c' :: cs) hg.2
    rw [sibs_more]
    simp at *
    omega

/-- Going on among the siblings of a name. -/
theorem next_at {els : List El} {name : List UInt8} : (i : Nat) → (c : Tree) → (ds : List Tree) → (k : Nat) → c.name = name → goodKids (c :: ds) →
    AtKids els k (c :: ds) →
    (((c :: ds).filter (fun c => c.name = name))[i]? = none → next els name i (some k) = .ok none) ∧
    (∀ x, ((c :: ds).filter (fun c => c.name = name))[i]? = some x →
      ∃ j es, next els name i (some k) = .ok (some j) ∧ AtKids els j (x :: es) ∧ goodKids (x :: es))
  | 0, c, ds, k, hn, hg, ha => by
    simp only [List.filter_cons, hn, decide_true, if_true]
    refine ⟨fun h => by simp at h, fun x h => ?_⟩
    simp at h
    subst h
    exact ⟨k, ds, rfl, ha, hg⟩
  | i + 1, c, ds, k, hn, hg, ha => by
    simp only [goodKids] at hg
    obtain ⟨e, h1, h2, h3, h4⟩ := at_next hg.1 ha
    have hlen : ds.length ≤ els.length := by
      by_cases hds : ds = []
      · simp [hds]
      · obtain ⟨d, A, w, C, rfl, _⟩ := (h4 hds).2
        have := sibs_le d ds hg.2
        simp; omega
    have hs := search_at (els := els) (name := name) ds hg.2 (k + e.next) els.length hlen (fun h => (h4 h).2)
    have : (if e.next = 0 then none else some (k + e.next)) = (if ds = [] then none else some (k + e.next)) := by
      by_cases hcs : ds = []
      · simp [hcs, h3 hcs]
      · simp [hcs, (h4 hcs).1]
    have hnx : nextNode els k name = search els name els.length (if ds = [] then none else some (k + e.next)) := by
      simp only [nextNode, nextSibling, h1, Res.bind_ok, Res.pure_eq, this]
    simp only [List.filter_cons, hn, decide_true, if_true, List.getElem?_cons_succ, next, hnx]
    rw [filter_dropWhile]
    cases hd : ds.dropWhile (fun c => c.name ≠ name) with
    | nil =>
      rw [hs.1 hd]
      refine ⟨fun _ => by cases i <;> rfl, fun x h => by simp at h⟩
    | cons c' es =>
      obtain ⟨j, hj, haj⟩ := hs.2 c' es hd
      have hm : ∀ x ∈ c' :: es, x ∈ ds := by
        intro x hx; rw [← hd] at hx; exact (List.dropWhile_sublist _).subset hx
      have hnm : c'.name = name := by
        have := List.head?_dropWhile_not (fun c : Tree => decide (c.name ≠ name)) ds
        rw [hd] at this; simpa using this
      have := next_at (els := els) (name := name) i c' es j hnm (goodKids_of_mem fun x hx => goodKids_mem hg.2 x (hm x hx)) haj
      rw [hj]
      exact this

/-- An element that is a node, with its index. -/
def AtTree (els : List El) (k : Nat) (t : Tree) : Prop := ∃ d nx A C, els = A ++ flat d nx t ++ C ∧ k = A.length

theorem AtKids.tree {els : List El} {k : Nat} {c : Tree} {cs : List Tree} (h : AtKids els k (c :: cs)) :
    AtTree els k c ∧ Shows els k c := by
  obtain ⟨d, A, w, C, rfl, rfl⟩ := h
  have : ∃ nx w' C', sibs d (c :: cs) ++ txt w :: C = flat d nx c ++ txt w' :: C' := by
    cases cs with
    | nil => exact ⟨0, w, C, by rw [sibs_one]⟩
    | cons c' cs => exact ⟨c.count + 1, indent d, sibs d (c' :: cs) ++ txt w :: C, by rw [sibs_more]; simp⟩
  obtain ⟨nx, w', C', e⟩ := this
  rw [List.append_assoc, e]
  refine ⟨⟨d, nx, A, txt w' :: C', by simp, rfl⟩, ?_⟩
  cases c with
  | node n cs => trivial
  | cdata n v =>
    simp only [Shows, value, flat, List.cons_append, List.nil_append]
    rw [rd_mid]
    have := rd_mid (A ++ [{ name := n, kind := .node, next := nx }]) { name := v, kind := .cdata } (txt w' :: C')
    simp at this
    simp [this]
  | text n v =>
    simp only [Shows, value, flat, List.cons_append]
    rw [rd_mid]
    by_cases hv : v = []
    · have := rd_mid (A ++ [{ name := n, kind := .node, next := nx }]) (txt w') C'
      simp at this
      simp [hv, this]
      simp [txt]
    · have := rd_mid (A ++ [{ name := n, kind := .node, hasValue := true, next := nx }]) (txt v) (txt w' :: C')
      simp at this
      simp [hv, this]
      simp [txt]

/-- The children of a node. -/
theorem AtTree.kids {els : List El} {k : Nat} {t : Tree} (hg : t.Good) (h : AtTree els k t) :
    (t.kids = [] → firstChild els k = .ok none) ∧ (t.kids ≠ [] → ∃ j, firstChild els k = .ok (some j) ∧ AtKids els j t.kids) := by
  obtain ⟨d, nx, A, C, rfl, rfl⟩ := h
  cases t with
  | text n v =>
    refine ⟨fun _ => ?_, fun h => absurd rfl h⟩
    simp only [flat, List.cons_append, List.append_assoc, firstChild]
    rw [rd_mid]; simp
  | cdata n v =>
    refine ⟨fun _ => ?_, fun h => absurd rfl h⟩
    simp only [flat, List.cons_append, List.append_assoc, firstChild]
    rw [rd_mid]; simp
  | node n cs =>
    refine ⟨fun h => absurd h hg.2.1, fun _ => ⟨A.length + 2, ?_, ?_⟩⟩
    · simp only [flat, List.cons_append, List.append_assoc, firstChild]
      rw [rd_mid]; simp
    · exact ⟨d + 1, A ++ [{ name := n, kind := .node, hasValue := true, next := nx, first := 2 }, txt (indent (d + 1))], indent d, C, by simp [flat, Tree.kids], by simp⟩

theorem Tree.good_kids {t : Tree} (hg : t.Good) : goodKids t.kids := by
  cases t with
  | text => simp [Tree.kids, goodKids]
  | cdata => simp [Tree.kids, goodKids]
  | node n cs => exact hg.2.2

/-- One step of a path. -/
theorem step_at {els : List El} {k : Nat} {t : Tree} (hg : t.Good) (h : AtTree els k t) (name : List UInt8) (i : Nat) :
    ((t.kids.filter fun c => c.name = name)[i]? = none → (firstNode els k name).bind (next els name i) = .ok none) ∧
    (∀ c, (t.kids.filter fun c => c.name = name)[i]? = some c →
      ∃ j es, (firstNode els k name).bind (next els name i) = .ok (some j) ∧ AtKids els j (c :: es) ∧ c.Good) := by
  obtain ⟨h0, h1⟩ := h.kids hg
  have hgk := Tree.good_kids hg
  by_cases hk : t.kids = []
  · simp only [hk, firstNode, h0 hk, Res.bind_ok]
    refine ⟨fun _ => ?_, fun c h => by simp at h⟩
    cases els.length <;> simp only [search, Res.bind] <;> cases i <;> rfl
  · obtain ⟨j, e, ha⟩ := h1 hk
    have hlen : t.kids.length ≤ els.length := by
      obtain ⟨d, A, w, C, rfl, _⟩ := ha
      have := sibs_le d t.kids hgk
      simp; omega
    have hs := search_at (els := els) (name := name) t.kids hgk j els.length hlen (fun _ => ha)
    rw [if_neg hk] at hs
    simp only [firstNode, e, Res.bind_ok]
    rw [filter_dropWhile]
    cases hd : t.kids.dropWhile (fun c => c.name ≠ name) with
    | nil =>
      rw [hs.1 hd]
      refine ⟨fun _ => by cases i <;> rfl, fun x h => by simp at h⟩
    | cons c' es =>
      obtain ⟨j', hj, haj⟩ := hs.2 c' es hd
      have hm : ∀ x ∈ c' :: es, x ∈ t.kids := by
        intro x hx; rw [← hd] at hx; exact (List.dropWhile_sublist _).subset hx
      have hnm : c'.name = name := by
        have := List.head?_dropWhile_not (fun c : Tree => decide (c.name ≠ name)) t.kids
        rw [hd] at this; simpa using this
      have := next_at (els := els) (name := name) i c' es j' hnm (goodKids_of_mem fun x hx => goodKids_mem hgk x (hm x hx)) haj
      rw [hj]
      refine ⟨this.1, fun c hc => ?_⟩
      obtain ⟨j, es, h1, h2, h3⟩ := this.2 c hc
      exact ⟨j, es, h1, h2, h3.1⟩

/-- Paths. -/
theorem walk_at {els : List El} : (ps : List (List UInt8 × Nat)) → (k : Nat) → (t : Tree) → t.Good → AtTree els k t → Shows els k t →
    (t.at ps = none → walk els k ps = .ok none) ∧
    (∀ c, t.at ps = some c → ∃ j, walk els k ps = .ok (some j) ∧ AtTree els j c ∧ Shows els j c ∧ c.Good)
  | [], k, t, hg, ha, hs => by
    refine ⟨fun h => by simp [Tree.at] at h, fun c h => ?_⟩
    simp [Tree.at] at h
    subst h
    exact ⟨k, rfl, ha, hs, hg⟩
  | p :: ps, k, t, hg, ha, _ => by
    obtain ⟨h1, h2⟩ := step_at hg ha p.1 p.2
    have ew : walk els k (p :: ps) = ((firstNode els k p.1).bind (next els p.1 p.2)).bind fun c =>
        match c with
        | none => .ok none
        | some k => walk els k ps := by
      rw [walk]
      cases firstNode els k p.1 <;> rfl
    rw [Tree.at]
    cases hc : (t.kids.filter fun c => c.name = p.1)[p.2]? with
    | none =>
      simp only
      rw [ew, h1 hc]
      exact ⟨fun _ => rfl, fun c h => by simp at h⟩
    | some c =>
      obtain ⟨j, es, e, hj, hgc⟩ := h2 c hc
      simp only
      rw [ew, e]
      exact walk_at ps j c hgc hj.tree.1 hj.tree.2

end Verif.Xml
