import Verif.Model.UtpManager
/-! C87. -/

namespace Verif
open UtpManager Utp

set_option linter.unusedSectionVars false

namespace UtpManagerP
variable {E : Type} [DecidableEq E]

/-- The names of the connections are those given so far, each of one connection. -/
def Named (m : Manager E) : Prop := (m.streams.map (·.2.2)).Nodup ∧ ∀ s ∈ m.streams, s.2.2 < m.next

theorem named_connect {m : Manager E} (h : Named m) (id : Nat) (e : E) : Named (connect m id e) := by
  refine ⟨?_, ?_⟩
  · simp only [connect, List.map_append, List.map_cons, List.map_nil]
    rw [List.nodup_append]
    refine ⟨h.1, by simp, ?_⟩
    intro a ha b hb
    rw [List.mem_singleton] at hb
    obtain ⟨s, hs, rfl⟩ := List.mem_map.mp ha
    have := h.2 s hs
    omega
  · intro s hs
    simp only [connect] at hs ⊢
    rcases List.mem_append.mp hs with hs | hs
    · exact Nat.lt_succ_of_lt (h.2 s hs)
    · rw [List.mem_singleton.mp hs]; exact Nat.lt_succ_self _

theorem nodup_inj {α β : Type} {f : α → β} : ∀ {l : List α} {a b : α}, (l.map f).Nodup → a ∈ l → b ∈ l → f a = f b → a = b
  | [], _, _, _, h, _, _ => by cases h
  | x :: l, a, b, hn, ha, hb, h => by
    rw [List.map_cons, List.nodup_cons] at hn
    rcases List.mem_cons.mp ha with rfl | ha'
    · rcases List.mem_cons.mp hb with rfl | hb
      · rfl
      · exact absurd (List.mem_map_of_mem hb) (h ▸ hn.1)
    · rcases List.mem_cons.mp hb with rfl | hb
      · exact absurd (h ▸ List.mem_map_of_mem (f := f) ha') hn.1
      · exact nodup_inj hn.2 ha' hb h

theorem find_mem {m : Manager E} {id k : Nat} {e : E} (h : find m id e = some k) : (id, e, k) ∈ m.streams := by
  unfold find at h
  rw [Option.map_eq_some_iff] at h
  obtain ⟨s, h1, h2⟩ := h
  have h3 := List.find?_some h1
  have h4 := List.mem_of_find?_eq_some h1
  simp only [decide_eq_true_eq] at h3
  obtain ⟨a, b, c⟩ := s
  simp only at h2 h3
  obtain ⟨rfl, rfl⟩ := h3
  subst h2
  exact h4

theorem find_connect {m : Manager E} {id k : Nat} {e : E} (h : find m id e = some k) (id' : Nat) (e' : E) : find (connect m id' e') id e = some k := by
  unfold find at h ⊢
  simp only [connect, List.find?_append]
  rw [Option.map_eq_some_iff] at h
  obtain ⟨s, h1, h2⟩ := h
  rw [h1]; simp [h2]

/-- What is remembered is what would be found. -/
def Right (m : Manager E) (e : E) (c : Cache) (fin : List Nat) : Prop := ∀ i k, c = some (i, k) → find m i e = some k ∧ k ∈ fin

theorem findStream_eq {m : Manager E} {e : E} {c : Cache} {fin : List Nat} (h : Right m e c fin) (id : Nat) :
    (findStream m e c fin id).1 = find m id e ∧ Right m e (findStream m e c fin id).2.1 (findStream m e c fin id).2.2 ∧
      (∀ k, k ∈ (findStream m e c fin id).2.2 ↔ k ∈ fin ∨ find m id e = some k) := by
  have key : ∀ k, find m id e = some k → Right m e (some (id, k)) (if k ∈ fin then fin else fin ++ [k]) := by
    intro k hk i k' hc
    cases hc
    refine ⟨hk, ?_⟩
    split
    · assumption
    · simp
  have key2 : ∀ k, find m id e = some k → ∀ k', k' ∈ (if k ∈ fin then fin else fin ++ [k]) ↔ k' ∈ fin ∨ some k = some k' := by
    intro k hk k'
    split
    · rename_i hm
      constructor
      · exact Or.inl
      · rintro (h | h)
        · exact h
        · cases h; exact hm
    · simp [eq_comm]
  unfold findStream
  cases c with
  | none =>
    dsimp only
    cases hf : find m id e with
    | none => exact ⟨rfl, h, by simp⟩
    | some k => exact ⟨rfl, key k hf, key2 k hf⟩
  | some p =>
    obtain ⟨i, k⟩ := p
    dsimp only
    have h1 := h i k rfl
    split
    · rename_i hi
      subst hi
      refine ⟨h1.1.symm, h, fun k' => ⟨Or.inl, ?_⟩⟩
      rintro (h' | h')
      · exact h'
      · rw [h1.1] at h'; cases h'; exact h1.2
    · cases hf : find m id e with
      | none => exact ⟨rfl, h, by simp⟩
      | some k => exact ⟨rfl, key k hf, key2 k hf⟩

theorem right_connect {m : Manager E} {e : E} {c : Cache} {fin : List Nat} (h : Right m e c fin) (id : Nat) (e' : E) : Right (connect m id e') e c fin :=
  fun i k hc => ⟨find_connect (h i k hc).1 id e', (h i k hc).2⟩

/-- What is done with the first of the datagrams. -/
theorem readAll_cons (utpIn : Bool) (size : List UInt8 → Nat) (e : E) (r : Result E) (c : Cache) (d : List UInt8) (ds : List (List UInt8)) (hr : Right r.mgr e c r.finished) :
    ∃ r' c', readAll utpIn size e r c (d :: ds) = readAll utpIn size e r' c' ds ∧ Right r'.mgr e c' r'.finished ∧ r'.rest = r.rest ∧
      ((r'.mgr = r.mgr ∧ r'.opened = r.opened ∧ (size d = 0 ∨ find r.mgr (Header.read d).conn e ≠ none ∨ ¬ ((Header.read d).typ = 4 ∧ d.length = size d) ∨ utpIn = false)) ∨
        (r'.mgr = connect r.mgr (((Header.read d).conn + 1) % 65536) e ∧ r'.opened = r.opened ++ [(r.mgr.next, e, Header.read d)] ∧
          size d ≠ 0 ∧ (Header.read d).typ = 4 ∧ d.length = size d ∧ utpIn = true ∧ find r.mgr (Header.read d).conn e = none)) ∧
      r'.got = r.got ++ (if size d = 0 then [] else ((find r.mgr (Header.read d).conn e).map fun k => (k, Header.read d, d.drop (size d))).toList) ∧
      (∀ k, k ∈ r'.finished ↔ k ∈ r.finished ∨ (size d ≠ 0 ∧ find r.mgr (Header.read d).conn e = some k)) := by
  rw [readAll]
  by_cases hs : size d = 0
  · rw [if_pos hs]
    exact ⟨r, c, rfl, hr, rfl, Or.inl ⟨rfl, rfl, Or.inl hs⟩, by simp [hs], by simp [hs]⟩
  · rw [if_neg hs]
    dsimp only
    obtain ⟨h1, h2, h3⟩ := findStream_eq hr (Header.read d).conn
    rw [h1]
    cases hf : find r.mgr (Header.read d).conn e with
    | some k =>
      dsimp only
      exact ⟨_, _, rfl, h2, rfl, Or.inl ⟨rfl, rfl, Or.inr (Or.inl (by simp))⟩, by simp [hs], fun k' => by rw [h3 k', hf]; simp [hs]⟩
    | none =>
      dsimp only
      split
      · rename_i hh
        refine ⟨_, _, rfl, ?_, ?_, ?_, ?_, ?_⟩
        · unfold accept; split
          · exact right_connect h2 _ _
          · exact h2
        · unfold accept; split <;> rfl
        · cases utpIn
          · exact Or.inl ⟨rfl, rfl, Or.inr (Or.inr (Or.inr rfl))⟩
          · exact Or.inr ⟨rfl, rfl, hs, hh.1, hh.2, rfl, rfl⟩
        · unfold accept; split <;> simp
        · intro k'
          have := h3 k'
          rw [hf] at this
          unfold accept; split <;> simpa [hs] using this
      · rename_i hh
        exact ⟨_, _, rfl, h2, rfl, Or.inl ⟨rfl, rfl, Or.inr (Or.inr (Or.inl hh))⟩, by simp, fun k' => by rw [h3 k', hf]; simp⟩

theorem readAll_rest (utpIn : Bool) (size : List UInt8 → Nat) (e : E) : ∀ (ds : List (List UInt8)) (r : Result E) (c : Cache), Right r.mgr e c r.finished →
    (readAll utpIn size e r c ds).rest = r.rest
  | [], _, _, _ => rfl
  | d :: ds, r, c, hr => by
    obtain ⟨r', c', h1, h2, h3, -⟩ := readAll_cons utpIn size e r c d ds hr
    rw [h1, readAll_rest utpIn size e ds r' c' h2, h3]

theorem named_next {m m' : Manager E} {e : E} {id : Nat} (h : m' = m ∨ m' = connect m id e) (hn : Named m) : Named m' := by
  rcases h with rfl | rfl
  · exact hn
  · exact named_connect hn id e

/-- A connection that is found gets what carries its number, in order, and nothing else. -/
theorem readAll_got (utpIn : Bool) (size : List UInt8 → Nat) (e : E) (id k : Nat) : ∀ (ds : List (List UInt8)) (r : Result E) (c : Cache), Right r.mgr e c r.finished →
    Named r.mgr → find r.mgr id e = some k →
    (readAll utpIn size e r c ds).got.filter (·.1 = k) = r.got.filter (·.1 = k) ++
      (ds.filter fun d => size d ≠ 0 ∧ (Header.read d).conn = id).map fun d => (k, Header.read d, d.drop (size d))
  | [], _, _, _, _, _ => by simp [readAll]
  | d :: ds, r, c, hr, hn, hk => by
    obtain ⟨r', c', h1, h2, -, h4, h5, -⟩ := readAll_cons utpIn size e r c d ds hr
    have hm : r'.mgr = r.mgr ∨ r'.mgr = connect r.mgr (((Header.read d).conn + 1) % 65536) e := h4.imp (·.1) (·.1)
    have hk' : find r'.mgr id e = some k := by
      rcases hm with h | h <;> rw [h]
      · exact hk
      · exact find_connect hk _ _
    rw [h1, readAll_got utpIn size e id k ds r' c' h2 (named_next hm hn) hk', h5, List.filter_append, List.append_assoc]
    congr 1
    by_cases hs : size d = 0
    · simp [hs]
    · rw [if_neg hs]
      by_cases hi : (Header.read d).conn = id
      · rw [hi, hk]; simp [hs, hi]
      · rw [List.filter_cons]
        have : decide (size d ≠ 0 ∧ (Header.read d).conn = id) = false := by simp [hi]
        rw [this]
        cases hf : find r.mgr (Header.read d).conn e with
        | none => simp
        | some k' =>
          have hne : k' ≠ k := by
            rintro rfl
            have a := find_mem hk
            have b := find_mem hf
            have hy := nodup_inj hn.1 a b rfl
            cases hy
            exact hi rfl
          simp [hne]

/-- Whoever gets something has the address of the sender. -/
theorem readAll_only (utpIn : Bool) (size : List UInt8 → Nat) (e : E) : ∀ (ds : List (List UInt8)) (r : Result E) (c : Cache), Right r.mgr e c r.finished →
    (∀ g ∈ r.got, ∃ id, find r.mgr id e = some g.1) → (∀ k, k ∈ r.finished ↔ ∃ g ∈ r.got, g.1 = k) →
    (∀ g ∈ (readAll utpIn size e r c ds).got, ∃ id, find (readAll utpIn size e r c ds).mgr id e = some g.1) ∧
      (∀ k, k ∈ (readAll utpIn size e r c ds).finished ↔ ∃ g ∈ (readAll utpIn size e r c ds).got, g.1 = k)
  | [], _, _, _, h, hf => ⟨h, hf⟩
  | d :: ds, r, c, hr, h, hf => by
    obtain ⟨r', c', h1, h2, -, h4, h5, h6⟩ := readAll_cons utpIn size e r c d ds hr
    have hm : ∀ id k, find r.mgr id e = some k → find r'.mgr id e = some k := by
      rcases h4 with h | h
      · rw [h.1]; exact fun _ _ hs => hs
      · rw [h.1]; exact fun _ _ hs => find_connect hs _ _
    rw [h1]
    refine readAll_only utpIn size e ds r' c' h2 ?_ ?_
    · intro g hg
      rw [h5, List.mem_append] at hg
      rcases hg with hg | hg
      · obtain ⟨id, hid⟩ := h g hg
        exact ⟨id, hm _ _ hid⟩
      · split at hg
        · simp at hg
        · rw [Option.mem_toList, Option.map_eq_some_iff] at hg
          obtain ⟨k, hk, rfl⟩ := hg
          exact ⟨_, hm _ _ hk⟩
    · intro k
      rw [h6, hf, h5]
      constructor
      · rintro (⟨g, hg, hk⟩ | ⟨hs, hk⟩)
        · exact ⟨g, List.mem_append_left _ hg, hk⟩
        · exact ⟨(k, Header.read d, d.drop (size d)), List.mem_append_right _ (by simp [hs, hk]), rfl⟩
      · rintro ⟨g, hg, hk⟩
        rcases List.mem_append.mp hg with hg | hg
        · exact Or.inl ⟨g, hg, hk⟩
        · split at hg
          · simp at hg
          · rename_i hs
            rw [Option.mem_toList, Option.map_eq_some_iff] at hg
            obtain ⟨k', hk', rfl⟩ := hg
            exact Or.inr ⟨hs, by rw [hk', ← hk]⟩

theorem right_none (m : Manager E) (e : E) : Right m e none [] := fun _ _ h => by cases h

theorem find_only {m : Manager E} {id k : Nat} {e : E} (hm : (id, e, k) ∈ m.streams) (ho : ∀ s ∈ m.streams, s.1 = id → s.2.1 = e → s.2.2 = k) : find m id e = some k := by
  unfold find
  cases hf : m.streams.find? fun s => s.1 = id ∧ s.2.1 = e with
  | none =>
    have := List.find?_eq_none.mp hf _ hm
    simp at this
  | some s =>
    have h1 := List.find?_some hf
    simp only [decide_eq_true_eq] at h1
    rw [Option.map_some, ho s (List.mem_of_find?_eq_some hf) h1.1 h1.2]

theorem find_none {m : Manager E} {id : Nat} {e : E} (h : ∀ s ∈ m.streams, ¬ (s.1 = id ∧ s.2.1 = e)) : find m id e = none := by
  unfold find
  rw [List.find?_eq_none.mpr (fun s hs => by simpa using h s hs)]; rfl

theorem named_all (utpIn : Bool) (size : List UInt8 → Nat) (e : E) : ∀ (ds : List (List UInt8)) (r : Result E) (c : Cache), Right r.mgr e c r.finished → Named r.mgr →
    Named (readAll utpIn size e r c ds).mgr ∧ (∀ i a k, find r.mgr i a = some k → find (readAll utpIn size e r c ds).mgr i a = some k) ∧
      ∀ s ∈ r.mgr.streams, s ∈ (readAll utpIn size e r c ds).mgr.streams
  | [], _, _, _, h => ⟨h, fun _ _ _ h => h, fun _ h => h⟩
  | d :: ds, r, c, hr, h => by
    obtain ⟨r', c', h1, h2, -, h4, -⟩ := readAll_cons utpIn size e r c d ds hr
    have hm : r'.mgr = r.mgr ∨ r'.mgr = connect r.mgr (((Header.read d).conn + 1) % 65536) e := h4.imp (·.1) (·.1)
    rw [h1]
    obtain ⟨h5, h6, h7⟩ := named_all utpIn size e ds r' c' h2 (named_next hm h)
    refine ⟨h5, fun i a k hk => h6 i a k ?_, fun s hs => h7 s ?_⟩
    · rcases hm with h | h <;> rw [h]
      · exact hk
      · exact find_connect hk _ _
    · rcases hm with h | h <;> rw [h]
      · exact hs
      · exact List.mem_append_left _ hs

end UtpManagerP
open UtpManagerP

section
variable {E : Type} [DecidableEq E]

/-- C87: a connection that is the only one with its number and its address gets the datagrams that carry its number and come from its address, all of them, in
order, and no others, whatever else is among them. -/
theorem C87_reach_partial (utpIn : Bool) (size : List UInt8 → Nat) (m : Manager E) (hn : Named m) (id k : Nat) (e : E) (hm : (id, e, k) ∈ m.streams)
    (ho : ∀ s ∈ m.streams, s.1 = id → s.2.1 = e → s.2.2 = k) (ds : List (List UInt8)) :
    (onPackets utpIn size m e ds).got.filter (·.1 = k) = (ds.filter fun d => size d ≠ 0 ∧ (Header.read d).conn = id).map fun d => (k, Header.read d, d.drop (size d)) := by
  have := readAll_got utpIn size e id k ds { mgr := m, rest := ds.filter (size · = 0) } none (right_none m e) hn (find_only hm ho)
  simpa [onPackets] using this

/-- C87: nobody else's datagrams are read by a connection; those that read something are those that are asked to finish. -/
theorem C87_only_partial (utpIn : Bool) (size : List UInt8 → Nat) (m : Manager E) (e : E) (ds : List (List UInt8)) :
    let r := onPackets utpIn size m e ds
    (∀ g ∈ r.got, ∃ id, (id, e, g.1) ∈ r.mgr.streams) ∧ (∀ k, k ∈ r.finished ↔ ∃ g ∈ r.got, g.1 = k) := by
  obtain ⟨h1, h2⟩ := readAll_only utpIn size e ds { mgr := m, rest := ds.filter (size · = 0) } none (right_none m e) (fun g hg => by simp at hg) (fun k => by simp)
  exact ⟨fun g hg => (h1 g hg).imp fun _ h => find_mem h, h2⟩

/-- C87: what is not a uTP datagram is left to others, in order. -/
theorem C87_rest_partial (utpIn : Bool) (size : List UInt8 → Nat) (m : Manager E) (e : E) (ds : List (List UInt8)) :
    (onPackets utpIn size m e ds).rest = ds.filter (size · = 0) :=
  readAll_rest utpIn size e ds _ none (right_none m e)

/-- C87: a request for a connection, if its number is not that of one of the address, opens one, which then gets what carries the next number; if connections
are not wanted, nothing happens. -/
theorem C87_open_partial (size : List UInt8 → Nat) (m : Manager E) (e : E) (d : List UInt8) (hs : d.length = size d) (hz : size d ≠ 0) (ht : (Header.read d).typ = 4)
    (hn : ∀ s ∈ m.streams, ¬ (s.1 = (Header.read d).conn ∧ s.2.1 = e)) :
    (onPackets true size m e [d]).opened = [(m.next, e, Header.read d)] ∧
      (onPackets true size m e [d]).mgr.streams = m.streams ++ [(((Header.read d).conn + 1) % 65536, e, m.next)] ∧
      (onPackets true size m e [d]).got = [] ∧ (onPackets false size m e [d]).opened = [] ∧ (onPackets false size m e [d]).mgr = m := by
  have hf := find_none hn
  have hs' : d.length = size d := hs
  simp [onPackets, readAll, findStream, hf, hz, ht, hs', accept, connect]

/-- A request for a connection: 20 bytes, of the fifth kind, with the number 5. -/
def utpRequest : List UInt8 := [0x41, 0, 0, 5, 0, 0, 0, 0, 0, 0, 0, 0, 0, 0, 0, 0, 0, 1, 0, 0]

example : (onPackets (E := Nat) true (fun d => if d.length < 20 then 0 else 20) {} 9 [utpRequest]).opened = [(0, 9, Header.read utpRequest)] ∧
    packetHeaderSize utpRequest [] = .ok 20 := by decide +kernel

/-- C87 fails: a request that arrives twice, as it does when the answer is lost, opens two connections; the second one never gets anything, whatever
arrives. -/
theorem C87_twice_violated (size : List UInt8 → Nat) (e : E) (d : List UInt8) (hs : d.length = size d) (hz : size d ≠ 0) (ht : (Header.read d).typ = 4)
    (utpIn : Bool) (ds : List (List UInt8)) :
    let r := onPackets true size {} e [d, d]
    r.opened = [(0, e, Header.read d), (1, e, Header.read d)] ∧ (onPackets utpIn size r.mgr e ds).got.filter (·.1 = 1) = [] := by
  have hne : (Header.read d).conn ≠ ((Header.read d).conn + 1) % 65536 := by omega
  have hne' : ¬ ((Header.read d).conn + 1) % 65536 = (Header.read d).conn := fun h => hne h.symm
  generalize hi : ((Header.read d).conn + 1) % 65536 = id at hne hne'
  have e0 : onPackets true size ({} : Manager E) e [d, d] = { mgr := { streams := [(id, e, 0), (id, e, 1)], next := 2 }, opened := [(0, e, Header.read d), (1, e, Header.read d)] } := by
    simp [onPackets, readAll, findStream, find, hz, ht, hs, accept, connect, hi, hne']
  dsimp only
  rw [e0]
  refine ⟨rfl, ?_⟩
  have hn : Named ({ streams := [(id, e, 0), (id, e, 1)], next := 2 } : Manager E) := ⟨by simp, by simp⟩
  have hf : find ({ streams := [(id, e, 0), (id, e, 1)], next := 2 } : Manager E) id e = some 0 := by simp [find]
  obtain ⟨h1, h2, h7⟩ := named_all utpIn size e ds { mgr := { streams := [(id, e, 0), (id, e, 1)], next := 2 }, rest := ds.filter (size · = 0) } none (right_none _ e) hn
  have h3 : find { streams := [(id, e, 0), (id, e, 1)], next := 2 } id e = some 0 := hf
  have h4 := h2 id e 0 h3
  rw [List.filter_eq_nil_iff]
  intro g hg hk
  simp only [decide_eq_true_eq] at hk
  obtain ⟨h5, -⟩ := readAll_only utpIn size e ds { mgr := { streams := [(id, e, 0), (id, e, 1)], next := 2 }, rest := ds.filter (size · = 0) } none (right_none _ e) (fun g hg => by simp at hg) (fun k => by simp)
  obtain ⟨i, h6⟩ := h5 g hg
  rw [hk] at h6
  have := nodup_inj h1.1 (find_mem h6) (h7 (id, e, 1) (by simp)) rfl
  cases this
  rw [h4] at h6
  cases h6

end
end Verif
