import Verif.Proof.Country
/-! C49: the country of an address, and its file. -/

namespace Verif
open Country Spec

private theorem bucket_of {t : Table} (h : GoodCountries t) {a : Nat} (ha : a < 4294967296) :
    ∃ b, t.buckets[a / 16777216]? = some b ∧ b ∈ t.buckets ∧ b.Pairwise (fun x y => x.1 < y.1) := by
  have hi : a / 16777216 < t.buckets.length := by rw [h.buckets]; omega
  exact ⟨_, List.getElem?_eq_getElem hi, List.getElem_mem hi, h.sorted _ (List.getElem_mem hi)⟩

private def exTable : Table :=
  { countries := [ascii "Norway", ascii "Chile", ascii "Japan"]
    buckets := List.replicate 5 [] ++ [[(83886080, 0), (83886336, 2), (83900000, 1)], []] ++ List.replicate 249 [] }

private theorem exGood : GoodCountries exTable where
  buckets := by decide +kernel
  place := by
    intro i b hb
    have hl : exTable.buckets.length = 256 := by decide +kernel
    have hi := (List.getElem?_eq_some_iff.mp hb).1
    rw [hl] at hi
    have hall : (List.range 256).all (fun i => ((exTable.buckets[i]?).getD []).all fun e => e.1 / 16777216 == i) = true := by decide +kernel
    have := List.all_eq_true.mp hall i (List.mem_range.mpr hi)
    rw [hb] at this
    simpa using this
  sorted := by
    have hall : exTable.buckets.all (fun b => decide (b.Pairwise fun x y => x.1 < y.1)) = true := by decide +kernel
    intro b hb
    simpa using List.all_eq_true.mp hall b hb
  country := by
    have hall : exTable.buckets.all (fun b => b.all fun e => decide (e.2 < exTable.countries.length)) = true := by decide +kernel
    intro b hb
    simpa using List.all_eq_true.mp hall b hb
  few := by decide +kernel
  names := by decide +kernel

example : GoodCountries exTable := exGood

/-- C49 (partial: the lookup does not return the country for every address, see `C49_last_range_violated`
and `C49_earlier_bucket_violated`): if among the ranges that start with the same first byte as the address
one starts at or before it and another one starts after it, the lookup returns the name of the country of the
range the address is in. -/
theorem C49_lookup_partial {t : Table} (h : GoodCountries t) {a : Nat} (ha : a < 4294967296)
    (h1 : ∃ e ∈ ranges t, e.1 / 16777216 = a / 16777216 ∧ e.1 ≤ a) (h2 : ∃ e ∈ ranges t, e.1 / 16777216 = a / 16777216 ∧ a < e.1) :
    ∃ e name, rangeOf t a = some e ∧ t.countries[e.2]? = some name ∧ t.getCountry a = .ok name := by
  obtain ⟨b, hb, hm, hs⟩ := bucket_of h ha
  have hin : ∀ e ∈ ranges t, e.1 / 16777216 = a / 16777216 → e ∈ b := by
    intro e he hk
    obtain ⟨c, hc, hec⟩ := List.mem_flatten.mp he
    obtain ⟨i, hi⟩ := List.mem_iff_getElem?.mp hc
    have := h.place i c hi e hec
    rw [hk] at this
    rw [← this, hb] at hi
    cases hi
    exact hec
  obtain ⟨x, hx, hxk, hxa⟩ := h1
  obtain ⟨y, hy, hyk, hya⟩ := h2
  have hx := hin x hx hxk
  have hy := hin y hy hyk
  obtain ⟨c1, c2⟩ := lowerBound_count b a hs
  have hpos : 0 < lowerBound b a b.length 0 b.length := by
    rw [c1]
    exact List.length_pos_of_mem (List.mem_filter.mpr ⟨hx, by simpa using hxa⟩)
  have hlt : lowerBound b a b.length 0 b.length < b.length := by
    have hle : lowerBound b a b.length 0 b.length ≤ b.length := by rw [c1]; exact List.length_filter_le _ _
    rcases Nat.lt_or_eq_of_le hle with hlt | heq
    · exact hlt
    · rw [heq, List.take_length] at c2
      have := List.filter_eq_self.mp c2 y hy
      simp at this
      omega
  generalize hkk : lowerBound b a b.length 0 b.length = k at *
  have hk : k - 1 < b.length := by omega
  have hcn : b[k - 1].2 < t.countries.length := h.country b hm _ (List.getElem_mem hk)
  refine ⟨b[k - 1], t.countries[b[k - 1].2], ?_, List.getElem?_eq_getElem hcn, ?_⟩
  · unfold rangeOf
    rw [ranges_split h ha hb, c2, List.getLast?_append, List.getLast?_take]
    simp [show k ≠ 0 by omega, hk]
  · unfold Table.getCountry
    have hmod : a / 16777216 % 256 = a / 16777216 := by omega
    have hr : rd t.buckets (a / 16777216) = .ok b := by unfold rd; rw [hb]
    rw [hmod, hr]
    simp only [Res.bind_ok, hkk]
    rw [if_neg (by omega), rd_eq_ok hk]
    simp only [Res.bind_ok]
    exact rd_eq_ok hcn

example : exTable.getCountry 83886335 = .ok (ascii "Norway") ∧ exTable.getCountry 83899999 = .ok (ascii "Japan") :=
  ⟨by decide +kernel, by decide +kernel⟩
example : (∃ e ∈ ranges exTable, e.1 / 16777216 = 83899999 / 16777216 ∧ e.1 ≤ 83899999) ∧
    (∃ e ∈ ranges exTable, e.1 / 16777216 = 83899999 / 16777216 ∧ 83899999 < e.1) :=
  ⟨⟨(83886336, 2), by decide +kernel⟩, ⟨(83900000, 1), by decide +kernel⟩⟩

private theorem empty_answer {t : Table} {a : Nat} (ha : a < 4294967296) {b : List (Nat × Nat)} (hb : t.buckets[a / 16777216]? = some b)
    (hs : b.Pairwise fun x y => x.1 < y.1) (hn : (∀ e ∈ b, e.1 ≤ a) ∨ (∀ e ∈ b, a < e.1)) : t.getCountry a = .ok [] := by
  obtain ⟨c1, c2⟩ := lowerBound_count b a hs
  unfold Table.getCountry
  have hmod : a / 16777216 % 256 = a / 16777216 := by omega
  have hr : rd t.buckets (a / 16777216) = .ok b := by unfold rd; rw [hb]
  rw [hmod, hr]
  simp only [Res.bind_ok]
  rw [if_pos]
  · rfl
  · rcases hn with hn | hn
    · left
      rw [c1, List.filter_eq_self.mpr]
      intro e he
      simpa using hn e he
    · right
      rw [c1, List.filter_eq_nil_iff.mpr]
      · rfl
      · intro e he
        have := hn e he
        simp; omega

/-- C49 does not hold: for an address in the last range that starts with its first byte the lookup returns no
country, although the address is in that range and the range has a country with a name. -/
theorem C49_last_range_violated {t : Table} (h : GoodCountries t) {a : Nat} (ha : a < 4294967296)
    (h1 : ∃ e ∈ ranges t, e.1 / 16777216 = a / 16777216) (h2 : ∀ e ∈ ranges t, e.1 / 16777216 = a / 16777216 → e.1 ≤ a) :
    ∃ e name, rangeOf t a = some e ∧ e.1 / 16777216 = a / 16777216 ∧ t.countries[e.2]? = some name ∧ name ≠ [] ∧ t.getCountry a = .ok [] := by
  obtain ⟨b, hb, hm, hs⟩ := bucket_of h ha
  have hle : ∀ e ∈ b, e.1 ≤ a := fun e he => h2 e (List.mem_flatten.mpr ⟨b, hm, he⟩) (h.place _ b hb e he)
  have hne : b ≠ [] := by
    obtain ⟨e, he, hk⟩ := h1
    obtain ⟨c, hc, hec⟩ := List.mem_flatten.mp he
    obtain ⟨i, hi⟩ := List.mem_iff_getElem?.mp hc
    have := h.place i c hi e hec
    rw [hk] at this
    rw [← this, hb] at hi
    cases hi
    exact List.ne_nil_of_mem hec
  have hlm : b.getLast hne ∈ b := List.getLast_mem hne
  have hcn := h.country b hm _ hlm
  refine ⟨b.getLast hne, t.countries[(b.getLast hne).2], ?_, h.place _ b hb _ hlm, List.getElem?_eq_getElem hcn, (h.names _ (List.getElem_mem hcn)).1,
    empty_answer ha hb hs (Or.inl hle)⟩
  unfold rangeOf
  rw [ranges_split h ha hb, List.filter_eq_self.mpr (by intro e he; simpa using hle e he), List.getLast?_append, List.getLast?_eq_some_getLast hne]
  rfl

example : exTable.getCountry 83900005 = .ok [] ∧ rangeOf exTable 83900005 = some (83900000, 1) := ⟨by decide +kernel, by decide +kernel⟩

/-- C49 does not hold: for an address in a range that starts with another first byte the lookup returns no
country. -/
theorem C49_earlier_bucket_violated {t : Table} (h : GoodCountries t) {a : Nat} (ha : a < 4294967296)
    (h1 : ∃ e ∈ ranges t, e.1 ≤ a) (h2 : ∀ e ∈ ranges t, e.1 / 16777216 = a / 16777216 → a < e.1) :
    ∃ e name, rangeOf t a = some e ∧ e.1 / 16777216 < a / 16777216 ∧ t.countries[e.2]? = some name ∧ name ≠ [] ∧ t.getCountry a = .ok [] := by
  obtain ⟨b, hb, hm, hs⟩ := bucket_of h ha
  have hlt : ∀ e ∈ b, a < e.1 := fun e he => h2 e (List.mem_flatten.mpr ⟨b, hm, he⟩) (h.place _ b hb e he)
  have hne : (ranges t).filter (fun e => decide (e.1 ≤ a)) ≠ [] := by
    obtain ⟨e, he, hk⟩ := h1
    exact List.ne_nil_of_mem (List.mem_filter.mpr ⟨he, by simpa using hk⟩)
  have hlm := List.getLast_mem hne
  have hlr := (List.mem_filter.mp hlm).1
  have hla : (((ranges t).filter (fun e => decide (e.1 ≤ a))).getLast hne).1 ≤ a := by simpa using (List.mem_filter.mp hlm).2
  generalize hg : ((ranges t).filter (fun e => decide (e.1 ≤ a))).getLast hne = e at *
  obtain ⟨c, hc, hec⟩ := List.mem_flatten.mp hlr
  have hcn := h.country c hc e hec
  refine ⟨e, t.countries[e.2], ?_, ?_, List.getElem?_eq_getElem hcn, (h.names _ (List.getElem_mem hcn)).1, empty_answer ha hb hs (Or.inr hlt)⟩
  · unfold rangeOf
    rw [List.getLast?_eq_some_getLast hne, hg]
  · rcases Nat.lt_or_ge (e.1 / 16777216) (a / 16777216) with hh | hh
    · exact hh
    · have heq : e.1 / 16777216 = a / 16777216 := by omega
      have := h2 e hlr heq
      omega

example : exTable.getCountry 100663300 = .ok [] ∧ rangeOf exTable 100663300 = some (83900000, 1) := ⟨by decide +kernel, by decide +kernel⟩

/-- C49: loading what was saved, into an empty table, gives the same table. -/
theorem C49_round_trip {t : Table} (h : GoodCountries t) : ({} : Table).load t.save = .ok t := by
  have hlen : ∀ (cs : List (List UInt8)), cs.length ≤ (cs.flatMap fun c => c ++ [chr '\n']).length := by
    intro cs
    induction cs with
    | nil => simp
    | cons c cs ih => simp only [List.flatMap_cons, List.length_append, List.length_cons, List.length_nil]; omega
  unfold Table.load
  have := load_countries (List.replicate 256 []) (t.buckets.flatMap fun b => b.flatMap rangeBytes ++ ascii "EEEEEE") t.countries []
    (t.save.length + 1) h.names (by
      have := hlen t.countries
      unfold Table.save
      simp only [List.length_append, List.length_cons, List.length_nil]
      omega)
  refine this.trans ?_
  have hb := load_buckets t.countries t.buckets [] (List.replicate 256 []) (by rw [h.buckets, List.length_replicate])
    (fun b hb => List.eq_of_mem_replicate hb) (by
      intro b hb e he
      obtain ⟨i, hi⟩ := List.mem_iff_getElem?.mp hb
      have h1 := h.place i b hi e he
      have h2 := (List.getElem?_eq_some_iff.mp hi).1
      rw [h.buckets] at h2
      have h3 := h.country b hb e he
      have h4 := h.few
      omega)
  exact hb

/-- C49 does not hold: a table is saved under a name from which it is not loaded, for every folder. -/
theorem C49_path_violated (separator folder : List UInt8) (h : separator ≠ []) : savePath folder ≠ loadPath separator folder := by
  intro he
  have := congrArg List.length he
  unfold savePath loadPath at this
  simp at this
  exact h this

end Verif
