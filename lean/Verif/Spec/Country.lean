import Verif.Model.Country
namespace Verif.Spec
open Country

/-- All ranges of a table, each given by its first address and its country. -/
def ranges (t : Table) : List (Nat × Nat) := t.buckets.flatten

/-- The range an address is in: the last one that starts at it or before it. -/
def rangeOf (t : Table) (address : Nat) : Option (Nat × Nat) := ((ranges t).filter fun e => decide (e.1 ≤ address)).getLast?

/-- A table as the program that makes it produces it: ranges in order, each in the bucket of the first byte
of its first address, with the index of a country, whose name is one non-empty line. The number 17733 is not
used. -/
structure GoodCountries (t : Table) : Prop where
  buckets : t.buckets.length = 256
  place : ∀ i b, t.buckets[i]? = some b → ∀ e ∈ b, e.1 / 16777216 = i
  sorted : ∀ b ∈ t.buckets, b.Pairwise fun x y => x.1 < y.1
  country : ∀ b ∈ t.buckets, ∀ e ∈ b, e.2 < t.countries.length
  few : t.countries.length ≤ 17733
  names : ∀ c ∈ t.countries, c ≠ [] ∧ chr '\n' ∉ c

end Verif.Spec
