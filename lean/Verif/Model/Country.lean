import Verif.Model.DhtResponder
/-! Countries of IPv4 addresses, utils/FastIpToCountry.cpp. -/

namespace Verif.Country
open Verif

/-- utils/FastIpToCountry.h:19-20; a bucket is a list of first addresses and indices of countries. -/
structure Table where
  countries : List (List UInt8) := []
  buckets : List (List (Nat × Nat)) := List.replicate 256 []
deriving DecidableEq, Repr

/-- `std::lower_bound` (by halving; only for sorted lists do all implementations agree) with the
comparison of utils/FastIpToCountry.cpp:78-81: the number of entries before the result. -/
def lowerBound (l : List (Nat × Nat)) (address : Nat) : Nat → Nat → Nat → Nat
  | 0, first, _ => first
  | n + 1, first, len =>
    if len = 0 then first
    else match l[first + len / 2]? with
      | some x =>
        if x.1 ≤ address then lowerBound l address n (first + len / 2 + 1) (len - len / 2 - 1)
        else lowerBound l address n first (len / 2)
      | none => first

/-- utils/FastIpToCountry.cpp:69-88 `GetCountry` and `GetCountryFromIndex` with
utils/FastIpToCountry.h:24-27 `GetIndexFromAddress`. -/
def Table.getCountry (t : Table) (address : Nat) : Res (List UInt8) := do
  let list ← rd t.buckets (address / 16777216 % 256)
  let it := lowerBound list address list.length 0 list.length
  if it = list.length ∨ it = 0 then pure []
  else do
    let e ← rd list (it - 1)
    rd t.countries e.2

/-- utils/FastIpToCountry.cpp:18-22: a range in the file, in memory order. -/
def rangeBytes (e : Nat × Nat) : List UInt8 :=
  [UInt8.ofNat e.1, UInt8.ofNat (e.1 / 256), UInt8.ofNat (e.1 / 65536), UInt8.ofNat (e.1 / 16777216), UInt8.ofNat e.2, UInt8.ofNat (e.2 / 256)]

/-- utils/FastIpToCountry.cpp:5-26 `toFile`: the contents of the file. -/
def Table.save (t : Table) : List UInt8 :=
  t.countries.flatMap (fun c => c ++ [chr '\n']) ++ [chr '\n'] ++ t.buckets.flatMap (fun b => b.flatMap rangeBytes ++ ascii "EEEEEE")

/-- utils/FastIpToCountry.cpp:7 and 33: the names of the file written and read for a folder. -/
def savePath (folder : List UInt8) : List UInt8 := folder ++ ascii "ipclist"
def loadPath (separator folder : List UInt8) : List UInt8 := folder ++ separator ++ ascii "ipclist"

/-- utils/FastIpToCountry.cpp:43-50: one range, or the end of a bucket. -/
def Table.add (t : Table) (bucket ip country : Nat) : Res (Nat × Table) :=
  if country = 17733 then .ok (bucket + 1, t)
  else if bucket < t.buckets.length then .ok (bucket, { t with buckets := t.buckets.modify bucket (· ++ [(ip, country)]) })
  else .ub

/-- utils/FastIpToCountry.cpp:34-51: the loop over ranges. With fewer than six bytes left the stream fails
after this round, and what could not be read keeps its value. -/
def loadRanges (t : Table) (bucket : Nat) : List UInt8 → Res Table
  | a :: b :: c :: d :: e :: f :: rest =>
    match t.add bucket (a.toNat + 256 * b.toNat + 65536 * c.toNat + 16777216 * d.toNat) (e.toNat + 256 * f.toNat) with
    | .ok (k, t') => loadRanges t' k rest
    | .ub => .ub
    | .diverge => .diverge
  | [a, b, c, d, e] => do
    let r ← t.add bucket (a.toNat + 256 * b.toNat + 65536 * c.toNat + 16777216 * d.toNat) (e.toNat + 17664)
    pure r.2
  | _ => .ok t

/-- `std::getline`: the line and what follows it, `none` if the file ends before the end of the line. -/
def splitLine : List UInt8 → List UInt8 × Option (List UInt8)
  | [] => ([], none)
  | c :: cs => if c = chr '\n' then ([], some cs) else (c :: (splitLine cs).1, (splitLine cs).2)

/-- utils/FastIpToCountry.cpp:34-66: the loop over countries; each round takes a line, so as many rounds as
bytes and one more are enough. -/
def loadCountries (t : Table) : Nat → List UInt8 → Res Table
  | 0, _ => .diverge
  | n + 1, data =>
    match splitLine data with
    | ([], none) => .ok t
    | (line, none) => .ok { t with countries := t.countries ++ [line] }
    | ([], some rest) => loadRanges t 0 rest
    | (line, some rest) => loadCountries { t with countries := t.countries ++ [line] } n rest

/-- utils/FastIpToCountry.cpp:28-67 `fromFile`. -/
def Table.load (t : Table) (data : List UInt8) : Res Table := loadCountries t (data.length + 1) data

end Verif.Country
