import Verif.Model.Location
/-! What is meant by the place of a torrent's files. -/

namespace Verif.Spec.Location
open Verif.Location

/-- A name of one file or folder. -/
def Plain (w : List UInt8) : Prop :=
  w ≠ [] ∧ (∀ c ∈ w, c ≠ 47 ∧ c ≠ 0) ∧ w ≠ [46] ∧ w ≠ [46, 46]

/-- The names of the file and its folders are names. -/
def Named (f : Metafile.FileName) : Prop := Plain f.name ∧ ∀ w ∈ f.path, Plain w

/-- A location as kept by a torrent: empty or with a separator at its end, without a zero. -/
def Location (p : List UInt8) : Prop := (∀ c ∈ p, c ≠ 0) ∧ (p = [] ∨ ∃ a, p = a ++ [47])

/-- Everything of the file system is in a folder. -/
def Tree (fs : Fs) : Prop := ∀ e ∈ fs, e.1 ≠ [] ∧ get fs e.1.dropLast = some .dir

/-- The files of a torrent lie at its name: at the place itself or in the folder. -/
def Rooted (st : Storage) (f : Metafile.FileName) : Prop := ∃ r, f.path ++ [f.name] = st.name :: r

/-- The bytes of the file at a place, none if there is no file. -/
def onDisk (fs : Fs) (p : Place) : Nat :=
  match get fs p with
  | some (.file c) => c.length
  | _ => 0

end Verif.Spec.Location
