import Verif.Spec.Layout
/-! The room needed for the pieces of the selected files. -/

namespace Verif.Spec.SelectedFiles
open Verif.Spec

/-- File `j` has a byte in piece `p`. -/
def dataIn (ps : Nat) (sizes : List Nat) (j p : Nat) : Bool :=
  (List.range (sizes[j]?.getD 0)).any (fun x => (fileStart sizes j + x) / ps = p)

/-- Piece `p` has a byte of a selected file. -/
def wanted (ps : Nat) (sizes : List Nat) (sel : List Bool) (p : Nat) : Bool :=
  (List.range sizes.length).any (fun j => sel[j]?.getD false && dataIn ps sizes j p)

/-- The bytes of file `k` that are kept: all if it is selected, otherwise those in pieces with bytes of selected files. -/
def needed (ps : Nat) (sizes : List Nat) (sel : List Bool) (k : Nat) : Nat :=
  if sel[k]?.getD false then sizes[k]?.getD 0
  else (List.range (sizes[k]?.getD 0)).countP (fun x => wanted ps sizes sel ((fileStart sizes k + x) / ps))

/-- All files that need room. -/
def room (ps : Nat) (sizes : List Nat) (sel : List Bool) : List (Nat × Nat) :=
  (List.range sizes.length).filterMap (fun k =>
    if sel[k]?.getD false || needed ps sizes sel k ≠ 0 then some (k, needed ps sizes sel k) else none)

/-- Only one file is selected. -/
def only (n idx : Nat) : List Bool := (List.range n).map (fun k => k == idx)

end Verif.Spec.SelectedFiles
