/-! Specification of piece progress: a list of pieces, each received or not, selected or not. -/

namespace Verif.Spec

structure Piece where
  has : Bool
  sel : Bool
deriving DecidableEq, Repr

/-- A piece nobody touched. -/
def Piece.new : Piece := ⟨false, true⟩

abbrev Pieces := List Piece

namespace Pieces

/-- Cut or extend to `n` pieces. -/
def resize (l : Pieces) (n : Nat) : Pieces := l.take n ++ List.replicate (n - l.length) Piece.new

/-- Piece `i` was received (the list is extended if it is shorter). -/
def add (l : Pieces) (i : Nat) : Pieces :=
  (resize l (max l.length (i + 1))).modify i (fun p => { p with has := true })

def remove (l : Pieces) (i : Nat) : Pieces := l.modify i (fun p => { p with has := false })

def removeWhere (l : Pieces) (w : List Bool) : Pieces :=
  l.mapIdx fun i p => if w[i]? = some true then { p with has := false } else p

def select (l : Pieces) (a b : Nat) (s : Bool) : Pieces :=
  l.mapIdx fun i p => if a ≤ i ∧ i ≤ b then { p with sel := s } else p

def received (l : Pieces) : Nat := l.countP (·.has)
def selected (l : Pieces) : Nat := l.countP (·.sel)
def selectedReceived (l : Pieces) : Nat := l.countP fun p => p.has && p.sel

/-- Size of piece `i` of a torrent of `full` bytes cut into pieces of `ps` bytes. -/
def pieceSize (ps full i : Nat) : Nat := min ps (full - i * ps)

/-- Total size of the pieces satisfying `q`. -/
def bytes (l : Pieces) (ps full : Nat) (q : Piece → Bool) : Nat :=
  (l.mapIdx fun i p => if q p then pieceSize ps full i else 0).sum

/-- The saved flag byte of a piece. -/
def flagByte (p : Piece) : UInt8 := (if p.has then 1 else 0) + (if p.sel then 0 else 8)

end Pieces

/-- The operations on a torrent's progress. Indices are 32-bit numbers in the API. -/
inductive ProgOp where
  | add (i : Nat)
  | remove (i : Nat)
  | removeWhere (w : List Bool)
  | select (a b : Nat) (selected : Bool)
  | resize (n : Nat)
deriving DecidableEq, Repr

/-- What an operation does to the pieces; `none`: an index outside the torrent (for `add`, the
largest 32-bit index, which cannot be counted in 32 bits). -/
def Pieces.step (l : Pieces) : ProgOp → Option Pieces
  | .add i => if i < l.length ∨ i + 1 < 4294967296 then some (l.add i) else none
  | .remove i => if i < l.length then some (l.remove i) else none
  | .removeWhere w => if l.length ≤ w.length then some (l.removeWhere w) else none
  | .select a b sel => if b < l.length ∨ b < a then some (l.select a b sel) else none
  | .resize n => some (l.resize n)

def Pieces.run (l : Pieces) : List ProgOp → Option Pieces
  | [] => some l
  | o :: os => (Pieces.step l o).bind fun l => Pieces.run l os

end Verif.Spec

namespace Verif.Spec

/-- Bit `k` of a bitfield, most significant bit of the first byte first (BEP 3). Positions outside
the bitfield read as zero. -/
def bit (d : List UInt8) (k : Nat) : Bool :=
  match d[k / 8]? with
  | some b => b.toNat.testBit (7 - k % 8)
  | none => false

end Verif.Spec
