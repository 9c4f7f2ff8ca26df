/-! Vocabulary for the metadata of a torrent cut into pieces (BEP 9). -/

namespace Verif.Spec

/-- Piece `k` of the metadata `m`: at most 16 KiB from position `k * 16384` on. -/
def mdPiece (m : List UInt8) (k : Nat) : List UInt8 := (m.drop (k * 16384)).take 16384

/-- The number of pieces of metadata of that size. -/
def mdCount (size : Nat) : Nat := (size + 16383) / 16384

end Verif.Spec
