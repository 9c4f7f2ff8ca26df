import Verif.Spec.FileProgress
/-! Progress of a torrent, for C103. -/

namespace Verif.Spec.TorrentProgress
open Verif Layout Downloader Spec.DataLeft Spec.FileProgress

/-- The piece is selected. -/
def chosen (s : St) (p : Nat) : Bool := Progress.selectedPiece s.files.progress p = .ok true

/-- The selected pieces of `n`. -/
def wanted (s : St) (n : Nat) : List Nat := (List.range n).filter (chosen s)

/-- The bytes that arrived of pieces that are not there. -/
def arrived (s : St) (l : List Nat) : Nat := (l.map fun p => if has s p then 0 else there s p).sum

/-- Kept pieces of which nothing is left, as after their download went on, are pieces of the torrent. -/
def EmptyKept (s : St) (n : Nat) : Prop := ∀ u ∈ s.unfinished, u.downloadedSize = 0 → u.index < n

end Verif.Spec.TorrentProgress
