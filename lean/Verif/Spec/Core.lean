import Verif.Model.Core
/-! Words for C47. -/

namespace Verif.Spec.Torrents
open Verif Verif.Torrents

/-- The hashes of the torrents, in order. -/
def hashes (s : Sys) : List Hash := s.torrents.map fun t => t.info.hash

/-- At most one torrent per hash. -/
def OnePerHash (s : Sys) : Prop := (hashes s).Nodup

/-- The file of that hash in the state folder has the info dictionary of that hash. -/
def Kept (s : Sys) (h : Hash) : Prop := ∃ i, (h, Content.good i) ∈ s.files

/-- What the proofs ask of the world: torrents are added while the client is up, and no two threads add the same hash
at the same time; metadata and foreign changes of the state folder have the right hash; the state folder has the
`.torrent` file of every listed torrent whose `.state` file it has. -/
def SoundEv (s : Sys) : Ev → Prop
  | .launch saved => ∀ h ∈ s.list, saved h ≠ .absent → Kept s h
  | .file _ i => s.up = true ∧ ∀ p ∈ s.pending, p.2.info.hash ≠ i.hash
  | .magnet _ (some i) => s.up = true ∧ ∀ p ∈ s.pending, p.2.info.hash ≠ i.hash
  | .metadata id i => ∀ t ∈ s.torrents, t.id = id → i.hash = t.info.hash
  | .disk h c => ∃ i, c = some (.good i) ∧ i.hash = h
  | _ => True

/-- A history the world of which is sound. -/
def SoundRun (fake : Hash → Hash) : Sys → List Ev → Prop
  | _, [] => True
  | s, e :: es => SoundEv s e ∧ ∀ s' o, step fake s e = .ok (s', o) → SoundRun fake s' es

end Verif.Spec.Torrents
