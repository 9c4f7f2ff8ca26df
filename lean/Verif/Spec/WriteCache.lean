import Verif.Model.WriteCache
import Verif.Spec.StorageLayout
/-! Vocabulary of the write cache properties. -/

namespace Verif
open Layout Spec Storage WriteCache

/-- A received block: not empty, at most 16 KiB, inside its piece and the torrent. -/
structure LegalStore (ps total : Nat) (b : Block) : Prop where
  len : b.data.length = b.info.length
  pos : 0 < b.data.length
  max : b.data.length ≤ 16384
  inPiece : b.info.begin + b.data.length ≤ ps
  inTorrent : blockStart ps b + b.data.length ≤ total

/-- Two blocks have no byte of the torrent in common. -/
def Apart (ps : Nat) (a b : Block) : Prop :=
  blockStart ps a + a.data.length ≤ blockStart ps b ∨ blockStart ps b + b.data.length ≤ blockStart ps a

/-- No flush of a partly filled group is under way. -/
def Quiet (s : St) : Prop := ∀ t ∈ s.tasks, ∀ g ∈ s.groups, g.id = t.gid → full g = true

/-- Stores are of legal blocks not overlapping a block still in the cache; no store and no `flush()`
happens while a flush of a partly filled group is under way. The background steps are not restricted. -/
def LegalEv (ps total : Nat) (s : St) : Ev → Prop
  | .store b => LegalStore ps total b ∧ (∀ c ∈ cached s, Apart ps c b) ∧ Quiet s
  | .flushAll => Quiet s
  | _ => True

def LegalRun (i : Info) (groupSize ps total : Nat) : St → List Ev → Prop
  | _, [] => True
  | s, e :: es => LegalEv ps total s e ∧ ∀ s', step i groupSize s e = .ok s' → LegalRun i groupSize ps total s' es

instance (ps total : Nat) (b : Block) : Decidable (LegalStore ps total b) :=
  decidable_of_iff (b.data.length = b.info.length ∧ 0 < b.data.length ∧ b.data.length ≤ 16384 ∧
      b.info.begin + b.data.length ≤ ps ∧ blockStart ps b + b.data.length ≤ total)
    ⟨fun ⟨a, b, c, d, e⟩ => ⟨a, b, c, d, e⟩, fun ⟨a, b, c, d, e⟩ => ⟨a, b, c, d, e⟩⟩

instance (ps : Nat) (a b : Block) : Decidable (Apart ps a b) := by unfold Apart; infer_instance

instance (s : St) : Decidable (Quiet s) := by unfold Quiet; infer_instance

instance (ps total : Nat) (s : St) (e : Ev) : Decidable (LegalEv ps total s e) := by
  cases e <;> unfold LegalEv <;> infer_instance

instance LegalRun.dec (i : Info) (G ps total : Nat) : (es : List Ev) → (s : St) → Decidable (LegalRun i G ps total s es)
  | [], _ => .isTrue trivial
  | e :: es, s =>
    match h : step i G s e with
    | .ok s' =>
      have := LegalRun.dec i G ps total es s'
      decidable_of_iff (LegalEv ps total s e ∧ LegalRun i G ps total s' es)
        ⟨fun ⟨a, b⟩ => ⟨a, fun s'' hs => by rw [h] at hs; cases hs; exact b⟩, fun hh => ⟨hh.1, hh.2 s' h⟩⟩
    | .ub => decidable_of_iff (LegalEv ps total s e) ⟨fun a => ⟨a, fun s'' hs => by rw [h] at hs; cases hs⟩, fun hh => hh.1⟩
    | .diverge => decidable_of_iff (LegalEv ps total s e) ⟨fun a => ⟨a, fun s'' hs => by rw [h] at hs; cases hs⟩, fun hh => hh.1⟩

/-- The blocks stored, in order. -/
def storedBlocks (es : List Ev) : List Block := es.filterMap fun e => match e with | .store b => some b | _ => none

end Verif
