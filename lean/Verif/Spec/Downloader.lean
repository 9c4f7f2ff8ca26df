import Verif.Model.Downloader
/-! Histories of the downloader, for C17, C19 and C69. -/

namespace Verif.Spec.Download
open Verif Downloader Layout

/-- What happened, and what was done at each event. -/
abbrev History := List (Ev × List Act)

/-- The piece and the number of the block. -/
def blockOf (b : BlockInfo) : Nat × Nat := (b.index, b.begin / 16384)

/-- The block an arriving block is taken for (`PieceState::addBlock`). -/
def storedAs (b : BlockInfo) : Nat × Nat := (b.index, (b.begin + 1) % 4294967296 / 16384)

/-- The blocks asked for from each peer, and not answered. -/
abbrev Pending := Nat → List (Nat × Nat)

/-- An arriving block answers the request for it; at an unchoke the requests are void, as they are
when the connection or the torrent ends. -/
def pendingEv (f : Pending) : Ev → Pending
  | .message q (.piece b _) => fun p => if p = q then (f p).filter (· ≠ blockOf b) else f p
  | .message q .unchoke => fun p => if p = q then [] else f p
  | .closed q => fun p => if p = q then [] else f p
  | .stop => fun _ => []
  | _ => f

/-- A request adds a block. When a piece is complete or dropped, the requests for its blocks are over. -/
def pendingAct (f : Pending) : Act → Pending
  | .request q b => fun p => if p = q then blockOf b :: f p else f p
  | .completed idx => fun p => (f p).filter (·.1 ≠ idx)
  | .dropped idx => fun p => (f p).filter (·.1 ≠ idx)
  | _ => f

def pendingStep (f : Pending) (h : Ev × List Act) : Pending := h.2.foldl pendingAct (pendingEv f h.1)

/-- The blocks pending after the history. -/
def pending (h : History) : Pending := h.foldl pendingStep fun _ => []

/-- The same on the wire: only an answer, a choke or the end of the connection takes a request off. -/
def wireEv (f : Pending) : Ev → Pending
  | .message q (.piece b _) => fun p => if p = q then (f p).filter (· ≠ blockOf b) else f p
  | .message q .choke => fun p => if p = q then [] else f p
  | .closed q => fun p => if p = q then [] else f p
  | .stop => fun _ => []
  | _ => f

def wireAct (f : Pending) : Act → Pending
  | .request q b => fun p => if p = q then blockOf b :: f p else f p
  | _ => f

/-- The blocks asked for on the wire and not answered. -/
def onWire (h : History) : Pending := h.foldl (fun f h => h.2.foldl wireAct (wireEv f h.1)) fun _ => []

/-- The blocks there of pieces being downloaded. -/
def gotAct (g : List (Nat × Nat)) : Act → List (Nat × Nat)
  | .store b => storedAs b :: g
  | .completed idx => g.filter (·.1 ≠ idx)
  | .dropped idx => g.filter (·.1 ≠ idx)
  | _ => g

def gotEv (g : List (Nat × Nat)) : Ev → List (Nat × Nat)
  | .stop => []
  | _ => g

def gotStep (g : List (Nat × Nat)) (h : Ev × List Act) : List (Nat × Nat) := h.2.foldl gotAct (gotEv g h.1)

def got (h : History) : List (Nat × Nat) := h.foldl gotStep []

/-- A torrent whose transfer has not started anything. -/
def Fresh (s : St) : Prop :=
  s.requests = [] ∧ s.infos = [] ∧ s.peers = [] ∧ s.checks = [] ∧ s.fresh = [] ∧ s.checking = 0 ∧ s.finishes = 0

/-- The pieces kept from an earlier run have the number of blocks of the piece. -/
def KeptOk (s : St) : Prop :=
  ∀ u ∈ s.unfinished, u.downloadedSize ≠ 0 → u.blocksState.length = getPieceBlocksCount s.files.info u.index

end Verif.Spec.Download

namespace Verif.Spec.Download
open Verif Downloader Layout

/-- How far a connection is: not there, before the handshake, after it, after the first `have` or
`bitfield`. -/
inductive Phase where
  | none
  | opened
  | greeted
  | spoken
deriving DecidableEq, Repr

def phaseEv (f : Nat → Phase) : Ev → Nat → Phase
  | .connect q => fun p => if p = q then .opened else f p
  | .handshake q => fun p => if p = q ∧ f p = .opened then .greeted else f p
  | .message q (.have _) => fun p => if p = q then .spoken else f p
  | .message q (.bitfield _) => fun p => if p = q then .spoken else f p
  | .closed q => fun p => if p = q then .none else f p
  | .stop => fun _ => .none
  | _ => f

/-- The peer keeps to the protocol: messages after the handshake, at most one bitfield, as the first
message, indices of 32 bits. The number of a connection is not used twice at a time, and a change of the selection is one
event. -/
def politeEv (f : Nat → Phase) : Ev → Prop
  | .connect p => f p = .none
  | .message p (.bitfield _) => f p = .greeted
  | .message p (.have k) => (f p = .greeted ∨ f p = .spoken) ∧ k < 4294967296
  | .message p _ => f p = .greeted ∨ f p = .spoken
  | .select _ _ => False
  | _ => True

def politeFrom (f : Nat → Phase) : List Ev → Prop
  | [] => True
  | e :: es => politeEv f e ∧ politeFrom (phaseEv f e) es

def Polite (es : List Ev) : Prop := politeFrom (fun _ => .none) es

/-- What the peers said they have. -/
def saidEv (f : Nat → Nat → Bool) : Ev → Nat → Nat → Bool
  | .connect q => fun p i => if p = q then false else f p i
  | .message q (.have k) => fun p i => if p = q then f p i || i == k else f p i
  | .message q (.bitfield d) => fun p i => if p = q then bit d i else f p i
  | _ => f

def said (es : List Ev) : Nat → Nat → Bool := es.foldl saidEv fun _ _ => false

end Verif.Spec.Download

namespace Verif.Spec.Download
open Verif Downloader Layout Progress

/-- In the history, which began in `s0`, piece `i` was checked: bytes were read whose hash is that of
the piece in the metadata. -/
def Verified (sha : List UInt8 → List UInt8) (hashes : List (List UInt8)) (s0 : St) (h : History) (i : Nat) : Prop :=
  ∃ a k data as b s1 q, h = a ++ (.check k (some data), as) :: b ∧ run sha hashes s0 (a.map (·.1)) = .ok (s1, a) ∧
    s1.checks[k]? = some (i, q) ∧ hashes[i]? = some (sha data)

/-- Every selected piece was there from the beginning or was checked. -/
def AllVerified (sha : List UInt8 → List UInt8) (hashes : List (List UInt8)) (s0 : St) (h : History) (s : St) : Prop :=
  ∀ i, selectedPiece s.files.progress i = .ok true →
    hasPiece s0.files.progress i = .ok true ∨ Verified sha hashes s0 h i

def isSelect : Ev → Bool
  | .select .. => true
  | _ => false

def changesSelection : Ev → Bool
  | .select .. => true
  | .selectFile .. => true
  | _ => false

end Verif.Spec.Download

namespace Verif.Spec.Download
open Verif Downloader

/-- The last word of the peer on choking was that it lets us ask. -/
def heardEv (f : Nat → Bool) : Ev → Nat → Bool
  | .message q .choke => fun p => if p = q then false else f p
  | .message q .unchoke => fun p => if p = q then true else f p
  | .closed q => fun p => if p = q then false else f p
  | .stop => fun _ => false
  | _ => f

def unchoked (es : List Ev) : Nat → Bool := es.foldl heardEv fun _ => false

/-- The handshake with the peer is done and the connection has not ended since. -/
def joinedEv (f : Nat → Bool) : Ev → Nat → Bool
  | .handshake q => fun p => if p = q then true else f p
  | .closed q => fun p => if p = q then false else f p
  | .stop => fun _ => false
  | _ => f

/-- We ended the connection. -/
def leaves (as : List Act) (p : Nat) : Prop := .ban p ∈ as ∨ .close p ∈ as

instance (as : List Act) (p : Nat) : Decidable (leaves as p) := by unfold leaves; infer_instance

def joinedStep (f : Nat → Bool) (h : Ev × List Act) : Nat → Bool :=
  fun p => joinedEv f h.1 p && !decide (leaves h.2 p)

def joined (h : History) : Nat → Bool := h.foldl joinedStep fun _ => false

end Verif.Spec.Download

namespace Verif.Spec.Download
open Verif Downloader Layout

/-- The message names only what the torrent has: `have` a piece of it, `bitfield` a bit for every piece, `piece` a
block of the piece. -/
def saneEv (i : Info) : Ev → Prop
  | .message _ (.have k) => k < i.piecesCount
  | .message _ (.bitfield d) => i.piecesCount ≤ 8 * d.length
  | .message _ (.piece b _) => b.index < i.piecesCount → b.begin / 16384 < getPieceBlocksCount i b.index
  | _ => True

/-- The numbers in the metadata fit: every piece has 1 to 65535 blocks, and files end within the pieces. -/
structure SaneInfo (i : Info) : Prop where
  pieces : 0 < i.piecesCount ∧ i.piecesCount ≤ 16777216
  blocks : ∀ idx, idx < i.piecesCount → 0 < getPieceBlocksCount i idx ∧ getPieceBlocksCount i idx < 65536
  files : ∀ f ∈ i.files, f.endPieceIndex < i.piecesCount

end Verif.Spec.Download
