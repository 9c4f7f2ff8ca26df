import Verif.Model.Utp
namespace Verif.Spec
open Utp

/-- Extensions behind a uTP header: next type, length, content. -/
def extBytes : List (Nat × List UInt8) → List UInt8
  | [] => []
  | [e] => [0, UInt8.ofNat e.2.length] ++ e.2
  | e :: f :: es => [UInt8.ofNat f.1, UInt8.ofNat e.2.length] ++ e.2 ++ extBytes (f :: es)

/-- The type of the first extension, 0 if none. -/
def firstExt (es : List (Nat × List UInt8)) : Nat := match es with | [] => 0 | e :: _ => e.1

/-- A packet that fits its fields. -/
structure GoodPacket (p : Packet) : Prop where
  typ : p.head.typ ≤ 4
  ext : p.head.ext = firstExt p.exts
  exts : ∀ e ∈ p.exts, e.1 ≠ 0 ∧ e.1 < 256 ∧ e.2.length < 256
  conn : p.head.conn < 65536
  ts : p.head.ts < 4294967296
  tsDiff : p.head.tsDiff < 4294967296
  wnd : p.head.wnd < 4294967296
  seq : p.head.seq < 65536
  ack : p.head.ack < 65536

/-- The bytes of a packet. -/
def packetBytes (p : Packet) : List UInt8 := p.head.bytes ++ extBytes p.exts ++ p.data

end Verif.Spec

namespace Verif.Spec
open Utp

/-- Everything the stream has handed to the application or holds ready for it, in order. -/
def delivered (s : Stream) : List UInt8 := s.taken ++ s.receiveBuffer

/-- The packet carries part `k` of the stream that starts with number `s0`. -/
def Carries (s0 : Nat) (ps : List (List UInt8)) (p : Packet) (k : Nat) : Prop :=
  p.head.typ = 0 ∧ p.head.seq = (s0 + k) % 65536 ∧ ps[k]? = some p.data

/-- Data packets that arrive are parts of the stream `ps`, lost, repeated and reordered in any way, as long as
no part arrives 32768 or more places away from the first missing one. (Packets without data are ignored by
the code.) -/
def Faithful (s0 : Nat) (ps : List (List UInt8)) : List Event → Stream → Prop
  | [], _ => True
  | e :: es, s =>
    (∀ p, e = .packet p → p.head.typ = 0 → p.data ≠ [] →
      ∃ k, Carries s0 ps p k ∧ ∀ d, delivered s = (ps.take d).flatten → d ≤ ps.length → k < d + 32768 ∧ d ≤ k + 32768) ∧
    ∀ s', s.next e = .ok s' → Faithful s0 ps es s'

/-- Part `k` is among the packets that arrived. -/
def PartArrived (s0 : Nat) (ps : List (List UInt8)) (es : List Event) (k : Nat) : Prop :=
  ∃ p, Event.packet p ∈ es ∧ Carries s0 ps p k

/-- A stream that has received nothing yet, with `s0` the number expected first. -/
structure Opened (s0 : Nat) (s : Stream) : Prop where
  step : s.step = .synRecv ∨ s.step = .connected
  ack : s.ack = (s0 + 65535) % 65536
  stored : s.receivedData = []
  buffer : s.receiveBuffer = []
  taken : s.taken = []

end Verif.Spec

namespace Verif.Spec
open Utp

/-- Bit `j` of byte `i` of a selective ack names the number `ack + 2 + 8 * i + j`. -/
def SackNames (ack : Nat) (bytes : List UInt8) (q : Nat) : Prop :=
  ∃ i j b, bytes[i]? = some b ∧ j < 8 ∧ b.toNat.testBit j = true ∧ q = (ack + 2 + 8 * i + j) % 65536

/-- The packet acknowledges the number `q`: its ack is at or after it, or a selective ack names it. -/
def Acknowledges (p : Packet) (q : Nat) : Prop :=
  (p.head.typ = 0 ∨ p.head.typ = 2) ∧
    ((p.head.ack + 65536 - q) % 65536 ≤ 32768 ∨ ∃ e ∈ p.exts, e.1 = 1 ∧ SackNames p.head.ack e.2 q)

/-- The stream keeps the data packet with number `q` and content `c`. -/
def Stores (s : Stream) (q : Nat) (c : List UInt8) : Prop :=
  ∃ e ∈ s.sentData, e.seq = q ∧ ∃ h : Header, h.typ = 0 ∧ h.ext = 0 ∧ h.conn = s.idSend ∧ h.seq = q ∧ s.buffers[e.idx]? = some (h.bytes ++ c)

/-- Written data that is not sent yet. -/
def waiting (s : Stream) : List UInt8 := s.prepared.drop s.preparedPos

/-- The data written to the stream, except once it is closed. -/
def writtenData : List Event → Stream → List UInt8
  | [], _ => []
  | e :: es, s =>
    (match e with | .write data _ => if s.step = .closed then [] else data | _ => []) ++
    match s.next e with | .ok s' => writtenData es s' | _ => []

/-- The peer ends or resets the stream. -/
def PeerEnds : Event → Prop
  | .packet p => p.head.typ = 1 ∨ p.head.typ = 3
  | _ => False

/-- The size of the packets kept. -/
def keptSize (s : Stream) : Nat := (s.sentData.map fun e => (s.buffers.getD e.idx []).length).sum

/-- A stream that has sent no data yet, with `q0` the next number. -/
structure Unsent (q0 : Nat) (s : Stream) : Prop where
  step : s.step = .synRecv ∨ s.step = .connected
  seq : s.sequence = q0 % 65536
  sent : s.sentData = []
  unacked : s.unacked = 0
  prepared : s.prepared = []
  pos : s.preparedPos = 0
  size : 1 ≤ s.maxSize ∧ s.maxSize ≤ 1452
  buffers : s.buffers.length ≤ 65536

end Verif.Spec
