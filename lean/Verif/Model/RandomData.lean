import Verif.Common
/-! utils/DataBuffer.cpp:17-54: random bytes for keys and padding.

The generator `std::mt19937_64` is a parameter `mt`: from a seed, its numbers in order, of any values.  Buffers begin at a multiple of 8 in memory, as
allocated ones do; a place is its offset in the buffer. -/

namespace Verif.RandomData
open Verif

/-- The bytes of a 64-bit number in memory, on a little-endian machine. -/
def word (v : Nat) : List UInt8 := (List.range 8).map fun i => UInt8.ofNat (v / 256 ^ i)

/-- Bytes written at a place of a buffer; outside is undefined. -/
def put (buf : List UInt8) (off : Nat) (bytes : List UInt8) : Res (List UInt8) :=
  if off + bytes.length ≤ buf.length then .ok (buf.take off ++ bytes ++ buf.drop (off + bytes.length)) else .ub

/-- utils/DataBuffer.cpp:46-47: whole words; storing one at a place that is not a multiple of 8 is undefined. -/
def words (draw : Nat → Nat) (pos : Nat) (buf : List UInt8) (off : Nat) : Nat → Res (List UInt8)
  | 0 => .ok buf
  | n + 1 => do
    if off % 8 ≠ 0 then .ub else
    let b ← put buf off (word (draw pos))
    words draw (pos + 1) b (off + 8) n

/-- utils/DataBuffer.cpp:39-54 `Random::Data`: the buffer and how many numbers were taken, from the `pos`-th on. -/
def fill (draw : Nat → Nat) (pos : Nat) (buf : List UInt8) (off size : Nat) : Res (List UInt8 × Nat) := do
  let b ← words draw pos buf off (size / 8)
  if size % 8 = 0 then .ok (b, pos + size / 8)
  else
    let b ← put b (off + 8 * (size / 8)) ((word (draw (pos + size / 8))).take (size % 8))
    .ok (b, pos + size / 8 + 1)

/-- utils/DataBuffer.cpp:25 `(int)time(nullptr)`, as the 64-bit seed. -/
def seedAt (now : Nat) : Nat :=
  if now % 4294967296 < 2147483648 then now % 4294967296 else 18446744073709551616 - 4294967296 + now % 4294967296

/-- The generators of threads (`thread_local`, utils/DataBuffer.cpp:23-27), each with its seed and numbers taken. -/
structure St where
  gens : List (Nat × Nat × Nat) := []
deriving DecidableEq, Repr

/-- utils/DataBuffer.cpp:23-27: the generator of a thread, made when first used. -/
def genOf (s : St) (thread now : Nat) : Nat × Nat :=
  match s.gens.find? fun g => g.1 = thread with
  | some g => g.2
  | none => (seedAt now, 0)

/-- A thread fills `size` bytes at the start of a new buffer, as for a private key (utils/DiffieHellman.cpp:3-7). -/
def key (mt : Nat → Nat → Nat) (s : St) (thread now size : Nat) : Res (List UInt8 × St) := do
  let g := genOf s thread now
  let (b, pos) ← fill (mt g.1) g.2 (List.replicate size 0) 0 size
  .ok (b, { gens := (thread, g.1, pos) :: s.gens.filter fun g => g.1 ≠ thread })

/-- Core/ProtocolEncryption.cpp:157-164: padding behind 54 bytes. -/
def pe3Padding (draw : Nat → Nat) (pos pad msg : Nat) : Res (List UInt8 × Nat) :=
  fill draw pos (List.replicate (54 + pad + 2 + msg) 0) 54 pad

/-- Core/ProtocolEncryption.cpp:305-323: padding behind 14 bytes. -/
def pe4Padding (draw : Nat → Nat) (pos pad : Nat) : Res (List UInt8 × Nat) :=
  fill draw pos (List.replicate (14 + pad) 0) 14 pad

/-- utils/DiffieHellman.cpp:53-56: padding behind the 96 bytes of the public key. -/
def keyPadding (draw : Nat → Nat) (pos pad : Nat) : Res (List UInt8 × Nat) :=
  fill draw pos (List.replicate (96 + pad) 0) 96 pad

end Verif.RandomData
