import Verif.Common
/-! The hash function, utils/SHA.cpp, utils/SHA.h. Arithmetic on `uint32_t` is `UInt32`. `(buffer[..] & 0xff) << 24` puts a bit into
the sign of an `int`; it is taken to keep the bits, as every compiler does (and C++20 demands). -/

namespace Verif.Sha1
open Verif

/-- utils/SHA.cpp:27 `BLOCK_BYTES`. -/
abbrev blockBytes : Nat := 64

/-- utils/SHA.cpp:45-48. -/
def rol (value bits : UInt32) : UInt32 := (value <<< bits) ||| (value >>> (32 - bits))

/-- The sixteen words of a block, utils/SHA.cpp:26. -/
abbrev Block := Vector UInt32 16

/-- An index masked by `& 15`. -/
def masked (i : Nat) : Fin 16 := ⟨i % 16, Nat.mod_lt _ (by decide)⟩

/-- utils/SHA.cpp:51-54. -/
def blk (block : Block) (i : Fin 16) : UInt32 :=
  rol (block.get (masked (i.val + 13)) ^^^ block.get (masked (i.val + 8)) ^^^ block.get (masked (i.val + 2)) ^^^ block.get i) 1

/-- The variables `a` to `e` of `transform` (utils/SHA.cpp:107-111), numbered 0 to 4. -/
structure Regs where
  a : UInt32
  b : UInt32
  c : UInt32
  d : UInt32
  e : UInt32
deriving DecidableEq

/-- The variable passed as an argument. -/
def Regs.get (r : Regs) (k : Fin 5) : UInt32 :=
  match k with | 0 => r.a | 1 => r.b | 2 => r.c | 3 => r.d | 4 => r.e

/-- Assignment to the variable passed by reference. -/
def Regs.set (r : Regs) (k : Fin 5) (v : UInt32) : Regs :=
  match k with
  | 0 => { r with a := v } | 1 => { r with b := v } | 2 => { r with c := v } | 3 => { r with d := v } | 4 => { r with e := v }

/-- One call of `R0` to `R4` (utils/SHA.cpp:61-97): which function, its arguments `v`, `w`, `x`, `y`, `z`, the index `i`. -/
structure Call where
  kind : Fin 5
  v : Fin 5
  w : Fin 5
  x : Fin 5
  y : Fin 5
  z : Fin 5
  i : Fin 16
deriving DecidableEq

/-- The mixing function of `R0` to `R4` (utils/SHA.cpp:63, 71, 79, 87, 95). -/
def mix (kind : Fin 5) (w x y : UInt32) : UInt32 :=
  match kind with
  | 0 => (w &&& (x ^^^ y)) ^^^ y
  | 1 => (w &&& (x ^^^ y)) ^^^ y
  | 2 => w ^^^ x ^^^ y
  | 3 => ((w ||| x) &&& y) ||| (w &&& x)
  | 4 => w ^^^ x ^^^ y

/-- The constant of `R0` to `R4` (utils/SHA.cpp:63, 71, 79, 87, 95). -/
def addend (kind : Fin 5) : UInt32 :=
  match kind with
  | 0 => 0x5a827999
  | 1 => 0x5a827999
  | 2 => 0x6ed9eba1
  | 3 => 0x8f1bbcdc
  | 4 => 0xca62c1d6

/-- utils/SHA.cpp:61-97: all but `R0` first renew the word of the block. -/
def call (s : Block × Regs) (q : Call) : Block × Regs :=
  let block := if q.kind = 0 then s.1 else s.1.set q.i.val (blk s.1 q.i) q.i.isLt
  let r := s.2.set q.z (s.2.get q.z + (mix q.kind (s.2.get q.w) (s.2.get q.x) (s.2.get q.y) + block.get q.i + addend q.kind + rol (s.2.get q.v) 5))
  (block, r.set q.w (rol (r.get q.w) 30))

/-- utils/SHA.cpp:114-193, the calls in the order written. -/
def calls : List Call := [
  ⟨0, 0, 1, 2, 3, 4, 0⟩, ⟨0, 4, 0, 1, 2, 3, 1⟩, ⟨0, 3, 4, 0, 1, 2, 2⟩, ⟨0, 2, 3, 4, 0, 1, 3⟩, ⟨0, 1, 2, 3, 4, 0, 4⟩,
  ⟨0, 0, 1, 2, 3, 4, 5⟩, ⟨0, 4, 0, 1, 2, 3, 6⟩, ⟨0, 3, 4, 0, 1, 2, 7⟩, ⟨0, 2, 3, 4, 0, 1, 8⟩, ⟨0, 1, 2, 3, 4, 0, 9⟩,
  ⟨0, 0, 1, 2, 3, 4, 10⟩, ⟨0, 4, 0, 1, 2, 3, 11⟩, ⟨0, 3, 4, 0, 1, 2, 12⟩, ⟨0, 2, 3, 4, 0, 1, 13⟩, ⟨0, 1, 2, 3, 4, 0, 14⟩,
  ⟨0, 0, 1, 2, 3, 4, 15⟩, ⟨1, 4, 0, 1, 2, 3, 0⟩, ⟨1, 3, 4, 0, 1, 2, 1⟩, ⟨1, 2, 3, 4, 0, 1, 2⟩, ⟨1, 1, 2, 3, 4, 0, 3⟩,
  ⟨2, 0, 1, 2, 3, 4, 4⟩, ⟨2, 4, 0, 1, 2, 3, 5⟩, ⟨2, 3, 4, 0, 1, 2, 6⟩, ⟨2, 2, 3, 4, 0, 1, 7⟩, ⟨2, 1, 2, 3, 4, 0, 8⟩,
  ⟨2, 0, 1, 2, 3, 4, 9⟩, ⟨2, 4, 0, 1, 2, 3, 10⟩, ⟨2, 3, 4, 0, 1, 2, 11⟩, ⟨2, 2, 3, 4, 0, 1, 12⟩, ⟨2, 1, 2, 3, 4, 0, 13⟩,
  ⟨2, 0, 1, 2, 3, 4, 14⟩, ⟨2, 4, 0, 1, 2, 3, 15⟩, ⟨2, 3, 4, 0, 1, 2, 0⟩, ⟨2, 2, 3, 4, 0, 1, 1⟩, ⟨2, 1, 2, 3, 4, 0, 2⟩,
  ⟨2, 0, 1, 2, 3, 4, 3⟩, ⟨2, 4, 0, 1, 2, 3, 4⟩, ⟨2, 3, 4, 0, 1, 2, 5⟩, ⟨2, 2, 3, 4, 0, 1, 6⟩, ⟨2, 1, 2, 3, 4, 0, 7⟩,
  ⟨3, 0, 1, 2, 3, 4, 8⟩, ⟨3, 4, 0, 1, 2, 3, 9⟩, ⟨3, 3, 4, 0, 1, 2, 10⟩, ⟨3, 2, 3, 4, 0, 1, 11⟩, ⟨3, 1, 2, 3, 4, 0, 12⟩,
  ⟨3, 0, 1, 2, 3, 4, 13⟩, ⟨3, 4, 0, 1, 2, 3, 14⟩, ⟨3, 3, 4, 0, 1, 2, 15⟩, ⟨3, 2, 3, 4, 0, 1, 0⟩, ⟨3, 1, 2, 3, 4, 0, 1⟩,
  ⟨3, 0, 1, 2, 3, 4, 2⟩, ⟨3, 4, 0, 1, 2, 3, 3⟩, ⟨3, 3, 4, 0, 1, 2, 4⟩, ⟨3, 2, 3, 4, 0, 1, 5⟩, ⟨3, 1, 2, 3, 4, 0, 6⟩,
  ⟨3, 0, 1, 2, 3, 4, 7⟩, ⟨3, 4, 0, 1, 2, 3, 8⟩, ⟨3, 3, 4, 0, 1, 2, 9⟩, ⟨3, 2, 3, 4, 0, 1, 10⟩, ⟨3, 1, 2, 3, 4, 0, 11⟩,
  ⟨4, 0, 1, 2, 3, 4, 12⟩, ⟨4, 4, 0, 1, 2, 3, 13⟩, ⟨4, 3, 4, 0, 1, 2, 14⟩, ⟨4, 2, 3, 4, 0, 1, 15⟩, ⟨4, 1, 2, 3, 4, 0, 0⟩,
  ⟨4, 0, 1, 2, 3, 4, 1⟩, ⟨4, 4, 0, 1, 2, 3, 2⟩, ⟨4, 3, 4, 0, 1, 2, 3⟩, ⟨4, 2, 3, 4, 0, 1, 4⟩, ⟨4, 1, 2, 3, 4, 0, 5⟩,
  ⟨4, 0, 1, 2, 3, 4, 6⟩, ⟨4, 4, 0, 1, 2, 3, 7⟩, ⟨4, 3, 4, 0, 1, 2, 8⟩, ⟨4, 2, 3, 4, 0, 1, 9⟩, ⟨4, 1, 2, 3, 4, 0, 10⟩,
  ⟨4, 0, 1, 2, 3, 4, 11⟩, ⟨4, 4, 0, 1, 2, 3, 12⟩, ⟨4, 3, 4, 0, 1, 2, 13⟩, ⟨4, 2, 3, 4, 0, 1, 14⟩, ⟨4, 1, 2, 3, 4, 0, 15⟩]

/-- utils/SHA.cpp:104-203 without the counter: the new digest, and the block as it is left behind. -/
def transform (digest : Regs) (block : Block) : Block × Regs :=
  let s := calls.foldl call (block, digest)
  (s.1, ⟨digest.a + s.2.a, digest.b + s.2.b, digest.c + s.2.c, digest.d + s.2.d, digest.e + s.2.e⟩)

/-- The word made of four bytes (utils/SHA.cpp:212-215). -/
def wordOf (b0 b1 b2 b3 : UInt8) : UInt32 :=
  b3.toUInt32 ||| (b2.toUInt32 <<< 8) ||| (b1.toUInt32 <<< 16) ||| (b0.toUInt32 <<< 24)

/-- utils/SHA.cpp:207-217. A shorter string would be read beyond its end. -/
def bufferToBlock (buffer : List UInt8) : Res Block :=
  if buffer.length < 64 then .ub
  else .ok (Vector.ofFn fun i =>
    wordOf (buffer.getD (4 * i.val) 0) (buffer.getD (4 * i.val + 1) 0) (buffer.getD (4 * i.val + 2) 0) (buffer.getD (4 * i.val + 3) 0))

/-- utils/SHA.cpp:10-23. -/
structure State where
  digest : Regs
  buffer : List UInt8
  transforms : UInt64
deriving DecidableEq

/-- utils/SHA.cpp:30-42, 220-223. -/
def State.init : State := ⟨⟨0x67452301, 0xefcdab89, 0x98badcfe, 0x10325476, 0xc3d2e1f0⟩, [], 0⟩

/-- utils/SHA.cpp:225-250: the loop of `update`; every pass takes at least a byte unless `buffer` is full already, so the fuel
given by `update` is used up only by an endless loop. -/
def updateLoop : Nat → State → List UInt8 → Res State
  | 0, _, _ => .diverge
  | fuel + 1, s, data =>
    if data.length = 0 then .ok s
    else
      let readSize := if blockBytes - s.buffer.length > data.length then data.length else blockBytes - s.buffer.length
      let buffer := s.buffer ++ data.take readSize
      if buffer.length ≠ blockBytes then .ok { s with buffer := buffer }
      else (bufferToBlock buffer).bind fun block =>
        updateLoop fuel ⟨(transform s.digest block).2, [], s.transforms + 1⟩ (data.drop readSize)

/-- utils/SHA.cpp:225-250. -/
def update (s : State) (data : List UInt8) : Res State := updateLoop (data.length + 1) s data

/-- utils/SHA.cpp:271-280: the block that holds the length, and the digest before it. -/
def spill (origSize : Nat) (digest : Regs) (block : Block) : Block × Regs :=
  if origSize > blockBytes - 8 then
    (Vector.ofFn fun i : Fin 16 => if i.val < 14 then 0 else (transform digest block).1.get i, (transform digest block).2)
  else (block, digest)

/-- utils/SHA.cpp:282-285. -/
def finish (totalBits : UInt64) (s : Block × Regs) : Regs :=
  (transform s.2 ((s.1.set 15 totalBits.toUInt32).set 14 (totalBits >>> 32).toUInt32)).2

/-- utils/SHA.cpp:256-285: the digest afterwards. `buffer.size()` is below 64 whenever this is called; the loop that fills up
stops at 64 bytes. -/
def final (s : State) : Res Regs :=
  let totalBits : UInt64 := (s.transforms * 64 + UInt64.ofNat s.buffer.length) * 8
  let buffer := s.buffer ++ [(0x80 : UInt8)]
  (bufferToBlock (buffer ++ List.replicate (blockBytes - buffer.length) 0)).map' fun block =>
    finish totalBits (spill buffer.length s.digest block)

/-- `swap32` and `memcpy` on a little-endian machine (utils/SHA.cpp:293-297): the highest byte first. -/
def bytesOfWord (w : UInt32) : List UInt8 := [(w >>> 24).toUInt8, (w >>> 16).toUInt8, (w >>> 8).toUInt8, w.toUInt8]

/-- utils/SHA.cpp:287-298 `_SHA1`: the 20 bytes written. -/
def sha1 (d : List UInt8) : Res (List UInt8) :=
  (update State.init d).bind fun s => (final s).bind fun r =>
    .ok (bytesOfWord r.a ++ bytesOfWord r.b ++ bytesOfWord r.c ++ bytesOfWord r.d ++ bytesOfWord r.e)

end Verif.Sha1
