import Verif.Common
/-! RC4 stream cipher (utils/RC4.cpp, utils/RC4.h). -/

namespace Verif.RC4

/-- utils/RC4.h:6-20. `xs`, `ys` are always stored reduced modulo 256 after `init`. -/
structure State where
  xs : UInt8
  ys : UInt8
  buf : Vector UInt8 256
deriving DecidableEq

/-- Access with a byte index never leaves the 256-byte table. -/
def at' (b : Vector UInt8 256) (i : UInt8) : UInt8 := b[i.toNat]'(by exact i.toNat_lt)

/-- `tmp = s[x]; s[x] = s[y]; s[y] = tmp;` (utils/RC4.cpp:31, 48, 72). -/
def swap' (b : Vector UInt8 256) (x y : UInt8) : Vector UInt8 256 :=
  (b.set x.toNat (at' b y) (by exact x.toNat_lt)).set y.toNat (at' b x) (by exact y.toNat_lt)

/-- utils/RC4.cpp:22-24: identity permutation. -/
def identBuf : Vector UInt8 256 := Vector.ofFn fun i => UInt8.ofNat i.val

/-- utils/RC4.cpp:26-32: one key-scheduling step at position `x` (loop counter `n` = steps left), with
`keylen > 0`: `j` cycles through the key. -/
def ksa (key : List UInt8) : Nat → Nat → Nat → UInt8 → Vector UInt8 256 → Vector UInt8 256
  | 0, _, _, _, b => b
  | n + 1, x, j, y, b =>
    let y' := y + at' b (UInt8.ofNat x) + key.getD j 0
    let j' := if j + 1 = key.length then 0 else j + 1
    ksa key n (x + 1) j' y' (swap' b (UInt8.ofNat x) y')

/-- utils/RC4.cpp:4-35 `init`. Only the first 256 key bytes count. An empty key reads the previous
(uninitialised) table as key: undefined behaviour. `getD` in `ksa` is never out of range because
`j < key.length`. -/
def init (key : List UInt8) : Res State :=
  let key := key.take 256
  if key = [] then .ub
  else .ok { xs := 0, ys := 0, buf := ksa key 256 0 0 0 identBuf }

/-- utils/RC4.cpp:46-48 (= 70-72): advance the generator by one byte. -/
def advance (s : State) : State :=
  let x := s.xs + 1
  let y := s.ys + at' s.buf x
  { xs := x, ys := y, buf := swap' s.buf x y }

/-- utils/RC4.cpp:49-50: the key stream byte of the advanced state. -/
def keyByte (s : State) : UInt8 := at' s.buf (at' s.buf s.xs + at' s.buf s.ys)

/-- utils/RC4.cpp:37-54 `decode`: transforms the buffer in place. -/
def decode (s : State) : List UInt8 → State × List UInt8
  | [] => (s, [])
  | c :: cs =>
    let s' := advance s
    let r := decode s' cs
    (r.1, (c ^^^ keyByte s') :: r.2)

/-- utils/RC4.cpp:56-59 `encode`. -/
def encode (s : State) (l : List UInt8) : State × List UInt8 := decode s l

/-- utils/RC4.cpp:61-76 `skip`. -/
def skip (s : State) : Nat → State
  | 0 => s
  | n + 1 => skip (advance s) n

end Verif.RC4
