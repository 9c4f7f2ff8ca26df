import Verif.Common
/-! Big numbers, utils/BigNumber.cpp, with utils/int128.h as compiled by gcc or clang for x86-64 (`HAS_INT128`,
`HAS_INT128_DIV`): digits have 64 bits, double digits 128. A number is the list of its digits, the least significant
first. Digits are naturals below `base`; all arithmetic says where it wraps. Not modelled: `Sub_h`, `Sub`, `Div`,
`IsEqual`, the variants for other compilers. -/

namespace Verif.BigNum
open Verif

/-- utils/BigNumber.h:14 `digit_base`. -/
def base : Nat := 18446744073709551616

/-- utils/int128.h:21-24. -/
def lo (c : Nat) : Nat := c % base

/-- utils/int128.h:26-29. -/
def hi (c : Nat) : Nat := c / base % base

/-- Addition of double digits. -/
def dadd (a b : Nat) : Nat := (a + b) % (base * base)

/-- A double digit as a signed one. -/
def toS (c : Nat) : Int := if c < base * base / 2 then c else (c : Int) - (base * base : Nat)

/-- `-=` of signed double digits: overflow is undefined. -/
def ssub (a b : Int) : Res Int :=
  if -((base * base / 2 : Nat) : Int) ≤ a - b ∧ a - b < ((base * base / 2 : Nat) : Int) then .ok (a - b) else .ub

/-- `lo_word` of a signed double digit. -/
def loS (s : Int) : Nat := (s % (base : Int)).toNat

/-- `hi_word` of a signed double digit. -/
def hiS (s : Int) : Nat := (s / (base : Int) % (base : Int)).toNat

/-- Checked write. -/
def wr (l : List Nat) (i v : Nat) : Res (List Nat) := if i < l.length then .ok (l.set i v) else .ub

/-- utils/BigNumber.cpp:68-75 `SetLength`, on a vector of digits. -/
def setLength (l : List Nat) (n : Nat) : List Nat := l.take n ++ List.replicate (n - l.length) 0

/-- utils/BigNumber.cpp:46-52. -/
def setZero (l : List Nat) : List Nat := List.replicate l.length 0

/-- utils/BigNumber.cpp:160-167, for values of a digit. -/
def setNat (l : List Nat) (v : Nat) : List Nat := (setZero l).set 0 v

/-- `while (len > 0 && !a[len - 1]) len--;` -/
def trim (a : List Nat) : Nat → Res Nat
  | 0 => .ok 0
  | n + 1 => do
    let d ← rd a n
    if d = 0 then trim a n else pure (n + 1)

/-- The inner loop of utils/BigNumber.cpp:309-315 (and 261-267): `n` more digits of `b`, from `j` on. -/
def mulRow (x : Nat) (b : List Nat) (i : Nat) : Nat → Nat → Nat → List Nat → Res (List Nat × Nat)
  | 0, _, c, dst => pure (dst, c)
  | n + 1, j, c, dst => do
    let y ← rd b j
    let c := dadd c (x * y)
    let d ← rd dst (i + j)
    let c := dadd c d
    let dst ← wr dst (i + j) (lo c)
    mulRow x b i n (j + 1) (c / base) dst

/-- utils/BigNumber.cpp:305-317. -/
def mulRows (a b : List Nat) (len2 : Nat) : Nat → Nat → List Nat → Res (List Nat)
  | 0, _, dst => pure dst
  | n + 1, i, dst => do
    let x ← rd a i
    let (dst, c) ← mulRow x b i len2 0 0 dst
    let dst ← wr dst (i + len2) (lo c)
    mulRows a b len2 n (i + 1) dst

/-- utils/BigNumber.cpp:297-318. -/
def mulH (a : List Nat) (len1 : Nat) (b : List Nat) (len2 : Nat) (dst : List Nat) : Res (List Nat) := do
  let len1 ← trim a len1
  let len2 ← trim b len2
  mulRows a b len2 len1 0 dst

/-- utils/BigNumber.cpp:257-269: the products of different digits. -/
def crossRows (a : List Nat) (len : Nat) : Nat → Nat → List Nat → Res (List Nat)
  | 0, _, dst => pure dst
  | n + 1, i, dst => do
    let x ← rd a i
    let (dst, c) ← mulRow x a i (len - (i + 1)) (i + 1) 0 dst
    let dst ← wr dst (i + len) (lo c)
    crossRows a len n (i + 1) dst

/-- utils/BigNumber.cpp:272-278: the doubling. -/
def double : Nat → Nat → Nat → List Nat → Res (List Nat)
  | 0, _, _, dst => pure dst
  | n + 1, i, c, dst => do
    let d ← rd dst i
    let c := c ||| (d <<< 1) % (base * base)
    let dst ← wr dst i (lo c)
    double n (i + 1) (c / base) dst

/-- utils/BigNumber.cpp:281-294: adding the squares. -/
def squares (a : List Nat) : Nat → Nat → Nat → List Nat → Res (List Nat)
  | 0, _, _, dst => pure dst
  | n + 1, i, c, dst => do
    let x ← rd a i
    let c := dadd c (x * x)
    let d ← rd dst (2 * i)
    let c := dadd c d
    let dst ← wr dst (2 * i) (lo c)
    let c := c / base
    let d ← rd dst (2 * i + 1)
    let c := dadd c d
    let dst ← wr dst (2 * i + 1) (lo c)
    squares a n (i + 1) (c / base) dst

/-- utils/BigNumber.cpp:250-295. -/
def squareH (a : List Nat) (len : Nat) (dst : List Nat) : Res (List Nat) := do
  let len ← trim a len
  let dst ← crossRows a len len 0 dst
  let dst ← double (2 * len - 1) 1 0 dst
  squares a len 0 0 dst

/-- utils/BigNumber.cpp:235-248. -/
def dbiMul (dbl a1 a2 : List Nat) : Res (List Nat) :=
  let dbl := setZero (setLength dbl (a1.length + a2.length))
  if a1 = a2 then squareH a1 a1.length dbl else mulH a1 a1.length a2 a2.length dbl

/-- utils/BigNumber.cpp:186-216 `Compare`: the digits below `n`. -/
def compare (a b : List Nat) : Nat → Res Int
  | 0 => pure 0
  | n + 1 =>
    if a.length ≤ n then do
      let y ← rd b n
      if y ≠ 0 then pure (-1) else compare a b n
    else if b.length ≤ n then do
      let x ← rd a n
      if x ≠ 0 then pure 1 else compare a b n
    else do
      let x ← rd a n
      let y ← rd b n
      if x < y then pure (-1) else if y < x then pure 1 else compare a b n

/-- utils/BigNumber.cpp:621-644 `MsbPos`: one round. -/
def msbRound (mask s : Nat) (vr : Nat × Nat) : Nat × Nat :=
  if vr.1 &&& mask ≠ 0 then (vr.1 >>> s, vr.2 ||| s) else vr

def msbPos (v : Nat) : Nat :=
  (msbRound 0x2 1 (msbRound 0xC 2 (msbRound 0xF0 4 (msbRound 0xFF00 8
    (msbRound 0xFFFF0000 16 (msbRound 0xFFFFFFFF00000000 32 (v, 0))))))).2

/-- utils/BigNumber.cpp:334-337: the digits of `dst` from the digits `src`, upwards; each depends only on `src`.
`prev` is the digit before. -/
def shl (s : Nat) (prev : Nat) : List Nat → List Nat
  | [] => [prev >>> (64 - s)]
  | d :: ds => (lo (d <<< s) ||| prev >>> (64 - s)) :: shl s d ds

/-- utils/BigNumber.cpp:320-339 `shift_left`, into a `dst` of one digit more than `src`. -/
def shiftLeft (src : List Nat) (s : Nat) : List Nat := if s = 0 then src ++ [0] else shl s 0 src

/-- utils/BigNumber.cpp:354-356. -/
def shr (s : Nat) : List Nat → List Nat
  | [] => []
  | [d] => [d >>> s]
  | d :: d' :: ds => (d >>> s ||| lo (d' <<< (64 - s))) :: shr s (d' :: ds)

/-- utils/BigNumber.cpp:341-358 `shift_right`. -/
def shiftRight (src : List Nat) (s : Nat) : List Nat := if s = 0 then src else shr s src

/-- utils/BigNumber.cpp:402-413: division by the only digit of `b`, from the highest digit of `a` on. -/
def divSingle (a : List Nat) (b0 : Nat) : Nat → Int → List Nat → Res (Int × List Nat)
  | 0, k, q => pure (k, q)
  | j + 1, k, q => do
    let x ← rd a j
    let dw := x + base * loS k
    if b0 = 0 then .ub
    let qq := dw / b0
    let q ← if j < q.length then wr q j (lo qq) else pure q
    let k ← ssub (toS dw) ((lo qq * b0 % base : Nat) : Int)
    divSingle a b0 j k q

/-- utils/BigNumber.cpp:445-451: the digit of the quotient is corrected. -/
def estimate (v1 v2 u2 : Nat) : Nat → Nat → Nat → Res (Nat × Nat)
  | 0, _, _ => .diverge
  | fuel + 1, q, r =>
    if base ≤ q ∨ u2 + base * lo r < lo q * v2 then
      let q := q - 1
      let r := dadd r v1
      if base ≤ r then pure (q, r) else estimate v1 v2 u2 fuel q r
    else pure (q, r)

/-- utils/BigNumber.cpp:456-466. -/
def mulSub (q : Nat) (pb : List Nat) (j : Nat) : Nat → Nat → Nat → List Nat → Res (List Nat × Nat)
  | 0, _, carry, pa => pure (pa, carry)
  | n + 1, i, carry, pa => do
    let y ← rd pb i
    let p := q * y
    let x ← rd pa (i + j)
    let s ← ssub x (lo p)
    let s ← ssub s carry
    let pa ← wr pa (i + j) (loS s)
    mulSub q pb j n (i + 1) ((hi p + base - hiS s) % base) pa

/-- utils/BigNumber.cpp:495-506 `Add_h`, on the digits of `a` from `j` on. -/
def addH (j : Nat) (b : List Nat) : Nat → Nat → Nat → List Nat → Res (List Nat × Nat)
  | 0, _, c, a => pure (a, lo c)
  | n + 1, i, c, a => do
    let x ← rd a (j + i)
    let c := dadd c x
    let y ← rd b i
    let c := dadd c y
    let a ← wr a (j + i) (lo c)
    addH j b n (i + 1) (c / base) a

/-- utils/BigNumber.cpp:436-487: steps D2 to D7, `n` more digits of the quotient. -/
def divLoop (pb : List Nat) (lenB v1 v2 : Nat) : Nat → List Nat → List Nat → Res (List Nat × List Nat)
  | 0, pa, q => pure (pa, q)
  | j + 1, pa, q => do
    let u1 ← rd pa (j + lenB - 1)
    let u0 ← rd pa (j + lenB)
    let u2 ← rd pa (j + lenB - 2)
    let dw := u1 + base * u0
    if v1 = 0 then .ub
    let (qq, _) ← estimate v1 v2 u2 3 (dw / v1) (dw % v1)
    let (pa, carry) ← mulSub (lo qq) pb j lenB 0 0 pa
    let t ← rd pa (j + lenB)
    let s ← ssub t carry
    let pa ← wr pa (j + lenB) (loS s)
    let (pa, qq) ← if s < 0 then do
        let (pa, _) ← addH j pb lenB 0 0 pa
        let t ← rd pa (j + lenB)
        let pa ← wr pa (j + lenB) ((t + 1) % base)
        pure (pa, qq - 1)
      else pure (pa, qq)
    let q ← if j < q.length then wr q j (lo qq) else pure q
    divLoop pb lenB v1 v2 j pa q

/-- utils/BigNumber.cpp:360-493 `dbi_div`: whether it succeeded, `result` and `remainder`, whose former values are
`q` and `r`. -/
def dbiDiv (q r a b : List Nat) : Res (Bool × List Nat × List Nat) :=
  if a.length ≠ 2 * b.length then pure (false, q, r)
  else do
    let q := setZero (setLength q b.length)
    let r := setZero (setLength r b.length)
    let lenA ← trim a a.length
    let lenB ← trim b b.length
    if lenB = 0 then pure (false, q, r)
    else do
      let small ← if lenA < lenB then pure true else do
        let c ← compare a b (max a.length b.length)
        pure (c == -1)
      if small then
        if lenA ≤ r.length then pure (true, q, a.take lenA ++ r.drop lenA) else .ub
      else if lenB = 1 then do
        let b0 ← rd b 0
        let (k, q) ← divSingle a b0 lenA 0 q
        let r ← wr r 0 (loS k)
        pure (true, q, r)
      else do
        let top ← rd b (lenB - 1)
        let shift := 63 - msbPos top
        let pa := shiftLeft (a.take lenA) shift
        let pb := shiftLeft (b.take lenB) shift
        let v1 ← rd pb (lenB - 1)
        let v2 ← rd pb (lenB - 2)
        let (pa, q) ← divLoop pb lenB v1 v2 (lenA - lenB + 1) pa q
        pure (true, q, shiftRight (pa.take lenB) shift ++ r.drop lenB)

/-- utils/BigNumber.cpp:217-233 `Mulm`; `r` is the former value of `result`. -/
def mulm (r a1 a2 m : List Nat) : Res (Bool × List Nat) :=
  if a1.length ≠ a2.length ∨ a2.length ≠ m.length then pure (false, r)
  else do
    let t ← dbiMul (List.replicate (2 * a1.length) 0) a1 a2
    let (ok, _, r) ← dbiDiv (List.replicate a1.length 0) (setLength r m.length) t m
    pure (ok, r)

/-- utils/BigNumber.cpp:143-155: `n` more bits of a digit. -/
def powDigit (m : List Nat) (last : Bool) : Nat → Nat → List Nat → List Nat → Res (List Nat × List Nat)
  | 0, _, r, x => pure (r, x)
  | n + 1, d, r, x => do
    let r ← if d % 2 = 1 then do
        let (_, r) ← mulm r r x m
        pure r
      else pure r
    let d := d / 2
    if last ∧ d = 0 then pure (r, x)
    else do
      let (_, x) ← mulm x x x m
      powDigit m last n d r x

/-- utils/BigNumber.cpp:140-156. -/
def powLoop (e m : List Nat) (cnt : Nat) : Nat → Nat → List Nat → List Nat → Res (List Nat)
  | 0, _, r, _ => pure r
  | n + 1, i, r, x => do
    let d ← rd e i
    let (r, x) ← powDigit m (i = cnt) 64 d r x
    powLoop e m cnt n (i + 1) r x

/-- utils/BigNumber.cpp:111-158 `Powm`; `r` is the former value of `result`. -/
def powm (r a e m : List Nat) : Res (Bool × List Nat) :=
  if a.length ≠ e.length ∨ e.length ≠ m.length then pure (false, r)
  else do
    let r := setNat (setLength r m.length) 1
    let len ← trim e e.length
    if len = 0 then pure (true, r)
    else do
      let r ← powLoop e m (len - 1) len 0 r a
      pure (true, r)

end Verif.BigNum
