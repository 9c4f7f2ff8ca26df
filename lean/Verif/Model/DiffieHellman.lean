import Verif.Model.BigNumber
/-! Key exchange, utils/DiffieHellman.cpp, and the conversions of utils/BigNumber.cpp between digits and bytes, on a
little-endian machine. `Random` is an input: every definition takes the bytes it delivers. -/

namespace Verif.BigNum
open Verif

/-- Value of bytes of memory, the lowest first. -/
def leVal : List UInt8 → Nat
  | [] => 0
  | b :: bs => b.toNat + 256 * leVal bs

/-- Bytes of memory read as `n` digits. -/
def digitsOf : Nat → List UInt8 → List Nat
  | 0, _ => []
  | n + 1, bs => leVal (bs.take 8) :: digitsOf n (bs.drop 8)

def bytesOfDigit (d : Nat) : List UInt8 :=
  [UInt8.ofNat d, UInt8.ofNat (d / 256), UInt8.ofNat (d / 65536), UInt8.ofNat (d / 16777216), UInt8.ofNat (d / 4294967296),
    UInt8.ofNat (d / 1099511627776), UInt8.ofNat (d / 281474976710656), UInt8.ofNat (d / 72057594037927936)]

/-- Digits read as bytes of memory. -/
def bytesOf (l : List Nat) : List UInt8 := l.flatMap bytesOfDigit

/-- utils/BigNumber.cpp:86-109 `Set(data, size)`, on a number with the digits `l`. -/
def setBytes (l : List Nat) (data : List UInt8) : List Nat :=
  let n := if 8 * l.length < data.length then (data.length + 7) / 8 else l.length
  digitsOf n (data.reverse ++ List.replicate (8 * n - data.length) 0)

/-- utils/BigNumber.cpp:17-28 `Export`: the bytes written. -/
def exportBytes (l : List Nat) (size : Nat) : List UInt8 := ((bytesOf l).take (min (8 * l.length) size)).reverse

end Verif.BigNum

namespace Verif.DH
open Verif BigNum

/-- utils/DiffieHellman.h:6-16. -/
structure Exchange where
  privateKey : List Nat
deriving DecidableEq

/-- utils/DiffieHellman.cpp:3-7, `rnd` from `Random::Data` (its size is `keySize`). -/
def Exchange.create (rnd : List UInt8) : Exchange :=
  let n := (rnd.length + 7) / 8
  ⟨digitsOf n (rnd ++ List.replicate (8 * n - rnd.length) 0)⟩

/-- utils/DiffieHellman.cpp:9-16: the buffer afterwards. -/
def Exchange.message (x : Exchange) (buffer : List UInt8) (generator primes : List Nat) : Res (List UInt8) := do
  let (_, publicKey) ← powm [] generator x.privateKey primes
  let out := exportBytes publicKey buffer.length
  pure (out ++ buffer.drop out.length)

/-- utils/DiffieHellman.cpp:18-29; `shared` is the former value of `sharedSecret`. -/
def Exchange.secret (x : Exchange) (shared : List Nat) (key : List UInt8) (primes : List Nat) : Res (Exchange × List Nat) :=
  if key.length < 8 * primes.length then .ub
  else do
    let remoteKey := setBytes [] (key.take (8 * primes.length))
    let shared := setLength shared primes.length
    let (_, shared) ← powm shared remoteKey x.privateKey primes
    pure (⟨setZero x.privateKey⟩, shared)

/-- utils/DiffieHellman.cpp:31-44 `pePrimesArray`. -/
def pePrimesArray : List UInt8 := [
  0xFF,0xFF,0xFF,0xFF,0xFF,0xFF,0xFF,0xFF,
  0xC9,0x0F,0xDA,0xA2,0x21,0x68,0xC2,0x34,
  0xC4,0xC6,0x62,0x8B,0x80,0xDC,0x1C,0xD1,
  0x29,0x02,0x4E,0x08,0x8A,0x67,0xCC,0x74,
  0x02,0x0B,0xBE,0xA6,0x3B,0x13,0x9B,0x22,
  0x51,0x4A,0x08,0x79,0x8E,0x34,0x04,0xDD,
  0xEF,0x95,0x19,0xB3,0xCD,0x3A,0x43,0x1B,
  0x30,0x2B,0x0A,0x6D,0xF2,0x5F,0x14,0x37,
  0x4F,0xE1,0x35,0x6D,0x6D,0x51,0xC2,0x45,
  0xE4,0x85,0xB5,0x76,0x62,0x5E,0x7E,0xC6,
  0xF4,0x4C,0x42,0xE9,0xA6,0x3A,0x36,0x21,
  0x00,0x00,0x00,0x00,0x00,0x09,0x05,0x63]

/-- utils/DiffieHellman.cpp:46, with utils/BigNumber.cpp:6-9. -/
def pePrimes : List Nat := setBytes [] pePrimesArray

/-- utils/DiffieHellman.cpp:47, with utils/BigNumber.cpp:11-15. -/
def peGenerator : List Nat := setNat (setLength [] ((pePrimesArray.length + 7) / 8)) 2

/-- utils/DiffieHellman.cpp:66-69. -/
def keySize : Nat := pePrimesArray.length

/-- utils/DiffieHellman.cpp:53-59; `pad` is what `Random` delivers, `keySize` bytes are zero before they are written. -/
def Exchange.peMessage (x : Exchange) (pad : List UInt8) : Res (List UInt8) :=
  x.message (List.replicate keySize 0 ++ pad) peGenerator pePrimes

/-- utils/DiffieHellman.cpp:61-64. -/
def Exchange.peSecret (x : Exchange) (shared : List Nat) (key : List UInt8) : Res (Exchange × List Nat) := x.secret shared key pePrimes

end Verif.DH
