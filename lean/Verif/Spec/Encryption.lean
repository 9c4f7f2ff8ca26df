import Verif.Common
import Verif.Spec.Sha1
import Verif.Spec.Encoding
/-! Message Stream Encryption as published: the messages that follow the key exchange, `S` being the 96 bytes of the shared secret
and `H` the info hash of the torrent. -/

namespace Verif.Spec.Mse
open Verif

/-- RC4 with a key, the first 1024 bytes of its key stream discarded, from byte `n` on. -/
def crypt (key : List UInt8) (n : Nat) (l : List UInt8) : List UInt8 :=
  l.mapIdx fun i c => c ^^^ UInt8.ofNat (rc4Byte key (1024 + n + i))

/-- The key for what the initiator writes. -/
def keyA (S H : List UInt8) : List UInt8 := Sha1.hash (ascii "keyA" ++ S ++ H)

/-- The key for what the listener writes. -/
def keyB (S H : List UInt8) : List UInt8 := Sha1.hash (ascii "keyB" ++ S ++ H)

/-- `crypto_provide` or `crypto_select`, the padding, behind eight zeros. -/
def header (options : Nat) (pad : List UInt8) : List UInt8 := List.replicate 8 0 ++ be32 options ++ be16 pad.length ++ pad

/-- What names the torrent: HASH('req2', SKEY) xor HASH('req3', S). -/
def names (S H : List UInt8) : List UInt8 := List.zipWith (· ^^^ ·) (Sha1.hash (ascii "req2" ++ H)) (Sha1.hash (ascii "req3" ++ S))

/-- Message 3: HASH('req1', S), HASH('req2', SKEY) xor HASH('req3', S), ENCRYPT(VC, crypto_provide, len(PadC), PadC, len(IA), IA). -/
def message3 (S H : List UInt8) (provide : Nat) (padC ia : List UInt8) : List UInt8 :=
  Sha1.hash (ascii "req1" ++ S) ++ names S H ++ crypt (keyA S H) 0 (header provide padC ++ be16 ia.length ++ ia)

/-- Message 4: ENCRYPT(VC, crypto_select, len(padD), padD). -/
def message4 (S H : List UInt8) (select : Nat) (padD : List UInt8) : List UInt8 := crypt (keyB S H) 0 (header select padD)

/-- `p` is found in `l` for the first time at `n`. -/
def FirstAt (l p : List UInt8) (n : Nat) : Prop := p <+: l.drop n ∧ ∀ m, m < n → ¬ p <+: l.drop m

end Verif.Spec.Mse
