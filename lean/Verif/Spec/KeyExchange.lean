/-! What numbers, modular powers and the key exchange of encrypted peer connections are. -/

namespace Verif.Spec

/-- Digits of 64 bits. -/
def Digits (l : List Nat) : Prop := ∀ d ∈ l, d < 2 ^ 64

/-- The number that digits of 64 bits stand for, the least significant digit first. -/
def digitNumber (l : List Nat) : Nat := l.foldr (fun d v => d + 2 ^ 64 * v) 0

/-- The number that bytes stand for, the least significant byte first. -/
def littleNumber (l : List UInt8) : Nat := l.foldr (fun b v => b.toNat + 256 * v) 0

/-- The number that bytes stand for, the most significant byte first. -/
def bigNumber (l : List UInt8) : Nat := littleNumber l.reverse

/-- The prime of the exchange. -/
def exchangePrime : Nat :=
  0xFFFFFFFFFFFFFFFFC90FDAA22168C234C4C6628B80DC1CD129024E088A67CC74020BBEA63B139B22514A08798E3404DDEF9519B3CD3A431B302B0A6DF25F14374FE1356D6D51C245E485B576625E7EC6F44C42E9A63A36210000000000090563

end Verif.Spec
