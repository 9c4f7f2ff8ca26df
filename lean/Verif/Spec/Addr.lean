import Verif.Common
namespace Verif.Spec

/-- A number in decimal, without leading zeros. -/
def decimal (n : Nat) : List UInt8 := (Nat.toDigits 10 n).map chr

/-- `a.b.c.d:port`. -/
def ipv4Text (a b c d : UInt8) (port : Nat) : List UInt8 :=
  decimal a.toNat ++ [chr '.'] ++ decimal b.toNat ++ [chr '.'] ++ decimal c.toNat ++ [chr '.'] ++ decimal d.toNat ++ [chr ':'] ++
    decimal port

/-- The XOR distance of two ids read as 160-bit numbers. -/
def xorDistance (a b : List UInt8) : Nat := beVal a ^^^ beVal b

end Verif.Spec
