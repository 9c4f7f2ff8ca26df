/-! Shared vocabulary of the model: bytes, ASCII literals, outcomes with undefined behaviour. -/

namespace Verif

/-- The bytes of an ASCII literal (C++ `"..."`). -/
def ascii (s : String) : List UInt8 := s.toList.map (fun c => UInt8.ofNat c.toNat)

/-- The byte of an ASCII character literal (C++ `'c'`). -/
def chr (c : Char) : UInt8 := UInt8.ofNat c.toNat

/-- Outcome of running a piece of C++ code: a value, undefined behaviour (out-of-bounds access,
uninitialised read, division by zero, ...), or an endless loop / unbounded recursion. -/
inductive Res (α : Type) where
  | ok (a : α)
  | ub
  | diverge
deriving Repr, DecidableEq

namespace Res

def bind {α β} (r : Res α) (f : α → Res β) : Res β :=
  match r with
  | ok a => f a
  | ub => ub
  | diverge => diverge

instance : Monad Res where
  pure := Res.ok
  bind := Res.bind

def map' {α β} (f : α → β) (r : Res α) : Res β :=
  match r with
  | ok a => ok (f a)
  | ub => ub
  | diverge => diverge

@[simp] theorem pure_eq {α} (a : α) : (pure a : Res α) = ok a := rfl
@[simp] theorem bind_ok {α β} (a : α) (f : α → Res β) : (ok a >>= f) = f a := rfl
@[simp] theorem bind_ub {α β} (f : α → Res β) : ((ub : Res α) >>= f) = ub := rfl
@[simp] theorem bind_diverge {α β} (f : α → Res β) : ((diverge : Res α) >>= f) = diverge := rfl
@[simp] theorem map'_ok {α β} (a : α) (f : α → β) : map' f (ok a) = ok (f a) := rfl

/-- A run with a result satisfying `p`, by evaluation. -/
theorem exists_ok {α} {r : Res α} {p : α → Prop} [DecidablePred p]
    (h : (match r with | ok a => decide (p a) | _ => false) = true) : ∃ a, r = ok a ∧ p a := by
  cases r with
  | ok a => exact ⟨a, rfl, by simpa using h⟩
  | ub => simp at h
  | diverge => simp at h

end Res

/-- Checked array read: outside the array is undefined behaviour. -/
def rd {α} (l : List α) (i : Nat) : Res α :=
  match l[i]? with
  | some a => .ok a
  | none => .ub

theorem rd_eq_ok {α} {l : List α} {i : Nat} (h : i < l.length) : rd l i = .ok l[i] := by
  simp [rd, h]

/-- A statement about every byte can be checked on the 256 byte values. -/
theorem forall_u8 {p : UInt8 → Prop} (h : ∀ n : Fin 256, p (UInt8.ofNat n.val)) : ∀ a, p a := by
  intro a
  have := h ⟨a.toNat, a.toNat_lt⟩
  simpa using this

/-- Big-endian 16-bit value as bytes (utils/PacketHelper.h:99-104, `PacketBuilder::add16`). -/
def be16 (n : Nat) : List UInt8 := [UInt8.ofNat (n / 256), UInt8.ofNat n]

/-- Big-endian 32-bit value as bytes (utils/PacketHelper.h:111-121, `Append32`, `add32`). -/
def be32 (n : Nat) : List UInt8 :=
  [UInt8.ofNat (n / 16777216), UInt8.ofNat (n / 65536), UInt8.ofNat (n / 256), UInt8.ofNat n]

/-- Big-endian 64-bit value as bytes (utils/PacketHelper.h:123-128, `add64`). -/
def be64 (n : Nat) : List UInt8 := be32 (n / 4294967296) ++ be32 n

/-- Value of a big-endian byte sequence (utils/PacketHelper.h:18-37, `pop16/pop32/pop64`). -/
def beVal (l : List UInt8) : Nat := l.foldl (fun a b => a * 256 + b.toNat) 0

theorem beVal_be16 (n : Nat) (h : n < 65536) : beVal (be16 n) = n := by
  simp [beVal, be16]; omega

theorem beVal_be32 (n : Nat) (h : n < 4294967296) : beVal (be32 n) = n := by
  simp [beVal, be32]; omega

theorem beVal_be64 (n : Nat) (h : n < 18446744073709551616) : beVal (be64 n) = n := by
  simp [beVal, be64, be32]; omega

@[simp] theorem be16_length (n : Nat) : (be16 n).length = 2 := rfl
@[simp] theorem be32_length (n : Nat) : (be32 n).length = 4 := rfl
@[simp] theorem be64_length (n : Nat) : (be64 n).length = 8 := rfl

end Verif
