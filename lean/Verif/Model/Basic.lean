/-!
# Basic types of the model

Outcomes, error codes, wire types and `uint32_t` arithmetic.
-/

namespace EP

/-- A `uint8_t`. -/
abbrev Byte := BitVec 8

/-- `2^32`, the modulus of `uint32_t` arithmetic. -/
abbrev two32 : Nat := 4294967296

/-- Result of a `uint32_t` computation: C++ unsigned arithmetic wraps modulo `2^32`. -/
def u32 (n : Nat) : Nat := n % two32

/-- `a - b` on `uint32_t`. -/
def u32sub (a b : Nat) : Nat := u32 (a + (two32 - u32 b))

/-- `enum class Error` — /repo/src/Errors.h:38-48. -/
inductive Error where
  | noErrors
  | endOfBuffer
  | bufferFull
  | invalidWiretype
  | arrayFull
  | invalidFieldId
  | overlongVarint
  | indexOutOfBound
  deriving DecidableEq, Repr

/-- `enum class WireType` — /repo/src/WireFormatter.h:74-82. -/
inductive WireType where
  | varint
  | fixed64
  | lengthDelimited
  | startGroup
  | endGroup
  | fixed32
  deriving DecidableEq, Repr

/-- The enumerator values — /repo/src/WireFormatter.h:76-81. -/
def WireType.toNat : WireType → Nat
  | .varint => 0
  | .fixed64 => 1
  | .lengthDelimited => 2
  | .startGroup => 3
  | .endGroup => 4
  | .fixed32 => 5

/-- `static_cast<WireType>(n)` for the six valid values. -/
def WireType.ofNat? : Nat → Option WireType
  | 0 => some .varint
  | 1 => some .fixed64
  | 2 => some .lengthDelimited
  | 3 => some .startGroup
  | 4 => some .endGroup
  | 5 => some .fixed32
  | _ => none

/-- Outcome of running a piece of C++: a result, undefined behaviour (an access outside an
array or to an inactive union member), or "the loop fuel ran out". -/
inductive Res (α : Type u) where
  | ok (a : α)
  | ub
  | diverge
  deriving DecidableEq, Repr

namespace Res

@[inline] def bind {α : Type u} {β : Type v} (x : Res α) (f : α → Res β) : Res β :=
  match x with
  | ok a => f a
  | ub => ub
  | diverge => diverge

instance : Monad Res where
  pure := ok
  bind := bind

/-- The value of a successful run. -/
def get? {α : Type u} : Res α → Option α
  | ok a => some a
  | _ => none

@[simp] theorem pure_eq {α : Type u} (a : α) : (pure a : Res α) = ok a := rfl
@[simp] theorem ok_bind {α β : Type u} (a : α) (f : α → Res β) : (ok a >>= f) = f a := rfl
@[simp] theorem ub_bind {α β : Type u} (f : α → Res β) : (ub >>= f) = ub := rfl
@[simp] theorem diverge_bind {α β : Type u} (f : α → Res β) : (diverge >>= f) = diverge := rfl

instance : LawfulMonad Res := LawfulMonad.mk'
  (id_map := by intro α x; cases x <;> rfl)
  (pure_bind := by intros; rfl)
  (bind_assoc := by intro α β γ x f g; cases x <;> rfl)

end Res

/-- `data[i]` on a `std::array`; outside the array this is undefined behaviour. -/
def arrayGet {α : Type u} (data : List α) (i : Nat) : Res α :=
  match data[i]? with
  | some a => .ok a
  | none => .ub

/-- `data[i] = a` on a `std::array`; outside the array this is undefined behaviour. -/
def arraySet {α : Type u} (data : List α) (i : Nat) (a : α) : Res (List α) :=
  if i < data.length then .ok (data.set i a) else .ub

/-- `memcpy(data + at, src, src.length)` into a `std::array`; writing past the end is undefined
behaviour. -/
def arrayCopy {α : Type u} (data : List α) (pos : Nat) (src : List α) : Res (List α) :=
  if pos + src.length ≤ data.length then
    .ok (data.take pos ++ src ++ data.drop (pos + src.length))
  else .ub

end EP
