import Verif.Spec.Schema

/-!
# Numbers

The number a scalar stands for, and the order of numbers.
-/

namespace EP

/-- The magnitude of an IEEE 754 number with `p` fraction bits in multiples of the smallest positive number: `n`
are the bits without the sign, the exponent above the fraction. -/
def ieeeMagnitude (p n : Nat) : Nat :=
  if n / 2 ^ p = 0 then n % 2 ^ p else (2 ^ p + n % 2 ^ p) * 2 ^ (n / 2 ^ p - 1)

/-- An IEEE 754 number with `e` exponent bits and `p` fraction bits as multiple of the smallest positive number.
Infinity is greater than all finite numbers; `none`: not a number. -/
def ieeeValue (e p n : Nat) : Option Int :=
  let m := n % 2 ^ (e + p)
  if m / 2 ^ p = 2 ^ e - 1 ∧ m % 2 ^ p ≠ 0 then none
  else if n / 2 ^ (e + p) = 0 then some (ieeeMagnitude p m) else some (-(ieeeMagnitude p m))

/-- The number a scalar stands for. -/
def ScalarTy.number : (s : ScalarTy) → s.Val → Option Int
  | .boolean, v => some (if v then 1 else 0)
  | .int32, v => some (BitVec.toInt (n := 32) v)
  | .sint32, v => some (BitVec.toInt (n := 32) v)
  | .sfixed32, v => some (BitVec.toInt (n := 32) v)
  | .int64, v => some (BitVec.toInt (n := 64) v)
  | .sint64, v => some (BitVec.toInt (n := 64) v)
  | .sfixed64, v => some (BitVec.toInt (n := 64) v)
  | .uint32, v => some (BitVec.toNat (w := 32) v : Nat)
  | .fixed32, v => some (BitVec.toNat (w := 32) v : Nat)
  | .enumeration, v => some (BitVec.toNat (w := 32) v : Nat)
  | .uint64, v => some (BitVec.toNat (w := 64) v : Nat)
  | .fixed64, v => some (BitVec.toNat (w := 64) v : Nat)
  | .floatfixed, v => ieeeValue 8 23 (BitVec.toNat (w := 32) v)
  | .doublefixed, v => ieeeValue 11 52 (BitVec.toNat (w := 64) v)

/-- An IEEE 754 number with `e` exponent bits and `p` fraction bits, in multiples of 2^-1074, the smallest positive
`double`.  Infinity is 2^1024, which is greater than all finite numbers; `none`: not a number. -/
def ieeeReal (e p n : Nat) : Option Int :=
  let m := n % 2 ^ (e + p)
  let size : Nat := if m / 2 ^ p = 2 ^ e - 1 then 2 ^ 2098
    else ieeeMagnitude p m * 2 ^ (1074 - (2 ^ (e - 1) - 2 + p))
  if m / 2 ^ p = 2 ^ e - 1 ∧ m % 2 ^ p ≠ 0 then none
  else if n / 2 ^ (e + p) = 0 then some size else some (-size)

/-- The number a scalar stands for, in the same multiples for all types. -/
def ScalarTy.real : (s : ScalarTy) → s.Val → Option Int
  | .floatfixed, v => ieeeReal 8 23 (BitVec.toNat (w := 32) v)
  | .doublefixed, v => ieeeReal 11 52 (BitVec.toNat (w := 64) v)
  | s, v => (s.number v).map (· * 2 ^ 1074)

/-- Comparison operators. -/
inductive CmpOp where
  | eq | ne | gt | lt | ge | le
  deriving DecidableEq, Repr

/-- What the operator means for numbers; with something that is not a number only `!=` holds. -/
def CmpOp.holds : CmpOp → Option Int → Option Int → Bool
  | .eq, some a, some b => a == b
  | .ne, some a, some b => a != b
  | .gt, some a, some b => a > b
  | .lt, some a, some b => a < b
  | .ge, some a, some b => a ≥ b
  | .le, some a, some b => a ≤ b
  | .ne, _, _ => true
  | _, _, _ => false

end EP
