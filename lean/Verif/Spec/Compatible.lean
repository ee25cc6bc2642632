import Verif.Spec.Number

/-!
# Compatible scalar types

Which types of a field may be changed into each other, and what a value of one is as a value of the other
(protobuf, "Updating A Message Type").
-/

namespace EP

/-- Types with the same encoding of numbers both can hold. -/
def ScalarTy.kind : ScalarTy → Nat
  | .int32 | .int64 | .uint32 | .uint64 | .boolean | .enumeration => 0
  | .sint32 | .sint64 => 1
  | .fixed32 | .sfixed32 => 2
  | .fixed64 | .sfixed64 => 3
  | .floatfixed => 4
  | .doublefixed => 5

/-- May a field of type `s` be changed into one of type `t`? -/
def ScalarTy.compatible (s t : ScalarTy) : Bool := s.kind == t.kind

/-- A number as value of a type, "as if you had cast the number to that type in C++". -/
def ScalarTy.cast : (t : ScalarTy) → Int → t.Val
  | .boolean, n => decide (n ≠ 0)
  | .int32, n => BitVec.ofInt 32 n
  | .sint32, n => BitVec.ofInt 32 n
  | .sfixed32, n => BitVec.ofInt 32 n
  | .int64, n => BitVec.ofInt 64 n
  | .sint64, n => BitVec.ofInt 64 n
  | .sfixed64, n => BitVec.ofInt 64 n
  | .uint32, n => BitVec.ofInt 32 n
  | .fixed32, n => BitVec.ofInt 32 n
  | .enumeration, n => BitVec.ofInt 32 n
  | .uint64, n => BitVec.ofInt 64 n
  | .fixed64, n => BitVec.ofInt 64 n
  | .floatfixed, n => BitVec.ofInt 32 n
  | .doublefixed, n => BitVec.ofInt 64 n

end EP
