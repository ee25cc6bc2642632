import Verif.Spec.Value

/-!
# The size of the largest message of a declaration

Computed from the declaration alone: every field set, strings and arrays full, of every oneof the member that takes
most bytes.
-/

namespace EP
open Spec

/-- Most bytes a value of a scalar type takes. -/
def ScalarTy.maxLen : ScalarTy → Nat
  | .boolean => 1
  | .int32 | .uint32 | .sint32 | .enumeration => 5
  | .int64 | .uint64 | .sint64 => 10
  | .fixed32 | .sfixed32 | .floatfixed => 4
  | .fixed64 | .sfixed64 | .doublefixed => 8

/-- Bytes a record takes, if its content takes `n`. -/
def ElemTy.recordLen (num : Nat) (t : ElemTy) (n : Nat) : Nat :=
  (tag num t.wire).length + (if t.isScalar then 0 else (varint n).length) + n

mutual
/-- Most bytes a value takes. -/
def ElemTy.maxLen : ElemTy → Nat
  | .scalar s => s.maxLen
  | .str cap => cap
  | .msg fs os => fs.maxLen + os.maxLen
def Fields.maxLen : Fields → Nat
  | .nil => 0
  | .plain num t rest => (if t.maxLen = 0 then 0 else t.recordLen num t.maxLen) + rest.maxLen
  | .optional num t rest => t.recordLen num t.maxLen + rest.maxLen
  | .repeated num cap t rest =>
    (if cap = 0 then 0
    else if t.isScalar then
      (tag num .lengthDelimited).length + (varint (cap * t.maxLen)).length + cap * t.maxLen
    else cap * t.recordLen num t.maxLen) + rest.maxLen
def Alts.maxLen : Alts → Nat
  | .nil => 0
  | .cons num t rest => max (t.recordLen num t.maxLen) rest.maxLen
def Oneofs.maxLen : Oneofs → Nat
  | .nil => 0
  | .cons a rest => a.maxLen + rest.maxLen
end

end EP
