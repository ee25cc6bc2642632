import Verif.Model.Basic

/-!
# Message declarations

The part of a `.proto` file that determines what a message object holds and how it is encoded.
No code is modelled here; `Verif/Model/Schema.lean` maps a declaration to the generated classes.
-/

namespace EP

/-- The scalar types, in the naming of `Field::FieldTypes` (/repo/src/Fields.h:52-72). -/
inductive ScalarTy where
  | int32 | int64 | uint32 | uint64 | sint32 | sint64 | boolean | enumeration
  | fixed64 | sfixed64 | doublefixed | fixed32 | sfixed32 | floatfixed
  deriving DecidableEq, Repr

/-- The values of a scalar type.  Signed integers, enums (`enum class : uint32_t`,
TypeDefEnum.h:30) and floating point values are their bit patterns. -/
abbrev ScalarTy.Val : ScalarTy → Type
  | .boolean => Bool
  | .int64 => BitVec 64
  | .uint64 => BitVec 64
  | .sint64 => BitVec 64
  | .fixed64 => BitVec 64
  | .sfixed64 => BitVec 64
  | .doublefixed => BitVec 64
  | .int32 => BitVec 32
  | .uint32 => BitVec 32
  | .sint32 => BitVec 32
  | .enumeration => BitVec 32
  | .fixed32 => BitVec 32
  | .sfixed32 => BitVec 32
  | .floatfixed => BitVec 32

instance (s : ScalarTy) : DecidableEq s.Val := by
  cases s <;> (dsimp only [ScalarTy.Val]; infer_instance)

/-- The default value of a scalar type (all bits zero). -/
def ScalarTy.zero : (s : ScalarTy) → s.Val
  | .boolean => false
  | .int64 | .uint64 | .sint64 | .fixed64 | .sfixed64 | .doublefixed => (0 : BitVec 64)
  | .int32 | .uint32 | .sint32 | .enumeration | .fixed32 | .sfixed32 | .floatfixed => (0 : BitVec 32)

mutual
/-- The type of a member (before `repeated`). -/
inductive ElemTy where
  /-- `int32 … float`, or an enum -/
  | scalar (s : ScalarTy)
  /-- `string`/`bytes` with maximum length `cap` -/
  | str (cap : Nat)
  /-- a message with the given fields and oneofs -/
  | msg (fields : Fields) (oneofs : Oneofs)
/-- The fields outside oneofs, in declaration order, with their field numbers. -/
inductive Fields where
  | nil
  /-- singular, no presence tracking -/
  | plain (num : Nat) (t : ElemTy) (rest : Fields)
  /-- `optional` -/
  | optional (num : Nat) (t : ElemTy) (rest : Fields)
  /-- `repeated` with maximum length `cap` -/
  | repeated (num : Nat) (cap : Nat) (t : ElemTy) (rest : Fields)
/-- The members of one oneof. -/
inductive Alts where
  | nil
  | cons (num : Nat) (t : ElemTy) (rest : Alts)
/-- The oneofs of a message. -/
inductive Oneofs where
  | nil
  | cons (alts : Alts) (rest : Oneofs)
end

/-- Number of `optional` fields. -/
def Fields.nOptional : Fields → Nat
  | .nil => 0
  | .plain _ _ rest => rest.nOptional
  | .optional _ _ rest => rest.nOptional + 1
  | .repeated _ _ _ rest => rest.nOptional

/-- Field numbers in declaration order. -/
def Fields.numbers : Fields → List Nat
  | .nil => []
  | .plain n _ rest => n :: rest.numbers
  | .optional n _ rest => n :: rest.numbers
  | .repeated n _ _ rest => n :: rest.numbers

def Alts.numbers : Alts → List Nat
  | .nil => []
  | .cons n _ rest => n :: rest.numbers

def Oneofs.numbers : Oneofs → List Nat
  | .nil => []
  | .cons a rest => a.numbers ++ rest.numbers

mutual
/-- Declarations protoc and the C++ compiler accept: field numbers are between 1 and `2^29 - 1` and
distinct within a message (protoc; also duplicate `case` labels do not compile); maximum lengths
are below `2^31` (sizes must not overflow `uint32_t` when added to a buffer index), and those of
strings are positive (`std::array<char, 0>` cannot be initialised with `{{0}}`, as
FieldStringBytes.h:286 does). -/
def ElemTy.WF : ElemTy → Prop
  | .scalar _ => True
  | .str cap => 0 < cap ∧ cap < 2147483648
  | .msg fs os => fs.WF ∧ os.WF ∧ (fs.numbers ++ os.numbers).Nodup ∧
      ∀ n ∈ fs.numbers ++ os.numbers, 0 < n ∧ n < 536870912
def Fields.WF : Fields → Prop
  | .nil => True
  | .plain _ t rest => t.WF ∧ rest.WF
  | .optional _ t rest => t.WF ∧ rest.WF
  | .repeated _ cap t rest => cap < 2147483648 ∧ t.WF ∧ rest.WF
def Alts.WF : Alts → Prop
  | .nil => True
  | .cons _ t rest => t.WF ∧ rest.WF
def Oneofs.WF : Oneofs → Prop
  | .nil => True
  | .cons a rest => a.WF ∧ rest.WF
end

mutual
/-- Does the type contain a `string` or `bytes` field, at any depth? -/
def ElemTy.hasStr : ElemTy → Bool
  | .scalar _ => false
  | .str _ => true
  | .msg fs os => fs.hasStr || os.hasStr
def Fields.hasStr : Fields → Bool
  | .nil => false
  | .plain _ t rest => t.hasStr || rest.hasStr
  | .optional _ t rest => t.hasStr || rest.hasStr
  | .repeated _ _ t rest => t.hasStr || rest.hasStr
def Alts.hasStr : Alts → Bool
  | .nil => false
  | .cons _ t rest => t.hasStr || rest.hasStr
def Oneofs.hasStr : Oneofs → Bool
  | .nil => false
  | .cons a rest => a.hasStr || rest.hasStr
end

/-- Is this a message type? -/
def ElemTy.isMsg : ElemTy → Bool
  | .msg _ _ => true
  | _ => false

mutual
/-- Does the type contain a `repeated` field of messages, at any depth? -/
def ElemTy.hasRepMsg : ElemTy → Bool
  | .scalar _ => false
  | .str _ => false
  | .msg fs os => fs.hasRepMsg || os.hasRepMsg
def Fields.hasRepMsg : Fields → Bool
  | .nil => false
  | .plain _ t rest => t.hasRepMsg || rest.hasRepMsg
  | .optional _ t rest => t.hasRepMsg || rest.hasRepMsg
  | .repeated _ _ t rest => t.isMsg || rest.hasRepMsg
def Alts.hasRepMsg : Alts → Bool
  | .nil => false
  | .cons _ t rest => t.hasRepMsg || rest.hasRepMsg
def Oneofs.hasRepMsg : Oneofs → Bool
  | .nil => false
  | .cons a rest => a.hasRepMsg || rest.hasRepMsg
end

end EP
