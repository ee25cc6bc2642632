import Verif.Spec.Schema
import Verif.Spec.Wire

/-!
# Logical values of messages and their protobuf encoding

What a user of a message sees (`Val`), the protobuf encoding of it, protobuf merge, and which values
fit the declared maximum lengths.
-/

namespace EP
open Spec

/-! ## Scalars -/

/-- Wire type of a scalar type. -/
def ScalarTy.wire : ScalarTy → WireType
  | .fixed64 | .sfixed64 | .doublefixed => .fixed64
  | .fixed32 | .sfixed32 | .floatfixed => .fixed32
  | _ => .varint

/-- The encoding of a scalar in which 32 bit integers and enums are varints of at most 5 bytes:
negative `int32` and enum values as their 32 bit two's complement. -/
def ScalarTy.enc : (s : ScalarTy) → s.Val → List Byte
  | .int32, v => varint (BitVec.toNat (w := 32) v)
  | .int64, v => varint (BitVec.toNat (w := 64) v)
  | .uint32, v => varint (BitVec.toNat (w := 32) v)
  | .uint64, v => varint (BitVec.toNat (w := 64) v)
  | .sint32, v => varint (zigzag (BitVec.toInt (n := 32) v))
  | .sint64, v => varint (zigzag (BitVec.toInt (n := 64) v))
  | .boolean, v => varint (if v then 1 else 0)
  | .enumeration, v => varint (BitVec.toNat (w := 32) v)
  | .fixed32, v => littleEndian 4 (BitVec.toNat (w := 32) v)
  | .sfixed32, v => littleEndian 4 (BitVec.toNat (w := 32) v)
  | .floatfixed, v => littleEndian 4 (BitVec.toNat (w := 32) v)
  | .fixed64, v => littleEndian 8 (BitVec.toNat (w := 64) v)
  | .sfixed64, v => littleEndian 8 (BitVec.toNat (w := 64) v)
  | .doublefixed, v => littleEndian 8 (BitVec.toNat (w := 64) v)

/-- The encoding of a scalar used by standard protobuf encoders: as `ScalarTy.enc`, but negative
`int32` and enum values are sign extended to 64 bits (10 bytes). -/
def ScalarTy.encStandard : (s : ScalarTy) → s.Val → List Byte
  | .int32, v => varint (BitVec.signExtend 64 (w := 32) v).toNat
  | .enumeration, v => varint (BitVec.signExtend 64 (w := 32) v).toNat
  | s, v => s.enc v

/-- Is this the default value (all bits zero)? -/
def ScalarTy.isZero (s : ScalarTy) (v : s.Val) : Bool := decide (v = s.zero)

/-- `v == 0.0` for floating point types (true for both zeros); equality with zero otherwise. -/
def ScalarTy.numZero : (s : ScalarTy) → s.Val → Bool
  | .floatfixed, v => BitVec.toNat (w := 32) v % 2 ^ 31 == 0
  | .doublefixed, v => BitVec.toNat (w := 64) v % 2 ^ 63 == 0
  | s, v => v == s.zero

/-- The bit pattern of `-0.0`. -/
def ScalarTy.negZero : (s : ScalarTy) → Option s.Val
  | .floatfixed => some (0x80000000 : BitVec 32)
  | .doublefixed => some (0x8000000000000000 : BitVec 64)
  | _ => none

/-! ## Values -/

/-- Is this a scalar type (packed when repeated)? -/
def ElemTy.isScalar : ElemTy → Bool
  | .scalar _ => true
  | _ => false

/-- Wire type of a singular field. -/
def ElemTy.wire : ElemTy → WireType
  | .scalar s => s.wire
  | _ => .lengthDelimited

/-- Strings, bytes and messages are preceded by their length. -/
def ElemTy.wrap : ElemTy → List Byte → List Byte
  | .scalar _, bs => bs
  | _, bs => lenDelim bs

mutual
/-- What a user can see of a field or message. -/
def ElemTy.Val : ElemTy → Type
  | .scalar s => s.Val
  | .str _ => List Byte
  | .msg fs os => fs.Val × os.Val
def Fields.Val : Fields → Type
  | .nil => Unit
  | .plain _ t rest => t.Val × rest.Val
  | .optional _ t rest => Option t.Val × rest.Val
  | .repeated _ _ t rest => List t.Val × rest.Val
/-- One chosen member. -/
def Alts.Val : Alts → Type
  | .nil => Empty
  | .cons _ t rest => t.Val ⊕ rest.Val
def Oneofs.Val : Oneofs → Type
  | .nil => Unit
  | .cons a rest => Option a.Val × rest.Val
end

mutual
/-- The default value. -/
def ElemTy.dflt : (t : ElemTy) → t.Val
  | .scalar s => s.zero
  | .str _ => ([] : List Byte)
  | .msg fs os => (fs.dflt, os.dflt)
def Fields.dflt : (fs : Fields) → fs.Val
  | .nil => ()
  | .plain _ t rest => (t.dflt, rest.dflt)
  | .optional _ _ rest => (none, rest.dflt)
  | .repeated _ _ _ rest => ([], rest.dflt)
def Oneofs.dflt : (os : Oneofs) → os.Val
  | .nil => ()
  | .cons _ rest => (none, rest.dflt)
end

mutual
/-- Is this the default value? -/
def ElemTy.isDflt : (t : ElemTy) → t.Val → Bool
  | .scalar s, v => s.isZero v
  | .str _, v => List.isEmpty (α := Byte) v
  | .msg fs os, v => fs.isDflt v.1 && os.isDflt v.2
def Fields.isDflt : (fs : Fields) → fs.Val → Bool
  | .nil, _ => true
  | .plain _ t rest, v => t.isDflt v.1 && rest.isDflt v.2
  | .optional _ _ rest, v => v.1.isNone && rest.isDflt v.2
  | .repeated _ _ _ rest, v => v.1.isEmpty && rest.isDflt v.2
def Oneofs.isDflt : (os : Oneofs) → os.Val → Bool
  | .nil, _ => true
  | .cons _ rest, v => v.1.isNone && rest.isDflt v.2
end

/-! ## Encoding -/

/-- The records of a repeated field, given the encodings of the elements: one packed record for
scalars, one record per element otherwise. -/
def encodeRepeated (t : ElemTy) (num : Nat) (es : List (List Byte)) : List Byte :=
  if t.isScalar then
    if es.isEmpty then [] else tag num .lengthDelimited ++ lenDelim es.flatten
  else (es.map fun e => tag num .lengthDelimited ++ lenDelim e).flatten

mutual
/-- The encoding of a value, for a given encoding `sc` of scalars: for a message the records of all
fields, in declaration order, then those of the oneofs. -/
def ElemTy.encodeWith (sc : (s : ScalarTy) → s.Val → List Byte) : (t : ElemTy) → t.Val → List Byte
  | .scalar s, v => sc s v
  | .str _, v => v
  | .msg fs os, v => fs.encodeWith sc v.1 ++ os.encodeWith sc v.2
def Fields.encodeWith (sc : (s : ScalarTy) → s.Val → List Byte) : (fs : Fields) → fs.Val → List Byte
  | .nil, _ => []
  | .plain num t rest, v =>
    (if t.isDflt v.1 then [] else tag num t.wire ++ t.wrap (t.encodeWith sc v.1))
      ++ rest.encodeWith sc v.2
  | .optional num t rest, v =>
    (match v.1 with
      | none => []
      | some x => tag num t.wire ++ t.wrap (t.encodeWith sc x)) ++ rest.encodeWith sc v.2
  | .repeated num _ t rest, v =>
    encodeRepeated t num (v.1.map (t.encodeWith sc)) ++ rest.encodeWith sc v.2
def Alts.encodeWith (sc : (s : ScalarTy) → s.Val → List Byte) : (a : Alts) → a.Val → List Byte
  | .nil, _ => []
  | .cons num t _, .inl x => tag num t.wire ++ t.wrap (t.encodeWith sc x)
  | .cons _ _ rest, .inr y => rest.encodeWith sc y
def Oneofs.encodeWith (sc : (s : ScalarTy) → s.Val → List Byte) : (os : Oneofs) → os.Val → List Byte
  | .nil, _ => []
  | .cons a rest, v =>
    (match v.1 with
      | none => []
      | some x => a.encodeWith sc x) ++ rest.encodeWith sc v.2
end

/-- The encoding with 5-byte negative `int32`/enum values. -/
abbrev ElemTy.encode (t : ElemTy) : t.Val → List Byte := t.encodeWith ScalarTy.enc
abbrev Fields.encode (fs : Fields) : fs.Val → List Byte := fs.encodeWith ScalarTy.enc
abbrev Alts.encode (a : Alts) : a.Val → List Byte := a.encodeWith ScalarTy.enc
abbrev Oneofs.encode (os : Oneofs) : os.Val → List Byte := os.encodeWith ScalarTy.enc

/-- The encoding produced by standard protobuf encoders. -/
abbrev ElemTy.encodeStandard (t : ElemTy) : t.Val → List Byte := t.encodeWith ScalarTy.encStandard

/-! ## Negative zero -/

/-- Replace a floating point `-0.0` in a field without presence by `0.0`. -/
def ElemTy.dropNegZero : (t : ElemTy) → t.Val → t.Val
  | .scalar s, v => if s.numZero v then s.zero else v
  | .str _, v => v
  | .msg _ _, v => v

mutual
/-- Replace every `-0.0` in a field without presence by `0.0`, at any depth. -/
def ElemTy.canon : (t : ElemTy) → t.Val → t.Val
  | .scalar _, v => v
  | .str _, v => v
  | .msg fs os, v => (fs.canon v.1, os.canon v.2)
def Fields.canon : (fs : Fields) → fs.Val → fs.Val
  | .nil, v => v
  | .plain _ t rest, v => (t.dropNegZero (t.canon v.1), rest.canon v.2)
  | .optional _ t rest, v => (v.1.map t.canon, rest.canon v.2)
  | .repeated _ _ t rest, v => (v.1.map t.canon, rest.canon v.2)
def Alts.canon : (a : Alts) → a.Val → a.Val
  | .nil, v => v
  | .cons _ t _, .inl x => .inl (t.canon x)
  | .cons _ _ rest, .inr y => .inr (rest.canon y)
def Oneofs.canon : (os : Oneofs) → os.Val → os.Val
  | .nil, v => v
  | .cons a rest, v => (v.1.map a.canon, rest.canon v.2)
end

/-! ## Values on which all encoders agree -/

/-- Not a negative `int32` or enum value. -/
def ScalarTy.NonNeg : (s : ScalarTy) → s.Val → Prop
  | .int32, v => 0 ≤ BitVec.toInt (n := 32) v
  | .enumeration, v => 0 ≤ BitVec.toInt (n := 32) v
  | _, _ => True

mutual
/-- No negative `int32` or enum value at any depth. -/
def ElemTy.NonNeg : (t : ElemTy) → t.Val → Prop
  | .scalar s, v => s.NonNeg v
  | .str _, _ => True
  | .msg fs os, v => fs.NonNeg v.1 ∧ os.NonNeg v.2
def Fields.NonNeg : (fs : Fields) → fs.Val → Prop
  | .nil, _ => True
  | .plain _ t rest, v => t.NonNeg v.1 ∧ rest.NonNeg v.2
  | .optional _ t rest, v => (∀ x, v.1 = some x → t.NonNeg x) ∧ rest.NonNeg v.2
  | .repeated _ _ t rest, v => (∀ x ∈ v.1, t.NonNeg x) ∧ rest.NonNeg v.2
def Alts.NonNeg : (a : Alts) → a.Val → Prop
  | .nil, _ => True
  | .cons _ t _, .inl x => t.NonNeg x
  | .cons _ _ rest, .inr y => rest.NonNeg y
def Oneofs.NonNeg : (os : Oneofs) → os.Val → Prop
  | .nil, _ => True
  | .cons a rest, v => (∀ x, v.1 = some x → a.NonNeg x) ∧ rest.NonNeg v.2
end

/-! ## Merge -/

mutual
/-- Protobuf merge of a decoded value `v` into `u`. -/
def ElemTy.merge : (t : ElemTy) → t.Val → t.Val → t.Val
  | .scalar _, _, v => v
  | .str _, _, v => v
  | .msg fs os, u, v => (fs.merge u.1 v.1, os.merge u.2 v.2)
def Fields.merge : (fs : Fields) → fs.Val → fs.Val → fs.Val
  | .nil, _, v => v
  | .plain _ t rest, u, v =>
    (if t.isDflt v.1 then u.1 else t.merge u.1 v.1, rest.merge u.2 v.2)
  | .optional _ t rest, u, v =>
    (match u.1, v.1 with
      | x, none => x
      | none, some y => some y
      | some x, some y => some (t.merge x y), rest.merge u.2 v.2)
  | .repeated _ _ _ rest, u, v => (u.1 ++ v.1, rest.merge u.2 v.2)
def Alts.merge : (a : Alts) → a.Val → a.Val → a.Val
  | .nil, _, v => v
  | .cons _ t _, .inl x, .inl y => .inl (t.merge x y)
  | .cons _ _ rest, .inr x, .inr y => .inr (rest.merge x y)
  | .cons _ _ _, .inl _, .inr y => .inr y
  | .cons _ _ _, .inr _, .inl y => .inl y
def Oneofs.merge : (os : Oneofs) → os.Val → os.Val → os.Val
  | .nil, _, v => v
  | .cons a rest, u, v =>
    (match u.1, v.1 with
      | x, none => x
      | none, some y => some y
      | some x, some y => some (a.merge x y), rest.merge u.2 v.2)
end

/-! ## Maximum lengths -/

mutual
/-- All strings and repeated fields are within their maximum lengths. -/
def ElemTy.Fits : (t : ElemTy) → t.Val → Prop
  | .scalar _, _ => True
  | .str cap, v => List.length (α := Byte) v ≤ cap
  | .msg fs os, v => fs.Fits v.1 ∧ os.Fits v.2
def Fields.Fits : (fs : Fields) → fs.Val → Prop
  | .nil, _ => True
  | .plain _ t rest, v => t.Fits v.1 ∧ rest.Fits v.2
  | .optional _ t rest, v => (∀ x, v.1 = some x → t.Fits x) ∧ rest.Fits v.2
  | .repeated _ cap t rest, v => (v.1.length ≤ cap ∧ ∀ x ∈ v.1, t.Fits x) ∧ rest.Fits v.2
def Alts.Fits : (a : Alts) → a.Val → Prop
  | .nil, _ => True
  | .cons _ t _, .inl x => t.Fits x
  | .cons _ _ rest, .inr y => rest.Fits y
def Oneofs.Fits : (os : Oneofs) → os.Val → Prop
  | .nil, _ => True
  | .cons a rest, v => (∀ x, v.1 = some x → a.Fits x) ∧ rest.Fits v.2
end

end EP
