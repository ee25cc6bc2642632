import Verif.Model.WireFormatter
import Verif.Spec.Schema

/-!
# `class Field` and the scalar fields `FieldTemplate<…>` — /repo/src/Fields.h
-/

namespace EP

variable {ω β : Type}

/-- Which family of C++ class a field belongs to; this is what the `is_base_of` traits in
`RepeatedField` (RepeatedField.h:66-68, 376) and the choice of Jinja templates in
/repo/generator/EmbeddedProto/Field.py look at. -/
inductive FieldKind where
  | scalar
  | stringBytes
  | message
  | repeated
  deriving DecidableEq, Repr

/-- A C++ field class: its object state and its member functions
(`class Field`, /repo/src/Fields.h:49-118).  The members that run code are polymorphic in the
buffer, as the C++ code is via virtual calls. -/
structure FieldClass where
  /-- the data members -/
  State : Type
  kind : FieldKind
  /-- value after (default) construction inside a message -/
  init : State
  serialize : {ω : Type} → [WriteBuffer ω] → State → ω → Res (Error × ω)
  serializeWithId : {ω : Type} → [WriteBuffer ω] → Nat → State → ω → Bool → Res (Error × ω)
  /-- the first argument is the loop fuel -/
  deserialize : {β : Type} → [ReadBuffer β] → Nat → β → State → Res (Error × β × State)
  deserializeCheckType :
    {β : Type} → [ReadBuffer β] → Nat → β → WireType → State → Res (Error × β × State)
  clear : State → Res State
  /-- the class's `operator=` for equal types, used for array elements -/
  assign : State → State → Res State
  /-- what the generated `set_x(rhs.get_x())` does -/
  set : State → State → Res State
  /-- the value test that guards serialization of a singular field without presence
  (`default != value` in FieldBasic_Serialize.h:33, FieldEnum_Serialize.h:33; no test otherwise) -/
  plainGuard : State → Bool

/-- `Field::serialized_size` — /repo/src/Fields.cpp:36-41: a dry run on a size calculator; the
error code is ignored. -/
def FieldClass.serializedSize (C : FieldClass) (x : C.State) : Res Nat := do
  let (_, c) ← C.serialize x (⟨0⟩ : SizeCalc)
  pure c.size

/-! ## Scalars

The types are `ScalarTy` (Fields.h:52-72, 441-456); `ScalarTy.zero` is
`static_cast<VARIABLE_TYPE>(0)`, the value set by `clear()` (Fields.h:225) and by the member
initialiser the generator emits (TypeDefMsg.h:395-401). -/

/-- `WIRETYPE` — Fields.h:441-456. -/
def ScalarTy.wireType : ScalarTy → WireType
  | .fixed64 | .sfixed64 | .doublefixed => .fixed64
  | .fixed32 | .sfixed32 | .floatfixed => .fixed32
  | _ => .varint

/-- `default == value` with C++ `==`: for `float`/`double` IEEE comparison with `0.0`, true for
both zeros (and false for NaN); bitwise otherwise. -/
def ScalarTy.isDefault : (s : ScalarTy) → s.Val → Bool
  | .boolean, v => v == false
  | .int64, v => v == (0 : BitVec 64)
  | .uint64, v => v == (0 : BitVec 64)
  | .sint64, v => v == (0 : BitVec 64)
  | .fixed64, v => v == (0 : BitVec 64)
  | .sfixed64, v => v == (0 : BitVec 64)
  | .doublefixed, v => (v &&& (0x7FFFFFFFFFFFFFFF : BitVec 64)) == (0 : BitVec 64)
  | .int32, v => v == (0 : BitVec 32)
  | .uint32, v => v == (0 : BitVec 32)
  | .sint32, v => v == (0 : BitVec 32)
  | .enumeration, v => v == (0 : BitVec 32)
  | .fixed32, v => v == (0 : BitVec 32)
  | .sfixed32, v => v == (0 : BitVec 32)
  | .floatfixed, v => (v &&& (0x7FFFFFFF : BitVec 32)) == (0 : BitVec 32)

/-- `FieldTemplate::serialize_<FIELDTYPE>` — Fields.h:339-383. -/
def ScalarTy.serialize [WriteBuffer ω] : (s : ScalarTy) → s.Val → ω → Res (Error × ω)
  | .int32, v, w => serializeVarint (w := 32) v w
  | .int64, v, w => serializeVarint (w := 64) v w
  | .uint32, v, w => serializeVarint (w := 32) v w
  | .uint64, v, w => serializeVarint (w := 64) v w
  | .sint32, v, w => serializeVarint (w := 32) (zigZagEncode v) w
  | .sint64, v, w => serializeVarint (w := 64) (zigZagEncode v) w
  | .boolean, v, w => do
    let byte : Byte := if v then 1 else 0
    let (r, w) ← WriteBuffer.push w byte
    pure (pushError r, w)
  | .enumeration, v, w => serializeVarint (w := 32) v w
  | .fixed32, v, w => serializeFixed (w := 32) v w
  | .fixed64, v, w => serializeFixed (w := 64) v w
  | .sfixed32, v, w => serializeFixed (w := 32) v w
  | .sfixed64, v, w => serializeFixed (w := 64) v w
  | .floatfixed, v, w => serializeFixed (w := 32) v w
  | .doublefixed, v, w => serializeFixed (w := 64) v w

/-- `FieldTemplate::deserialize_<FIELDTYPE>` — Fields.h:387-436. -/
def ScalarTy.decode [ReadBuffer β] : (s : ScalarTy) → β → Res (Except Error s.Val × β)
  | .int32, b => deserializeInt 32 b
  | .int64, b => deserializeInt 64 b
  | .uint32, b => deserializeVarint 32 b
  | .uint64, b => deserializeVarint 64 b
  | .sint32, b => deserializeSInt 32 b
  | .sint64, b => deserializeSInt 64 b
  | .boolean, b => deserializeBool b
  | .enumeration, b => deserializeVarint 32 b
  | .fixed32, b => deserializeFixed 32 b
  | .fixed64, b => deserializeFixed 64 b
  | .sfixed32, b => deserializeFixed 32 b
  | .sfixed64, b => deserializeFixed 64 b
  | .floatfixed, b => deserializeFixed 32 b
  | .doublefixed, b => deserializeFixed 64 b

/-- `FieldTemplate::deserialize` — Fields.h:151-154: the stored value changes only on success. -/
def ScalarTy.deserialize [ReadBuffer β] (s : ScalarTy) (b : β) (old : s.Val) :
    Res (Error × β × s.Val) := do
  let (r, b) ← s.decode b
  match r with
  | .ok v => pure (.noErrors, b, v)
  | .error e => pure (e, b, old)

/-- `template<…> class FieldTemplate` — Fields.h:121-438. -/
def scalarClass (s : ScalarTy) : FieldClass where
  State := s.Val
  kind := .scalar
  init := s.zero
  serialize v w := s.serialize v w                          -- Fields.h:146-149
  serializeWithId num v w _ := do                           -- Fields.h:136-144
    let (e, w) ← serializeVarint (makeTag num s.wireType) w
    if e = .noErrors then s.serialize v w else pure (e, w)
  deserialize _ b v := s.deserialize b v                    -- Fields.h:151-154
  deserializeCheckType _ b wt v :=                          -- Fields.h:157-166
    if s.wireType = wt then s.deserialize b v else pure (.invalidWiretype, b, v)
  clear _ := pure s.zero                                    -- Fields.h:225
  assign _ rhs := pure rhs                                  -- Fields.h:184-193
  set _ rhs := pure rhs                                     -- FieldBasic_GetSet.h:86-87
  plainGuard v := !s.isDefault v                            -- FieldBasic_Serialize.h:33

end EP
