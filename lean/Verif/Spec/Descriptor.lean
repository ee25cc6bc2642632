import Verif.Spec.Schema

/-!
# Descriptors

What protoc hands to the generator: `FileDescriptorProto` and its parts, as far as the generator looks at
them.  Names are lists of characters.
-/

namespace EP.Gen

abbrev Str := List Char

/-- `FieldDescriptorProto.type`. -/
inductive FType where
  /-- `int32 … double`; enums are separate -/
  | scalar (s : ScalarTy)
  | enum | message | string | bytes
  deriving DecidableEq, Repr

/-- `FieldDescriptorProto`.  `typeName` is the full name with a leading dot, empty if the type is no enum or
message.  `maxLength` is 0 if the option is not given (the generator treats both alike: `if not self.MaxLength`). -/
structure FieldDesc where
  name : Str
  number : Nat
  repeated : Bool
  type : FType
  typeName : Str
  oneofIndex : Option Nat
  proto3Optional : Bool
  maxLength : Nat
  deriving DecidableEq, Repr

/-- `DescriptorProto`: name, fields, names of the oneofs, names of the nested enums, nested messages. -/
inductive MsgDesc where
  | mk (name : Str) (fields : List FieldDesc) (oneofs : List Str) (enums : List Str) (nested : List MsgDesc)

namespace MsgDesc
def name : MsgDesc → Str
  | .mk n _ _ _ _ => n
def fields : MsgDesc → List FieldDesc
  | .mk _ f _ _ _ => f
def oneofs : MsgDesc → List Str
  | .mk _ _ o _ _ => o
def enums : MsgDesc → List Str
  | .mk _ _ _ e _ => e
def nested : MsgDesc → List MsgDesc
  | .mk _ _ _ _ n => n
end MsgDesc

/-- `scope + "." + name` -/
def dot (scope name : Str) : Str := scope ++ '.' :: name

/-- What protoc has checked about the fields of a message: numbers are distinct and in range, a oneof has at
least one member, and an `optional` field is the only member of a oneof made up for it. -/
structure FieldsValid (fields : List FieldDesc) (oneofs : List Str) : Prop where
  distinct : (fields.map (·.number)).Nodup
  range : ∀ f ∈ fields, 0 < f.number ∧ f.number < 536870912
  index : ∀ f ∈ fields, ∀ i, f.oneofIndex = some i → i < oneofs.length
  inhabited : ∀ i, i < oneofs.length → ∃ f ∈ fields, f.oneofIndex = some i
  optional : ∀ f ∈ fields, f.proto3Optional = true →
    ∃ i, f.oneofIndex = some i ∧ ∀ g ∈ fields, g.oneofIndex = some i → g = f
  single : ∀ f ∈ fields, f.oneofIndex ≠ none → f.repeated = false

/-- `FileDescriptorProto`; `package` with a leading dot, or empty.  -/
structure FileDesc where
  package : Str
  enums : List Str
  messages : List MsgDesc

end EP.Gen
