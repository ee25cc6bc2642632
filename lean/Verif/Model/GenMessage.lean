import Verif.Spec.Descriptor

/-!
# The generator: from the descriptor of a message to the members of its class

/repo/generator/EmbeddedProto/Field.py:61-86, Oneof.py:34-49, TypeDefinitions.py:121-176.
-/

namespace EP.Gen

/-- Which subclass of `Field` is constructed (the type is that of the descriptor). -/
inductive Shape where
  /-- `FieldErrorRecursive` -/
  | recursive
  /-- `FieldRepeated`, `actual_type` is the class for the type -/
  | repeated
  /-- `FieldMessage`, `FieldEnum`, `FieldString`, `FieldBytes`, `FieldBasic` -/
  | single
  deriving DecidableEq, Repr

structure GField where
  desc : FieldDesc
  shape : Shape
  /-- the oneof it is a member of -/
  oneof : Option Nat
  deriving DecidableEq, Repr

/-- `Field.factory` — Field.py:61-86.  `own` is `parent_msg_type`. -/
def factory (own : Str) (f : FieldDesc) (oneof : Option Nat) : GField :=
  { desc := f
    shape := if f.typeName = own then .recursive else if f.repeated then .repeated else .single
    oneof := oneof }

structure GOneof where
  name : Str
  index : Nat
  fields : List GField
  deriving DecidableEq, Repr

/-- `Oneof.__init__` — Oneof.py:35-49. -/
def mkOneof (own : Str) (fields : List FieldDesc) (name : Str) (index : Nat) : GOneof :=
  { name, index, fields := (fields.filter fun f => f.oneofIndex == some index).map (factory own · (some index)) }

inductive GenError where
  | indexError | circular | templateParameters | valueError | notFound
  deriving DecidableEq, Repr

/-- The loop over `enumerate(oneof_decl)` — TypeDefinitions.py:150-163.  `oneof_fields[0]` raises if there
is none. -/
def mkOneofs (own : Str) (fields : List FieldDesc) : List Str → Nat → Except GenError (List GOneof)
  | [], _ => .ok []
  | n :: ns, i =>
    let o := mkOneof own fields n i
    match o.fields with
    | [] => .error .indexError
    | g :: _ =>
      if g.desc.proto3Optional then mkOneofs own fields ns (i + 1)
      else do
        let os ← mkOneofs own fields ns (i + 1)
        pure (o :: os)

/-- `variable_id_name` — Field.py:55. -/
def upper (s : Str) : Str := s.map Char.toUpper

/-- Comparison of Python strings. -/
def strLe : Str → Str → Bool
  | [], _ => true
  | _ :: _, [] => false
  | a :: s, b :: t => a.toNat < b.toNat || (a == b && strLe s t)

/-- Insert before the first element that is not smaller. -/
def insertBy {α : Type} (le : α → α → Bool) (a : α) : List α → List α
  | [] => [a]
  | b :: l => if le a b then a :: b :: l else b :: insertBy le a l

/-- `sorted`: a stable sort. -/
def sortBy {α : Type} (le : α → α → Bool) : List α → List α
  | [] => []
  | a :: l => insertBy le a (sortBy le l)

/-- Comparison of the pairs in `field_ids`. -/
def idLe (a b : Nat × Str) : Bool := a.1 < b.1 || (a.1 == b.1 && strLe a.2 b.2)

/-- The members of `MessageDefinition` set in TypeDefinitions.py:127-166. -/
structure GMessage where
  fields : List GField
  optionalFields : List GField
  oneofs : List GOneof
  fieldIds : List (Nat × Str)

def fieldId (g : GField) : Nat × Str := (g.desc.number, upper g.desc.name)

/-- TypeDefinitions.py:127-166. -/
def mkMessage (own : Str) (fields : List FieldDesc) (oneofs : List Str) : Except GenError GMessage := do
  let fs := (fields.filter fun f => f.oneofIndex == none || f.proto3Optional).map (factory own · none)
  let os ← mkOneofs own fields oneofs 0
  pure
    { fields := fs
      optionalFields := fs.filter (·.desc.proto3Optional)
      oneofs := os
      fieldIds := sortBy idLe (fs.map fieldId ++ os.flatMap (·.fields.map fieldId)) }

/-! ## The members of the generated class

What the templates make of it (TypeDefMsg.h, TypeOneof.h, Field*.h): the declaration in the sense of
`Verif.Spec.Schema`.  A `FieldErrorRecursive` has no variable. -/

/-- The types of fields whose type is a message, and the lengths given as template arguments, by field. -/
structure Types where
  message : FieldDesc → ElemTy
  length : FieldDesc → Nat
  repLength : FieldDesc → Nat

/-- `get_type()` of the element. -/
def Types.elem (E : Types) (f : FieldDesc) : ElemTy :=
  match f.type with
  | .scalar s => .scalar s
  | .enum => .scalar .enumeration
  | .message => E.message f
  | .string => .str (if f.maxLength = 0 then E.length f else f.maxLength)
  | .bytes => .str (if f.maxLength = 0 then E.length f else f.maxLength)

/-- The members outside oneofs. -/
def classFields (E : Types) : List GField → Fields
  | [] => .nil
  | g :: gs =>
    match g.shape with
    | .recursive => classFields E gs
    | .repeated =>
      .repeated g.desc.number (if g.desc.maxLength = 0 then E.repLength g.desc else g.desc.maxLength)
        (E.elem g.desc) (classFields E gs)
    | .single =>
      if g.desc.proto3Optional then .optional g.desc.number (E.elem g.desc) (classFields E gs)
      else .plain g.desc.number (E.elem g.desc) (classFields E gs)

/-- The members of a oneof. -/
def classAlts (E : Types) : List GField → Alts
  | [] => .nil
  | g :: gs =>
    match g.shape with
    | .recursive => classAlts E gs
    | _ => .cons g.desc.number (E.elem g.desc) (classAlts E gs)

def classOneofs (E : Types) : List GOneof → Oneofs
  | [] => .nil
  | o :: os => .cons (classAlts E o.fields) (classOneofs E os)

/-- The declaration of the generated class. -/
def GMessage.type (E : Types) (m : GMessage) : ElemTy := .msg (classFields E m.fields) (classOneofs E m.oneofs)

end EP.Gen
