import Verif.Model.GenOrder
import Verif.Spec.Templates

/-!
# The generator: template parameters

/repo/generator/EmbeddedProto/TypeDefinitions.py:38-85, 222-245, Field.py, Oneof.py, main.py:76-92.  Message
definitions are identified by their full names (`match_field_with_definitions`, Field.py:445-456, finds the
definition with the name of the type).
-/

namespace EP.Gen

/-- The fields of the class, then those of the oneofs. -/
def members (own : Str) (m : MsgDesc) : List GField :=
  match mkMessage own m.fields m.oneofs with
  | .ok g => g.fields ++ g.oneofs.flatMap (·.fields)
  | .error _ => []

/-- The members of `MessageDefinition` and `Scope` that change: `all_parameters_registered` and
`fields_with_templates`, by definition.  (`contains_template_parameters` is set together with the first entry
of the latter.) -/
structure RegState where
  done : Str → Bool
  fields : Str → List GField

def RegState.init : RegState := ⟨fun _ => false, fun _ => []⟩

def RegState.setDone (st : RegState) (own : Str) (b : Bool) : RegState :=
  { st with done := fun t => if t = own then b else st.done t }

/-- `register_child_with_template` — TypeDefinitions.py:240-242. -/
def RegState.add (st : RegState) (own : Str) (g : GField) : RegState :=
  { st with fields := fun t => if t = own then st.fields t ++ [g] else st.fields t }

/-- `register_template_parameters` of the subclasses of `Field` — Field.py:119-120, 252-256, 458-465, 537-541. -/
def regField (own : Str) (g : GField) (st : RegState) : RegState × Bool :=
  match g.shape with
  | .recursive => (st, true)
  | .repeated => (if g.desc.maxLength = 0 then st.add own g else st, true)
  | .single =>
    match g.desc.type with
    | .scalar _ => (st, true)
    | .enum => (st, true)
    | .string => (if g.desc.maxLength = 0 then st.add own g else st, true)
    | .bytes => (if g.desc.maxLength = 0 then st.add own g else st, true)
    | .message =>
      if st.done g.desc.typeName then
        (if (st.fields g.desc.typeName).isEmpty then st else st.add own g, true)
      else (st, false)

/-- The loops over `self.fields` and `self.oneofs` — TypeDefinitions.py:231-236. -/
def regFields (own : Str) : List GField → RegState → RegState
  | [], st => st
  | g :: gs, st =>
    let r := regField own g st
    regFields own gs (r.1.setDone own (r.2 && r.1.done own))

mutual
/-- `MessageDefinition.register_template_parameters` — TypeDefinitions.py:222-238; the result is
`all_parameters_registered`. -/
def regMsg (ns : Str) : MsgDesc → RegState → RegState
  | .mk name fields oneofs enums nested, st =>
    regFields (dot ns name) (members (dot ns name) (.mk name fields oneofs enums nested))
      (regNested (dot ns name) nested (st.setDone (dot ns name) true))
/-- The loop over the nested messages — TypeDefinitions.py:225-228. -/
def regNested (own : Str) : List MsgDesc → RegState → RegState
  | [], st => st
  | m :: ms, st =>
    let st := regMsg own m st
    regNested own ms (st.setDone own (st.done (dot own m.name) && st.done own))
end

/-- `ProtoFile.register_template_parameters` — ProtoFile.py:172-176. -/
def regMsgs (ns : Str) : List MsgDesc → RegState → RegState × Bool
  | [], st => (st, true)
  | m :: ms, st =>
    let st := regMsg ns m st
    let r := regMsgs ns ms st
    (r.1, st.done (dot ns m.name) && r.2)

/-- One round of the loop in main.py:78-82, given by packages and sorted messages.  (The flag is never set
again once it is false: another round would register everything again, and raise in the end.) -/
def regFiles : List (Str × List MsgDesc) → RegState → RegState × Bool
  | [], st => (st, true)
  | f :: fs, st =>
    let r := regMsgs f.1 f.2 st
    let r' := regFiles fs r.1
    (r'.1, r.2 && r'.2)

/-- `get_template_parameters` of fields, only the names — Field.py:244-250, 437-443, 525-531; `inner` are those of
the definition of the type, and `parent.name` is the last component of the full name. -/
def fieldParams (inner : Str → List Str) (own : Str) (g : GField) : List Str :=
  (match g.shape with
    | .recursive => []
    | .repeated =>
      if g.desc.maxLength = 0 then [simple own ++ '_' :: ((g.desc.name ++ ['_']) ++ "REP_LENGTH".toList)] else []
    | .single => []) ++
  (if g.shape = .recursive then []
    else match g.desc.type with
      | .scalar _ => []
      | .enum => []
      | .string => if g.desc.maxLength = 0 then [simple own ++ '_' :: ((g.desc.name ++ ['_']) ++ "LENGTH".toList)] else []
      | .bytes => if g.desc.maxLength = 0 then [simple own ++ '_' :: ((g.desc.name ++ ['_']) ++ "LENGTH".toList)] else []
      | .message => (inner g.desc.typeName).map fun p => simple own ++ '_' :: ((g.desc.name ++ ['_']) ++ p))

/-- `get_template_parameters` of a scope — TypeDefinitions.py:70-74.  The number bounds the depth of the
recursion. -/
def params (st : RegState) : Nat → Str → List Str
  | 0, _ => []
  | n + 1, own => (st.fields own).flatMap (fieldParams (params st n) own)

/-- Registering the template parameters of all files (main.py:76-92), and the parameters of each class. -/
def templates (files : List (Str × List MsgDesc)) : Except GenError (Str → List Str) :=
  let r := regFiles files .init
  if r.2 then .ok (params r.1 (allClasses files).length) else .error .templateParameters

/-- The messages of all files in the order of the headers — main.py:34-62. -/
def orderAll : List FileDesc → Except GenError (List (Str × List MsgDesc))
  | [] => .ok []
  | f :: fs => do
    let ms ← f.order
    let rest ← orderAll fs
    pure ((f.package, ms) :: rest)

end EP.Gen
