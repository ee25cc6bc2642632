import Verif.Model.GenTypes
import Verif.Spec.Instance

/-!
# The generator: instances of the generated class templates

TypeDefMsg.h:31-33 (`template<uint32_t …>`), and the arguments in the types of the members: Field.py:293-299, 315-321
(strings and bytes), 411-430 (messages), 504-510 (repeated fields).  `P` gives the template parameters of each class.

Simplification: an argument has to be a parameter of the class itself (in C++ it may also be one of an enclosing class).
-/

namespace EP.Gen

/-- `template_param_str` of a string — Field.py:255. -/
def lengthParam (own : Str) (f : FieldDesc) : Str := simple own ++ '_' :: ((f.name ++ ['_']) ++ "LENGTH".toList)

/-- `template_param_str` of a repeated field — Field.py:494. -/
def countParam (own : Str) (f : FieldDesc) : Str := simple own ++ '_' :: ((f.name ++ ['_']) ++ "REP_LENGTH".toList)

/-- The argument for the parameter `p` of the type of the field — Field.py:440-446. -/
def innerParam (own : Str) (f : FieldDesc) (p : Str) : Str := simple own ++ '_' :: ((f.name ++ ['_']) ++ p)

/-- All messages with their full names. -/
def findMsg (files : List (Str × List MsgDesc)) (own : Str) : Option MsgDesc :=
  ((files.flatMap fun f => allMsgs f.1 f.2).find? fun m => m.1 = own).map (·.2)

/-- The names declared in the class or inherited. -/
def takenNames (own : Str) (m : MsgDesc) : List Str :=
  match namedClass own m with
  | some K => (K.declared (m.nested.map (·.name) ++ m.enums)).map Decl.name ++ nameInherited
  | none => []

/-- What C++ asks of template parameters: they differ, they are not those of an enclosing class template, and neither
they nor those of an enclosing class template are declared again in the class. -/
def ParamsOK (files : List (Str × List MsgDesc)) (P : Str → List Str) (own : Str) (m : MsgDesc) : Prop :=
  (P own).Nodup ∧ (∀ t ∈ allClasses files, Encloses t own → ∀ s ∈ P t, s ∉ P own) ∧
    ∀ t ∈ allClasses files, t = own ∨ Encloses t own → ∀ s ∈ P t, s ∉ takenNames own m

instance (files : List (Str × List MsgDesc)) (P : Str → List Str) (own : Str) (m : MsgDesc) :
    Decidable (ParamsOK files P own m) := by unfold ParamsOK; infer_instance

/-- What the argument named `s` stands for in the class with the parameters `names`, instantiated with `args`. -/
def argument (names : List Str) (args : List Nat) (s : Str) : Option Nat := args[names.idxOf s]?

/-- The type of a message as a field, from those of the messages it contains.  `inner t args`: the instance of `t`. -/
def fieldInstance (P : Str → List Str) (inner : Str → List Nat → Option ElemTy) (own : Str) (args : List Nat)
    (f : FieldDesc) : Option ElemTy :=
  ((P f.typeName).mapM fun p => argument (P own) args (innerParam own f p)).bind (inner f.typeName)

/-- The types and lengths in the members of the class. -/
def instanceTypes (P : Str → List Str) (inner : Str → List Nat → Option ElemTy) (own : Str) (args : List Nat) : Types where
  message f := (fieldInstance P inner own args f).getD (.msg .nil .nil)
  length f := (argument (P own) args (lengthParam own f)).getD 1
  repLength f := (argument (P own) args (countParam own f)).getD 1

/-- Is everything declared that the type of the member names? -/
def memberOK (P : Str → List Str) (inner : Str → List Nat → Option ElemTy) (own : Str) (args : List Nat) (g : GField) :
    Bool :=
  match g.shape with
  | .recursive => true
  | s =>
    (s != .repeated || g.desc.maxLength != 0 || (argument (P own) args (countParam own g.desc)).isSome) &&
    match g.desc.type with
    | .scalar _ => true
    | .enum => true
    | .string => g.desc.maxLength != 0 || (argument (P own) args (lengthParam own g.desc)).isSome
    | .bytes => g.desc.maxLength != 0 || (argument (P own) args (lengthParam own g.desc)).isSome
    | .message => (fieldInstance P inner own args g.desc).isSome

/-- The instance of the class of a message with the given arguments; `none` if it does not compile.  The number bounds
the depth. -/
def instantiate (files : List (Str × List MsgDesc)) (P : Str → List Str) : Nat → Str → List Nat → Option ElemTy
  | 0, _, _ => none
  | n + 1, own, args =>
    match findMsg files own with
    | none => none
    | some m =>
      match mkMessage own m.fields m.oneofs with
      | .error _ => none
      | .ok g =>
        if ParamsOK files P own m ∧ args.length = (P own).length ∧
            (g.fields ++ g.oneofs.flatMap (·.fields)).all (memberOK P (instantiate files P n) own args) = true then
          some (g.type (instanceTypes P (instantiate files P n) own args))
        else none

end EP.Gen
