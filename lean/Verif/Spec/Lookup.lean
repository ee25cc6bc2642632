import Verif.Spec.Templates

/-!
# Looking up the name of a type

Which type a text such as `A::B` in a class stands for, by the rules of C++ for names that are looked up in nested
scopes.
-/

namespace EP.Gen

/-- The parts of a name between dots. -/
def comps : Str → List Str
  | [] => [[]]
  | c :: s =>
    if c = '.' then [] :: comps s
    else match comps s with
      | [] => [[c]]
      | x :: xs => (c :: x) :: xs

/-- The scopes of a full name with a leading dot, from the outermost to the name itself. -/
def pathOf (t : Str) : List Str := (comps t).tail

/-- How many names at the beginning are the same. -/
def common : List Str → List Str → Nat
  | d :: ds, p :: ps => if d = p then common ds ps + 1 else 0
  | _, _ => 0

/-- How many scopes a type has around it that are scopes of the class `own` too, or that class. -/
def shared (own d : List Str) : Nat := common d.dropLast own

/-- What is declared where: classes and enums, namespaces, and in each class the other names (functions, variables,
what is inherited), of which some are types as well. -/
structure Program where
  types : List (List Str)
  spaces : List (List Str)
  names : List Str → List Str
  innerTypes : List Str → List Str
  /-- classes that are templates -/
  template : List Str → Bool

inductive Found where
  | type (path : List Str)
  /-- something else has the name -/
  | hidden
  /-- the scope that was found does not have such a member, or nothing was found -/
  | missing
  /-- a class template without arguments stands before `::` -/
  | noArguments
  deriving DecidableEq, Repr

namespace Program
variable (P : Program)

/-- What can stand before `::`. -/
def IsScope (p : List Str) : Prop := p ∈ P.types ∨ p ∈ P.spaces

instance (p : List Str) : Decidable (P.IsScope p) := by unfold IsScope; infer_instance

/-- The rest of the name, from the scope in which the first part was found. -/
def within (scope text : List Str) : Found :=
  if (List.range (text.length - 1)).any fun i => P.template (scope ++ text.take (i + 1)) then .noArguments
  else if scope ++ text ∈ P.types then .type (scope ++ text) else .missing

/-- Does something that is no class, enum of the file or namespace have the name?  Before `::` only types and
namespaces are looked for. -/
def Hides (scope text : List Str) : Prop :=
  ∃ x ∈ text.head?, x ∈ (if text.length = 1 then P.names scope else P.innerTypes scope)

instance (scope text : List Str) : Decidable (P.Hides scope text) :=
  match text with
  | [] => .isFalse (by simp [Hides])
  | x :: t => decidable_of_iff (x ∈ (if (x :: t).length = 1 then P.names scope else P.innerTypes scope)) (by
      simp [Hides])

/-- The scope itself, and what is found further out. -/
def here (text scope : List Str) (outer : Found) : Found :=
  if P.Hides scope text then .hidden
  else if P.IsScope (scope ++ text.take 1) then P.within scope text
  else outer

/-- The scope and those around it, from the innermost outwards; given reversed. -/
def resolve (text : List Str) : List Str → Found
  | [] => P.here text [] .missing
  | x :: outer => P.here text (x :: outer).reverse (resolve text outer)

/-- The type a text stands for in the class `ctx`. -/
def lookup (ctx text : List Str) : Found := P.resolve text ctx.reverse

end Program

/-- A name as protoc allows them, as far as it matters here. -/
def SimpleName (n : Str) : Prop := n ≠ [] ∧ '.' ∉ n ∧ ':' ∉ n

instance (n : Str) : Decidable (SimpleName n) := by unfold SimpleName; infer_instance

/-- The names in files that come from protoc. -/
structure FilesNames (files : List FileDesc) : Prop where
  package : ∀ f ∈ files, (f.package = [] ∨ f.package.head? = some '.') ∧ ∀ x ∈ pathOf f.package, SimpleName x
  enums : ∀ f ∈ files, ∀ e ∈ f.enums, SimpleName e
  messages : ∀ f ∈ files, ∀ scope m, At f.package f.messages scope m → SimpleName m.name ∧ ∀ e ∈ m.enums, SimpleName e

/-- There is a message with this full name. -/
def MessageNamed (files : List FileDesc) (t : Str) (m : MsgDesc) : Prop :=
  ∃ f ∈ files, ∃ scope, At f.package f.messages scope m ∧ t = dot scope m.name

/-- There is an enum with this full name. -/
def EnumNamed (files : List FileDesc) (t : Str) : Prop :=
  ∃ f ∈ files, (∃ e ∈ f.enums, t = dot f.package e) ∨
    ∃ scope m, At f.package f.messages scope m ∧ ∃ e ∈ m.enums, t = dot (dot scope m.name) e

/-- The type of the field is a message or an enum of the files. -/
def KnownType (files : List FileDesc) (f : FieldDesc) : Prop :=
  (f.type = .message ∧ ∃ m, MessageNamed files f.typeName m) ∨ (f.type = .enum ∧ EnumNamed files f.typeName)

/-- The type of the library for a scalar. -/
def libraryType (s : ScalarTy) : List Str :=
  ["EmbeddedProto".toList, match s with
    | .int32 => "int32".toList
    | .int64 => "int64".toList
    | .uint32 => "uint32".toList
    | .uint64 => "uint64".toList
    | .sint32 => "sint32".toList
    | .sint64 => "sint64".toList
    | .boolean => "boolean".toList
    | .enumeration => "enumeration".toList
    | .fixed32 => "fixed32".toList
    | .fixed64 => "fixed64".toList
    | .sfixed32 => "sfixed32".toList
    | .sfixed64 => "sfixed64".toList
    | .floatfixed => "floatfixed".toList
    | .doublefixed => "doublefixed".toList]

end EP.Gen
