import Verif.Model.GenClass
import Verif.Model.GenTemplates
import Verif.Spec.Lookup

/-!
# The generator: the text for the type of a field

/repo/generator/EmbeddedProto/Field.py:136-147 (`get_reduced_scope`), 343-387 (enums), 411-459 (messages),
TypeDefinitions.py:38-90 (`Scope`).  A scope is identified by its path; `templates` are the template parameters of each
(those of packages and enums are none).
-/

namespace EP.Gen

/-- `get_scope_str` — TypeDefinitions.py:66-72. -/
def scopeStr : List Str → Str
  | [] => []
  | [x] => x
  | x :: y :: l => x ++ "::".toList ++ scopeStr (y :: l)

/-- `type_name[1:]` if it begins with a dot, and `.replace(".", "::")` — Field.py:346-347, 414-415. -/
def typeStr (t : Str) : Str :=
  (match t with
    | '.' :: t => t
    | t => t).flatMap fun c => if c = '.' then "::".toList else [c]

/-- `match_field_with_definitions` — Field.py:375-386, 448-459: the first definition with this name. -/
def matchType (defs : List (List Str)) (t : Str) : Except GenError (List Str) :=
  match defs.find? fun d => typeStr t = scopeStr d with
  | some d => .ok d
  | none => .error .notFound

/-- `Scope.get` — TypeDefinitions.py:85-90: names and template parameters of the scopes. -/
def scopeGet (templates : List Str → List Str) (outer : List Str) : List Str → List (Str × List Str)
  | [] => []
  | x :: l => (x, templates (outer ++ [x])) :: scopeGet templates (outer ++ [x]) l

/-- The loop of `get_reduced_scope`: how many scopes are the same. -/
def commonScopes : List (Str × List Str) → List (Str × List Str) → Nat
  | d :: ds, p :: ps => if d = p then commonScopes ds ps + 1 else 0
  | _, _ => 0

/-- `get_reduced_scope` — Field.py:136-147. -/
def reducedScope (templates : List Str → List Str) (own definition : List Str) : List (Str × List Str) :=
  let parent := scopeGet templates [] own
  let d := scopeGet templates [] definition
  d.drop (commonScopes d.dropLast parent)

/-- `get_type_as_defined` of an enum (Field.py:343-364; an exception if a scope has template parameters), `get_type` of
a message (Field.py:411-430) without the template arguments at the end. -/
def typeText (templates : List Str → List Str) (defs : FType → List (List Str)) (own : List Str) (f : FieldDesc) :
    Except GenError (List Str) := do
  let d ← matchType (defs f.type) f.typeName
  let r := reducedScope templates own d
  if f.type = .enum && r.any (fun s => !s.2.isEmpty) then .error .templateParameters
  else pure (r.map (·.1))

/-! ## The declarations in the headers -/

/-- The names of the types inherited from `MessageInterface` and `Field`: their own names, and the enum in Fields.h:53. -/
def inheritedTypes : List Str := ["Field", "MessageInterface", "FieldTypes"].map String.toList

/-- The class of a message, as far as names are concerned. -/
def namedClass (own : Str) (m : MsgDesc) : Option Class :=
  match mkMessage own m.fields m.oneofs with
  | .ok g => some (render false ⟨fun _ => .msg .nil .nil, fun _ => 1, fun _ => 1⟩ m.name g)
  | .error _ => none

/-- The names in a class other than nested types. -/
def classNames (own : Str) (m : MsgDesc) : List Str :=
  match namedClass own m with
  | some K => ((K.declared []).map Decl.name).tail ++ nameInherited ++ inheritedTypes
  | none => []

/-- Those that are types. -/
def classTypes (own : Str) (m : MsgDesc) : List Str :=
  match namedClass own m with
  | some K => "FieldNumber".toList :: (if K.presence = [] then [] else ["presence".toList]) ++ K.unions.map (·.type) ++
      inheritedTypes
  | none => []

mutual
/-- A message and those nested in it, with their full names. -/
def MsgDesc.all (ns : Str) : MsgDesc → List (Str × MsgDesc)
  | .mk name fields oneofs enums nested =>
    allMsgs (dot ns name) nested ++ [(dot ns name, .mk name fields oneofs enums nested)]
def allMsgs (ns : Str) : List MsgDesc → List (Str × MsgDesc)
  | [] => []
  | m :: ms => m.all ns ++ allMsgs ns ms
end

mutual
/-- The enums in a message. -/
def MsgDesc.allEnums (ns : Str) : MsgDesc → List Str
  | .mk name _ _ enums nested => enums.map (dot (dot ns name)) ++ allEnums (dot ns name) nested
def allEnums (ns : Str) : List MsgDesc → List Str
  | [] => []
  | m :: ms => m.allEnums ns ++ allEnums ns ms
end

/-- The messages of all files. -/
def filesMsgs (files : List FileDesc) : List (Str × MsgDesc) := files.flatMap fun f => allMsgs f.package f.messages

/-- The enums of all files. -/
def filesEnums (files : List FileDesc) : List Str :=
  files.flatMap fun f => f.enums.map (dot f.package) ++ allEnums f.package f.messages

/-- `all_types_definitions` — main.py:67-71, ProtoFile.py:156-165, TypeDefinitions.py:196-205. -/
def definitions (files : List FileDesc) (t : FType) : List (List Str) :=
  match t with
  | .enum => (filesEnums files).map pathOf
  | _ => (filesMsgs files).map fun m => pathOf m.1

/-- The namespaces `namespace a { namespace b {` of a package — Header.h:60-62. -/
def spacesOf (package : Str) : List (List Str) :=
  (List.range (pathOf package).length).map fun i => (pathOf package).take (i + 1)

/-- `type_to_cpp_type` — Field.py:175-187. -/
def basicType : ScalarTy → Str
  | .doublefixed => "doublefixed".toList
  | .floatfixed => "floatfixed".toList
  | .int64 => "int64".toList
  | .uint64 => "uint64".toList
  | .int32 => "int32".toList
  | .fixed64 => "fixed64".toList
  | .fixed32 => "fixed32".toList
  | .boolean => "boolean".toList
  | .uint32 => "uint32".toList
  | .sfixed32 => "sfixed32".toList
  | .sfixed64 => "sfixed64".toList
  | .sint32 => "sint32".toList
  | .sint64 => "sint64".toList
  | .enumeration => "enumeration".toList

/-- `get_type` of a scalar (Field.py:224-225), and what an enum is wrapped in (Field.py:366-367). -/
def basicText (s : ScalarTy) : List Str := ["EmbeddedProto".toList, basicType s]

/-- All headers together, with those of the library. -/
def programOf (templates : List Str → List Str) (files : List FileDesc) : Program where
  types := definitions files .enum ++ definitions files .message ++
    [.int32, .int64, .uint32, .uint64, .sint32, .sint64, .boolean, .enumeration, .fixed32, .fixed64, .sfixed32,
      .sfixed64, .floatfixed, .doublefixed].map libraryType
  spaces := ["EmbeddedProto".toList] :: files.flatMap fun f => spacesOf f.package
  names := fun scope => ((filesMsgs files).filter fun m => pathOf m.1 = scope).flatMap fun m => classNames m.1 m.2
  innerTypes := fun scope => ((filesMsgs files).filter fun m => pathOf m.1 = scope).flatMap fun m => classTypes m.1 m.2
  template := fun p => !(templates p).isEmpty

end EP.Gen
