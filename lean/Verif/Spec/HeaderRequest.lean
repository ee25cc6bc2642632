import Verif.Spec.HeaderOf
import Verif.Model.GenText

/-!
# The headers for a request

The tokens of types, classes and headers, and the names that may be used in a request.
-/

namespace EP.Gen.Cpp

open Jinja

/-- `a::b::c` -/
def scopeToks (p : List Str) : List Tok := sep (cpp! "::") (p.map fun x => [.id x])

/-- `<a, b, c>`, or nothing. -/
def argToks : List Str → List Tok
  | [] => []
  | x :: l => cpp! "<" ++ sep (cpp! ",") ((x :: l).map fun x => [.id x]) ++ cpp! ">"

/-- A number, or the template parameter. -/
def lengthTok (n : Nat) (param : Str) : List Tok := [.id (if n = 0 then param else (Nat.repr n).toList)]

/-- The type of a value of the field, in the class `own`; `scopes` is the type as a path. -/
def elemToks (P : Str → List Str) (own : Str) (scopes : List Str) (f : FieldDesc) : List Tok :=
  match f.type with
  | .scalar s => toks (cppType s)
  | .enum => cpp! "EmbeddedProto::enumeration<" ++ scopeToks scopes ++ cpp! ">"
  | .message => scopeToks scopes ++ argToks ((P f.typeName).map (innerParam own f))
  | .string => cpp! "::EmbeddedProto::FieldString<" ++ lengthTok f.maxLength (lengthParam own f) ++ cpp! ">"
  | .bytes => cpp! "::EmbeddedProto::FieldBytes<" ++ lengthTok f.maxLength (lengthParam own f) ++ cpp! ">"

/-- The type of a member. -/
def memberToks (P : Str → List Str) (own : Str) (scopes : List Str) (g : GField) : List Tok :=
  match g.shape with
  | .repeated => cpp! "::EmbeddedProto::RepeatedFieldFixedSize<" ++ elemToks P own scopes g.desc ++ cpp! "," ++
      lengthTok g.desc.maxLength (countParam own g.desc) ++ cpp! ">"
  | _ => elemToks P own scopes g.desc

/-- The number of an enumerator. -/
def intToks : Int → List Tok
  | .ofNat n => [.id (Nat.repr n).toList]
  | .negSucc n => [.sym '-', .id (Nat.repr (n + 1)).toList]

/-- The tree of a class. -/
def treeOf (P : Str → List Str) (own : Str) (enums classes : List (List Tok)) (c : OutClass) : CClass :=
  classOf (spellingOf P own c.types)
    { name := c.name, m := c.message, templates := paramTexts c.params, enums := [], msgs := [], values := [] } enums classes

/-- An enum. -/
def enumToks (V : Str → List (Str × Int)) (ns name : Str) : List Tok := enumOf name (valueTexts (V (dot ns name)))

mutual
/-- A class with the classes nested in it. -/
def classToks (P : Str → List Str) (V : Str → List (Str × Int)) (ns : Str) : OutClass → List Tok
  | .mk name params enums nested message types =>
    (treeOf P (dot ns name) (enums.map (enumToks V (dot ns name))) (classesToks P V (dot ns name) nested)
      (.mk name params enums nested message types)).print
def classesToks (P : Str → List Str) (V : Str → List (Str × Int)) (ns : Str) : List OutClass → List (List Tok)
  | [] => []
  | c :: cs => classToks P V ns c :: classesToks P V ns cs
end

/-- A header. -/
def headerToks (P : Str → List Str) (V : Str → List (Str × Int)) (o : OutFile) : List Tok :=
  fileOf o.header.guard o.header.includes (pathOf o.package) (o.enums.map (enumToks V o.package))
    (classesToks P V o.package o.classes)

end EP.Gen.Cpp

namespace EP.Gen

open Jinja

/-- The name of a type, with dots. -/
def DottedName (t : Str) : Prop := ∀ c ∈ t, c = '.' ∨ identChar c = true

/-- The names in a message are made of letters, digits and underscores. -/
structure WordMessage (m : MsgDesc) : Prop where
  name : Word m.name
  enums : ∀ e ∈ m.enums, Word e
  fields : ∀ f ∈ m.fields, Word f.name ∧ DottedName f.typeName
  oneofs : ∀ o ∈ m.oneofs, Word o

/-- ... and in the request; in names of files no line ends, and there is no asterisk. -/
structure WordRequest (V : Str → List (Str × Int)) (request : List ReqFile) : Prop where
  files : ∀ f ∈ request, Plain f.req.name ∧ ∀ d ∈ f.req.dependency, Plain d
  package : ∀ f ∈ request, (f.desc.package = [] ∨ f.desc.package.head? = some '.') ∧ ∀ x ∈ pathOf f.desc.package, Word x
  enums : ∀ f ∈ request, ∀ e ∈ f.desc.enums, Word e
  messages : ∀ f ∈ request, ∀ scope m, At f.desc.package f.desc.messages scope m → WordMessage m
  values : ∀ t, ∀ v ∈ V t, Word v.1

/-- No message in it has a oneof with a field of the type of the message itself; the fields are as protoc makes them. -/
structure PrintableRequest (request : List ReqFile) : Prop where
  fields : ∀ f ∈ request, ∀ scope m, At f.desc.package f.desc.messages scope m → FieldsValid m.fields m.oneofs
  oneofs : ∀ f ∈ request, ∀ scope m, At f.desc.package f.desc.messages scope m →
    ∀ fd ∈ m.fields, fd.typeName = dot scope m.name → fd.oneofIndex = none ∨ fd.proto3Optional = true

end EP.Gen
