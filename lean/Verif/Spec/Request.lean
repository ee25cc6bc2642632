import Verif.Spec.Files
import Verif.Spec.Lookup
import Verif.Spec.Instance
import Verif.Model.GenMessage

/-!
# Requests of protoc and the answer of the generator

What the headers made for a request should contain, in terms of the request.
-/

namespace EP.Gen

/-- A file of the request: `FileDescriptorProto`. -/
structure ReqFile where
  req : ProtoReq
  desc : FileDesc

/-- A class in a header: name, template parameters, nested enums and classes, members, and the text for the type of each
member that is a message or an enum. -/
inductive OutClass where
  | mk (name : Str) (params : List Str) (enums : List Str) (nested : List OutClass) (message : GMessage)
      (types : List (FieldDesc × List Str))

namespace OutClass
def name : OutClass → Str
  | .mk n _ _ _ _ _ => n
def params : OutClass → List Str
  | .mk _ p _ _ _ _ => p
def enums : OutClass → List Str
  | .mk _ _ e _ _ _ => e
def nested : OutClass → List OutClass
  | .mk _ _ _ n _ _ => n
def message : OutClass → GMessage
  | .mk _ _ _ _ m _ => m
def types : OutClass → List (FieldDesc × List Str)
  | .mk _ _ _ _ _ t => t
end OutClass

/-- A header: its name, guard and includes, the package, and what it defines. -/
structure OutFile where
  header : Header
  package : Str
  enums : List Str
  classes : List OutClass

/-- `CodeGeneratorResponse`. -/
structure Response where
  error : Option GenError
  files : List OutFile

mutual
/-- The types a class defines, in the order in which their definitions are complete. -/
def OutClass.defines (ns : Str) : OutClass → List Str
  | .mk name _ enums nested _ _ => enums.map (dot (dot ns name)) ++ defined (dot ns name) nested ++ [dot ns name]
def defined (ns : Str) : List OutClass → List Str
  | [] => []
  | c :: cs => c.defines ns ++ defined ns cs
end

/-- ... and a header. -/
def OutFile.defines (o : OutFile) : List Str := o.enums.map (dot o.package) ++ defined o.package o.classes

/-- The class is one of `cs` in the scope `ns` or nested in one; `scope` is the scope it is in. -/
inductive OutAt : Str → List OutClass → Str → OutClass → Prop where
  | here {ns cs c} : c ∈ cs → OutAt ns cs ns c
  | inside {ns cs d scope c} : d ∈ cs → OutAt (dot ns d.name) d.nested scope c → OutAt ns cs scope c

mutual
/-- A class and those nested in it, with their full names. -/
def OutClass.all (ns : Str) : OutClass → List (Str × OutClass)
  | .mk name params enums nested message types =>
    outAll (dot ns name) nested ++ [(dot ns name, .mk name params enums nested message types)]
def outAll (ns : Str) : List OutClass → List (Str × OutClass)
  | [] => []
  | c :: cs => c.all ns ++ outAll ns cs
end

/-- The template parameters of the class with this path in the headers. -/
def outParams (out : List OutFile) (path : List Str) : List Str :=
  match (out.flatMap fun o => outAll o.package o.classes).find? fun c => pathOf c.1 = path with
  | some c => c.2.params
  | none => []

/-- A file of the user, for which there should be a header. -/
def ReqFile.User (f : ReqFile) : Prop :=
  ¬ IsOptions f.req.name ∧ f.req.name ≠ "google/protobuf/descriptor.proto".toList

instance (f : ReqFile) : Decidable f.User := by unfold ReqFile.User; infer_instance

/-- The files for which headers are needed: those of the user, and first the descriptor of Google if one of them imports
it. -/
def needed (request : List ReqFile) : List ReqFile :=
  (if (request.filter fun f => decide f.User).any fun f => f.req.dependency.contains "google/protobuf/descriptor.proto".toList then
    request.filter fun f => f.req.name == "google/protobuf/descriptor.proto".toList else []) ++
  request.filter fun f => decide f.User

/-- Packages and messages of the files. -/
def unsorted (files : List FileDesc) : List (Str × List MsgDesc) := files.map fun f => (f.package, f.messages)

/-- The class is right for the message `m` in `scope`: it has a place for every field, its template parameters are the
lengths it needs, each once, and the text for each type stands for the declared type. -/
structure ClassFor (files : List FileDesc) (P : Program) (scope : Str) (m : MsgDesc) (c : OutClass) : Prop where
  name : c.name = m.name
  fields : ∀ E, ∃ fs os, c.message.type E = .msg fs os ∧ (fs.numbers ++ os.numbers).Perm (m.fields.map (·.number)) ∧
    ∀ f ∈ m.fields, Placed E m.fields fs os f
  params : ∃ ps : List Path, ps.Nodup ∧ (∀ p, p ∈ ps ↔ Needs (Defined (unsorted files)) (dot scope m.name) p) ∧
    c.params = ps.map (Path.render (dot scope m.name))
  types : ∀ f ∈ m.fields, f.type = .message ∨ f.type = .enum → ∃ text, (f, text) ∈ c.types ∧
    P.lookup (pathOf (dot scope m.name)) text = .type (pathOf f.typeName)

/-- The header is right for the file: it defines its types, each once and after those it uses, and every class is right. -/
structure FileFor (files : List FileDesc) (P : Program) (d : FileDesc) (o : OutFile) : Prop where
  package : o.package = d.package
  types : o.defines.Perm (d.header d.messages)
  order : ∀ scope m t, At d.package d.messages scope m → Uses scope m t → t ∈ d.header d.messages →
    Before o.defines t (dot scope m.name)
  classes : ∀ scope m, At d.package d.messages scope m → ∃ c, OutAt o.package o.classes scope c ∧ ClassFor files P scope m c

end EP.Gen
