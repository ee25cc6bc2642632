import Verif.Model.GenMessage
import Verif.Spec.Files

/-!
# The generator: files and headers

/repo/generator/EmbeddedProto/main.py:41-105 (`generate_code`), ProtoFile.py:75-83, 126-144, templates/Header.h.  What is
in a file is in other modules; here a file is its name, its imports and the syntax it is in.
-/

namespace EP.Gen

/-- `sub in s` -/
def contains (sub : Str) : Str → Bool
  | [] => sub.isPrefixOf []
  | c :: s => sub.isPrefixOf (c :: s) || contains sub s

/-- `os.path.splitext(p)[0]`: without what follows the last dot, if that is in the last part of the path and something
other than dots comes before it there. -/
def splitRoot (p : Str) : Str :=
  match p.reverse.dropWhile fun c => c != '.' && c != '/' with
  | '.' :: root => if (root.takeWhile (· != '/')).any (· != '.') then root.reverse else p
  | _ => p

def optionsFile : Str := "embedded_proto_options.proto".toList
def googleFile : Str := "google/protobuf/descriptor.proto".toList

/-- `ProtoFile.__init__` as far as it looks at the syntax — ProtoFile.py:77-78. -/
def openFile (f : ProtoReq) : Except GenError ProtoReq :=
  if f.syntaxName = "proto2".toList then .error .valueError else .ok f

/-- The loop over the files — main.py:44-56: the files, whether the descriptor is wanted, and the descriptor. -/
def collect : List ProtoReq → Except GenError (List ProtoReq × Bool × Option ProtoReq)
  | [] => .ok ([], false, none)
  | f :: rest => do
    let mine ← if !contains optionsFile f.name && !contains googleFile f.name then (openFile f).map some else .ok none
    let (files, wanted, google) ← collect rest
    pure (mine.toList ++ files, mine.any (fun f => f.dependency.contains googleFile) || wanted,
      google.or (if contains googleFile f.name then some f else none))

/-- The files for which headers are made — main.py:41-62. -/
def fileDefinitions (request : List ProtoReq) : Except GenError (List ProtoReq) := do
  let (files, wanted, google) ← collect request
  match wanted, google with
  | true, some g => do pure ((← openFile g) :: files)
  | _, _ => pure files

/-- `get_header_guard` (ProtoFile.py:152-153) and what Header.h:37 adds. -/
def guardOf (name : Str) : Str := upper ((splitRoot name).map fun c => if c = '/' then '_' else c) ++ "_H".toList

/-- The name of the header — main.py:98. -/
def headerName (name : Str) : Str := splitRoot name ++ ".h".toList

/-- The header of a file; `get_dependencies` — ProtoFile.py:126-131. -/
def headerOf (f : ProtoReq) : Header where
  name := headerName f.name
  guard := guardOf f.name
  includes := (f.dependency.filter fun d => !contains optionsFile d).map headerName

/-- `generate_code`. -/
def headersOf (request : List ProtoReq) : Except GenError (List Header) := (fileDefinitions request).map (·.map headerOf)

/-- The enumerators `TypeDefEnum.h:30-35` writes, with their initializers. -/
def enumerators (e : EnumDecl) : List (Str × Int) := e.values

/-- Does `enum class E : uint32_t { … }` compile: names differ and are no keywords, and an initializer must be a value of
the underlying type, since it may not be narrowed. -/
def EnumCompiles (e : EnumDecl) : Prop :=
  ((enumerators e).map (·.1)).Nodup ∧ ∀ v ∈ enumerators e, v.1 ∉ keywords ∧ 0 ≤ v.2 ∧ v.2 < 2 ^ 32

/-- The value of an enumerator. -/
def enumeratorValue (n : Int) : BitVec 32 := BitVec.ofInt 32 n

end EP.Gen
