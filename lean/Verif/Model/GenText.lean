import Verif.Model.Header
import Verif.Model.GenRequest
import Verif.Model.GenInstance
import Verif.Spec.HeaderChars

/-!
# The text of the answer

/repo/generator/EmbeddedProto/main.py:93-101: the names and the contents of the files in the response.  `P` are the
template parameters of the classes, `V` gives the names and numbers of the values of the enums by their full names
(`EnumDescriptorProto.value`).
-/

namespace EP.Gen.Jinja

/-- What comes after the last `::`; `cur` is what comes after the last one before `t`. -/
def lastPartFrom (cur : Str) : Str → Str
  | ':' :: ':' :: t => lastPartFrom t t
  | _ :: t => lastPartFrom cur t
  | [] => cur

/-- `t.split("::")[-1]` -/
def lastPart (t : Str) : Str := lastPartFrom t t

/-- The loop in Field.py:427-429, without the comma that is removed. -/
def commas : List Str → Str
  | [] => []
  | [x] => x
  | x :: y :: l => x ++ chars! ", " ++ commas (y :: l)

/-- The template arguments — Field.py:425-429. -/
def argsText : List Str → Str
  | [] => []
  | x :: l => '<' :: (commas (x :: l) ++ ['>'])

/-- The names of the scopes in the type of a field. -/
def scopesOf (types : List (FieldDesc × List Str)) (f : FieldDesc) : List Str :=
  ((types.find? fun p => p.1 = f).map (·.2)).getD []

/-- `get_type` — Field.py:411-431. -/
def messageType (P : Str → List Str) (own : Str) (types : List (FieldDesc × List Str)) (f : FieldDesc) : Str :=
  scopeStr (scopesOf types f) ++ argsText ((P f.typeName).map (innerParam own f))

/-- The spelling of the types of the members of the class `own`: messages (Field.py:411-434), enums (Field.py:343-364),
and lengths (Field.py:293-299, 315-321, 504-510). -/
def spellingOf (P : Str → List Str) (own : Str) (types : List (FieldDesc × List Str)) : Spelling where
  message := messageType P own types
  short f := lastPart (messageType P own types f)
  enum f := scopeStr (scopesOf types f)
  length f := if f.maxLength = 0 then lengthParam own f else (Nat.repr f.maxLength).toList
  repLength f := if f.maxLength = 0 then countParam own f else (Nat.repr f.maxLength).toList

/-- `str(n)` -/
def intText : Int → Str
  | .ofNat n => (Nat.repr n).toList
  | .negSucc n => '-' :: (Nat.repr (n + 1)).toList

def valueTexts (l : List (Str × Int)) : List (Str × Str) := l.map fun v => (v.1, intText v.2)

/-- `EnumDefinition.render` -/
def enumFile (V : Str → List (Str × Int)) (ns name : Str) : Text :=
  enumText { noTypedef with name := name, values := valueTexts (V (dot ns name)) } noSpelling

/-- `get_templates()` — TypeDefinitions.py:240-241. -/
def paramTexts (params : List Str) : List (Str × Str) := params.map fun p => (chars! "uint32_t", p)

mutual
/-- `MessageDefinition.render` -/
def classText (P : Str → List Str) (V : Str → List (Str × Int)) (ns : Str) : OutClass → Text
  | .mk name params enums nested message types =>
    messageText
      { name := name, m := message, templates := paramTexts params, enums := enums.map (enumFile V (dot ns name))
        msgs := classTexts P V (dot ns name) nested, values := [] }
      (spellingOf P (dot ns name) types)
def classTexts (P : Str → List Str) (V : Str → List (Str × Int)) (ns : Str) : List OutClass → List Text
  | [] => []
  | c :: cs => classText P V ns c :: classTexts P V ns cs
end

/-- `get_header_guard` — ProtoFile.py:152-153. -/
def guardStem (name : Str) : Str := upper ((splitRoot name).map fun c => if c = '/' then '_' else c)

/-- What Header.h is rendered for. -/
def fileOfOut (P : Str → List Str) (V : Str → List (Str × Int)) (name : Str) (o : OutFile) : FileText where
  name := name
  guard := guardStem name
  dependencies := o.header.includes
  spaces := pathOf o.package
  enums := o.enums.map (enumFile V o.package)
  msgs := classTexts P V o.package o.classes

/-- The last loop, with the contents of the files — main.py:93-101.  (The text of a file is not empty.) -/
def contents (P : Str → List Str) (V : Str → List (Str × Int)) (defs : FType → List (List Str)) :
    List ReqFile → List (Str × Str) × Option GenError
  | [] => ([], none)
  | f :: fs =>
    match renderFile P defs f with
    | .error e => ([], some e)
    | .ok o =>
      let r := contents P V defs fs
      ((headerName f.req.name, chars (headerText (fileOfOut P V f.req.name o))) :: r.1, r.2)

/-- The response: an error, and files with their contents. -/
def answer (V : Str → List (Str × Int)) (request : List ReqFile) : Option GenError × List (Str × Str) :=
  match prepare request with
  | .error e => (some e, [])
  | .ok (files, P) =>
    let r := contents P V (definitions (files.map (·.desc))) files
    (r.2, r.1)

end EP.Gen.Jinja
