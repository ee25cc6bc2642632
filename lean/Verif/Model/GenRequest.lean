import Verif.Model.GenFiles
import Verif.Model.GenOrder
import Verif.Model.GenTypes
import Verif.Spec.Request

/-!
# The generator as a whole

/repo/generator/EmbeddedProto/main.py:41-101 (`generate_code`), 105-150 (`main_plugin`), ProtoFile.py:73-124, Header.h.

Simplified: of the text of a header only what `OutFile` holds; the messages of exceptions are left out; jinja2 raises
none of its own.
-/

namespace EP.Gen

mutual
/-- `MessageDefinition.__init__` of all messages — TypeDefinitions.py:125-166, ProtoFile.py:95. -/
def makeMsg (ns : Str) : MsgDesc → Except GenError Unit
  | .mk name fields oneofs _ nested => do
    makeMsgs (dot ns name) nested
    let _ ← mkMessage (dot ns name) fields oneofs
    pure ()
def makeMsgs (ns : Str) : List MsgDesc → Except GenError Unit
  | [] => pure ()
  | m :: ms => do
    makeMsg ns m
    makeMsgs ns ms
end

/-- `ProtoFile.__init__` — ProtoFile.py:73-124. -/
def openReq (f : ReqFile) : Except GenError ReqFile := do
  let _ ← openFile f.req
  makeMsgs f.desc.package f.desc.messages
  let ms ← f.desc.order
  pure { f with desc := { f.desc with messages := ms } }

/-- The loop over the files — main.py:44-56. -/
def collectReq : List ReqFile → Except GenError (List ReqFile × Bool × Option ReqFile)
  | [] => .ok ([], false, none)
  | f :: rest => do
    let mine ← if !contains optionsFile f.req.name && !contains googleFile f.req.name then (openReq f).map some else .ok none
    let (files, wanted, google) ← collectReq rest
    pure (mine.toList ++ files, mine.any (fun f => f.req.dependency.contains googleFile) || wanted,
      google.or (if contains googleFile f.req.name then some f else none))

/-- `file_definitions` — main.py:41-62. -/
def fileDefs (request : List ReqFile) : Except GenError (List ReqFile) := do
  let (files, wanted, google) ← collectReq request
  match wanted, google with
  | true, some g => do pure ((← openReq g) :: files)
  | _, _ => pure files

/-- `match_fields_with_definitions` of a message without those nested in it — TypeDefinitions.py:213-219; only messages and
enums have a definition (Field.py:119-120, 375-386, 448-459, 533-535), and `FieldErrorRecursive` looks for none. -/
def matchFields (defs : FType → List (List Str)) (own : Str) : List GField → Except GenError Unit
  | [] => pure ()
  | g :: gs => do
    if g.shape != .recursive && (g.desc.type == .message || g.desc.type == .enum) then
      let _ ← matchType (defs g.desc.type) g.desc.typeName
    matchFields defs own gs

mutual
/-- `match_fields_with_definitions` — TypeDefinitions.py:207-219, ProtoFile.py:167-169. -/
def matchMsg (defs : FType → List (List Str)) (ns : Str) : MsgDesc → Except GenError Unit
  | .mk name fields oneofs enums nested => do
    matchMsgs defs (dot ns name) nested
    matchFields defs (dot ns name) (members (dot ns name) (.mk name fields oneofs enums nested))
def matchMsgs (defs : FType → List (List Str)) (ns : Str) : List MsgDesc → Except GenError Unit
  | [] => pure ()
  | m :: ms => do
    matchMsg defs ns m
    matchMsgs defs ns ms
end

/-- The loop in main.py:73-75. -/
def matchFiles (defs : FType → List (List Str)) : List FileDesc → Except GenError Unit
  | [] => pure ()
  | f :: fs => do
    matchMsgs defs f.package f.messages
    matchFiles defs fs

/-- `for _ in range(n)` in main.py:78-84; the flag is not set to true again before another round. -/
def registerRounds (files : List (Str × List MsgDesc)) : Nat → RegState × Bool → RegState × Bool
  | 0, r => r
  | n + 1, r =>
    let r' := regFiles files r.1
    if r'.2 && r.2 then (r'.1, true) else registerRounds files n (r'.1, r'.2 && r.2)

/-- main.py:77-88, and then `get_template_parameters`. -/
def register (files : List (Str × List MsgDesc)) : Except GenError (Str → List Str) :=
  let r := registerRounds files 3 (.init, true)
  if r.2 then .ok (params r.1 (allClasses files).length) else .error .templateParameters

/-- The full name of a scope. -/
def nameOf (path : List Str) : Str := path.flatMap fun x => '.' :: x

/-- `get_type` in the templates, for the members of type message or enum. -/
def memberTypes (T : List Str → List Str) (defs : FType → List (List Str)) (own : Str) :
    List GField → Except GenError (List (FieldDesc × List Str))
  | [] => pure []
  | g :: gs => do
    if g.shape != .recursive && (g.desc.type == .message || g.desc.type == .enum) then
      let text ← typeText T defs (pathOf own) g.desc
      let rest ← memberTypes T defs own gs
      pure ((g.desc, text) :: rest)
    else memberTypes T defs own gs

mutual
/-- `msg.render` — TypeDefMsg.h. -/
def renderClass (P : Str → List Str) (defs : FType → List (List Str)) (ns : Str) : MsgDesc → Except GenError OutClass
  | .mk name fields oneofs enums nested => do
    let inner ← renderClasses P defs (dot ns name) nested
    let g ← mkMessage (dot ns name) fields oneofs
    let types ← memberTypes (fun p => P (nameOf p)) defs (dot ns name) (g.fields ++ g.oneofs.flatMap (·.fields))
    pure (.mk name (P (dot ns name)) enums inner g types)
def renderClasses (P : Str → List Str) (defs : FType → List (List Str)) (ns : Str) :
    List MsgDesc → Except GenError (List OutClass)
  | [] => pure []
  | m :: ms => do
    let c ← renderClass P defs ns m
    let cs ← renderClasses P defs ns ms
    pure (c :: cs)
end

/-- `ProtoFile.render` — ProtoFile.py:178-182, Header.h. -/
def renderFile (P : Str → List Str) (defs : FType → List (List Str)) (f : ReqFile) : Except GenError OutFile := do
  let cs ← renderClasses P defs f.desc.package f.desc.messages
  pure { header := headerOf f.req, package := f.desc.package, enums := f.desc.enums, classes := cs }

/-- The last loop — main.py:93-101.  What was added before an exception stays in the response. -/
def renderFiles (P : Str → List Str) (defs : FType → List (List Str)) : List ReqFile → List OutFile × Option GenError
  | [] => ([], none)
  | f :: fs =>
    match renderFile P defs f with
    | .error e => ([], some e)
    | .ok o =>
      let r := renderFiles P defs fs
      (o :: r.1, r.2)

/-- `generate_code` up to the last loop: the definitions and the template parameters. -/
def prepare (request : List ReqFile) : Except GenError (List ReqFile × (Str → List Str)) := do
  let files ← fileDefs request
  matchFiles (definitions (files.map (·.desc))) (files.map (·.desc))
  let P ← register (files.map fun f => (f.desc.package, f.desc.messages))
  pure (files, P)

/-- `main_plugin`: any exception becomes the error of the response — main.py:126-139. -/
def plugin (request : List ReqFile) : Response :=
  match prepare request with
  | .error e => ⟨some e, []⟩
  | .ok (files, P) =>
    let r := renderFiles P (definitions (files.map (·.desc))) files
    ⟨r.2, r.1⟩

end EP.Gen
