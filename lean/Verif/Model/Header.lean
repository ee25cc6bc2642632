import Verif.Model.Render

/-!
# The text of the header

`MessageDefinition.render`, `EnumDefinition.render` — TypeDefinitions.py:105-108; `Field.render` — Field.py:148-151, with
the templates chosen in the subclasses.
-/

namespace EP.Gen.Jinja

open Template

/-- A template that has been parsed. -/
def load (file : List Str) : Nodes := (parse file).getD .nil

/-- `render_get_set` — Field.py:236-237, 304-305, 326-327, 388-389, 473-474, 541-542, 564-565. -/
def getSetFile (g : GField) : List Str :=
  match g.shape, g.desc.type with
  | .recursive, _ => fieldErrorRecursiveGetSet
  | .repeated, _ => fieldRepeatedGetSet
  | .single, .scalar _ => fieldBasicGetSet
  | .single, .enum => fieldEnumGetSet
  | .single, .message => fieldMsgGetSet
  | .single, .string => fieldStringGetSet
  | .single, .bytes => fieldBytesGetSet

/-- `render_serialize` — Field.py:239-240, 278-279, 391-392, 476-477, 544-545, 567-568 (an empty text). -/
def serializeFile (g : GField) : Option (List Str) :=
  match g.shape, g.desc.type with
  | .recursive, _ => none
  | .repeated, _ => some fieldRepeatedSerialize
  | .single, .scalar _ => some fieldBasicSerialize
  | .single, .enum => some fieldEnumSerialize
  | .single, .message => some fieldMsgSerialize
  | .single, .string => some fieldStringBytesSerialize
  | .single, .bytes => some fieldStringBytesSerialize

/-- `render_deserialize` — Field.py:242-244, 281-283, 394-395, 479-480, 547-549, 570-571 (an empty text). -/
def deserializeFile (g : GField) : Option (List Str) :=
  match g.shape, g.desc.type with
  | .recursive, _ => none
  | .repeated, _ => some fieldBasicDeserialize
  | .single, .scalar _ => some fieldBasicDeserialize
  | .single, .enum => some fieldEnumDeserialize
  | .single, .message => some fieldMsgDeserialize
  | .single, .string => some fieldBasicDeserialize
  | .single, .bytes => some fieldBasicDeserialize

/-- Does `render_deserialize` end with `rstrip()`? -/
def strips (g : GField) : Bool :=
  match g.shape, g.desc.type with
  | .single, .enum => false
  | .single, .message => false
  | _, _ => true

def noText : Val → Attr → Val → Text := fun _ _ _ => []

/-- `template.render(field=self, environment=jinja_environment)` -/
def fieldEnv (v : Val) : Env
  | .field => v
  | .environment => .environment
  | _ => .undef

section
variable (T : Typedef) (S : Spelling)

def renderField (o : Option GOneof) (g : GField) (file : List Str) : Text :=
  render T S noText (fieldEnv (.field o g)) (load file)

/-- The methods that render a template. -/
def renderMethod (v : Val) (a : Attr) : Text :=
  match v, a with
  | .field o g, .render_get_set => renderField T S o g (getSetFile g)
  | .field o g, .render_serialize => match serializeFile g with
    | some f => renderField T S o g f
    | none => []
  | .field o g, .render_deserialize => match deserializeFile g with
    | some f =>
      if strips g then rstrip (renderField T S o g f) else renderField T S o g f
    | none => []
  | .nested t, .render => t
  | _, _ => []

/-- The arguments of a macro. -/
def macroEnv (v : Val) : Env
  | ._oneof => v
  | ._environment => .environment
  | _ => .undef

/-- The macros of TypeOneof.h. -/
def renderMacro (a : Attr) (x : Val) : Text :=
  render T S (fun v a _ => renderMethod T S v a) (macroEnv x) ((load typeOneof).find a)

def renderCall (v : Val) (a : Attr) (x : Val) : Text :=
  match v with
  | .macros => renderMacro T S a x
  | v => renderMethod T S v a

/-- `template.render(typedef=self, environment=jinja_environment)`; `TypeOneof` is imported in the template. -/
def typedefEnv : Env
  | .typedef => .typedef
  | .environment => .environment
  | .TypeOneof => .macros
  | _ => .undef

/-- `MessageDefinition.render` -/
def messageText : Text := render T S (renderCall T S) typedefEnv (load typeDefMsg)

/-- `EnumDefinition.render` -/
def enumText : Text := render T S (renderCall T S) typedefEnv (load typeDefEnum)

end

/-- `template.render(proto_file=self, environment=jinja_environment)` — ProtoFile.py:177-181 -/
def fileEnv (F : FileText) : Env
  | .proto_file => .file F
  | .environment => .environment
  | _ => .undef

/-- There is no `typedef` in Header.h; this is not used. -/
def noTypedef : Typedef := ⟨chars! "_", ⟨[], [], [], []⟩, [], [], [], []⟩
def noSpelling : Spelling := ⟨fun _ => [], fun _ => [], fun _ => [], fun _ => [], fun _ => []⟩

/-- `ProtoFile.render` -/
def headerText (F : FileText) : Text :=
  render noTypedef noSpelling (renderCall noTypedef noSpelling) (fileEnv F) (load header)

end EP.Gen.Jinja
