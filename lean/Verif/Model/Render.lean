import Verif.Model.Jinja
import Verif.Model.GenClass

/-!
# Rendering a template

What the objects handed to the templates answer (Field.py, Oneof.py, TypeDefinitions.py), and the text that results.
-/

namespace EP.Gen.Jinja

open Template

/-- A text is a sequence of characters and of texts that come from the schema: names (which consist of letters, digits
and underscores), the spelling of types and of default values, and names of files. -/
inductive Sym where
  | c (ch : Char)
  | nm (x : Str)
  | raw (t : Str)
  | path (x : Str)
  deriving DecidableEq, Repr

abbrev Text := List Sym

def lit (s : Str) : Text := s.map .c

/-! ## Fields — Field.py -/

/-- What the types of members are called, and their default values. -/
structure Spelling where
  /-- `get_type()` of a message — Field.py:411-431 -/
  message : FieldDesc → Str
  /-- `get_short_type()` of a message — Field.py:433-434 -/
  short : FieldDesc → Str
  /-- `get_type_as_defined()` of an enum — Field.py:343-364 -/
  enum : FieldDesc → Str
  /-- the length of a string, a number or a template parameter — Field.py:293-299, 315-321 -/
  length : FieldDesc → Str
  /-- the same for repeated fields — Field.py:504-510 -/
  repLength : FieldDesc → Str

/-- `type_to_cpp_type` — Field.py:174-186. -/
def cppType : ScalarTy → Str
  | .doublefixed => chars! "EmbeddedProto::doublefixed"
  | .floatfixed => chars! "EmbeddedProto::floatfixed"
  | .int64 => chars! "EmbeddedProto::int64"
  | .uint64 => chars! "EmbeddedProto::uint64"
  | .int32 => chars! "EmbeddedProto::int32"
  | .fixed64 => chars! "EmbeddedProto::fixed64"
  | .fixed32 => chars! "EmbeddedProto::fixed32"
  | .boolean => chars! "EmbeddedProto::boolean"
  | .uint32 => chars! "EmbeddedProto::uint32"
  | .sfixed32 => chars! "EmbeddedProto::sfixed32"
  | .sfixed64 => chars! "EmbeddedProto::sfixed64"
  | .sint32 => chars! "EmbeddedProto::sint32"
  | .sint64 => chars! "EmbeddedProto::sint64"
  | .enumeration => []

/-- `type_to_cstdint` — Field.py:189-201. -/
def cstdintType : ScalarTy → Str
  | .doublefixed => chars! "double"
  | .floatfixed => chars! "float"
  | .int64 => chars! "int64_t"
  | .uint64 => chars! "uint64_t"
  | .int32 => chars! "int32_t"
  | .fixed64 => chars! "uint64_t"
  | .fixed32 => chars! "uint32_t"
  | .boolean => chars! "bool"
  | .uint32 => chars! "uint32_t"
  | .sfixed32 => chars! "int32_t"
  | .sfixed64 => chars! "int64_t"
  | .sint32 => chars! "int32_t"
  | .sint64 => chars! "int64_t"
  | .enumeration => []

/-- `type_to_default_value` — Field.py:159-171. -/
def defaultValue : ScalarTy → Str
  | .doublefixed => chars! "0.0"
  | .floatfixed => chars! "0.0"
  | .int64 => chars! "0"
  | .uint64 => chars! "0U"
  | .int32 => chars! "0"
  | .fixed64 => chars! "0U"
  | .fixed32 => chars! "0U"
  | .boolean => chars! "false"
  | .uint32 => chars! "0U"
  | .sfixed32 => chars! "0"
  | .sfixed64 => chars! "0"
  | .sint32 => chars! "0"
  | .sint64 => chars! "0"
  | .enumeration => []

/-- `get_type()` of the classes other than `FieldRepeated` and `FieldErrorRecursive` — Field.py:224-225, 293-299, 315-321,
366-367, 411-431. -/
def elemType (S : Spelling) (f : FieldDesc) : Str :=
  match f.type with
  | .scalar s => cppType s
  | .enum => chars! "EmbeddedProto::enumeration<" ++ S.enum f ++ chars! ">"
  | .message => S.message f
  | .string => chars! "::EmbeddedProto::FieldString<" ++ S.length f ++ chars! ">"
  | .bytes => chars! "::EmbeddedProto::FieldBytes<" ++ S.length f ++ chars! ">"

/-- `FieldRepeated.get_type` — Field.py:504-510. -/
def repType (S : Spelling) (f : FieldDesc) : Str :=
  chars! "::EmbeddedProto::RepeatedFieldFixedSize<" ++ elemType S f ++ chars! ", " ++ S.repLength f ++ chars! ">"

def typeText (S : Spelling) (g : GField) : Str :=
  match g.shape with
  | .recursive => chars! "//"
  | .repeated => repType S g.desc
  | .single => elemType S g.desc

/-- `get_default_value` — Field.py:97-98, 233-234, 372-373, 436-438. -/
def defaultText (S : Spelling) (g : GField) : Text :=
  match g.shape, g.desc.type with
  | .single, .scalar s => [.raw (defaultValue s)]
  | .single, .enum => [.raw (chars! "static_cast<" ++ S.enum g.desc ++ chars! ">(0)")]
  | _, _ => []

/-! ## Values -/

/-- What Header.h is rendered for: a `ProtoFile`, with the texts of its definitions. -/
structure FileText where
  /-- `descriptor.name` -/
  name : Str
  /-- `get_header_guard()` -/
  guard : Str
  /-- `get_dependencies()` -/
  dependencies : List Str
  /-- `get_namespaces()` -/
  spaces : List Str
  enums : List Text
  msgs : List Text

inductive Val where
  | none
  | undef
  | bool (b : Bool)
  | nat (n : Nat)
  | text (t : Text)
  /-- a field, with the oneof it is a member of -/
  | field (o : Option GOneof) (g : GField)
  /-- `field.descriptor` -/
  | desc (g : GField)
  | oneof (o : GOneof)
  /-- the message -/
  | typedef
  /-- a nested definition: its text -/
  | nested (t : Text)
  /-- an element of `get_templates()` -/
  | param (type name : Str)
  /-- an element of `field_ids` -/
  | pair (p : Nat × Str)
  /-- a value of an enum -/
  | value (name : Str) (number : Str)
  | loop (first last : Bool)
  | list (l : List Val)
  | environment
  | macros
  /-- `proto_file` -/
  | file (F : FileText)
  /-- `proto_file.descriptor` -/
  | fileDesc (F : FileText)
  /-- a method of an object, before it is called -/
  | method (v : Val) (a : Attr)

/-- What a template is rendered for: the definition of a message or an enum. -/
structure Typedef where
  name : Str
  m : GMessage
  /-- type and name of the template parameters -/
  templates : List (Str × Str)
  enums : List Text
  msgs : List Text
  values : List (Str × Str)

/-- Truth in Python. -/
def Val.truth : Val → Bool
  | .none | .undef => false
  | .bool b => b
  | .nat n => n != 0
  | .text t => match t with
    | [] => false
    | _ => true
  | .list l => match l with
    | [] => false
    | _ => true
  | _ => true

/-- The elements, in a `for`. -/
def Val.elems : Val → List Val
  | .list l => l
  | _ => []

/-- `str()`. -/
def Val.show : Val → Text
  | .text t => t
  | .nat n => [.nm (Nat.repr n).toList]
  | .bool b => lit (if b then chars! "True" else chars! "False")
  | .method _ _ => lit (chars! "<bound method>")
  | _ => []

def upperSym : Sym → Option Sym
  | .c ch => some (.c ch.toUpper)
  | .nm x => some (.nm (Gen.upper x))
  | .raw _ => none
  | .path _ => none

/-- `upper()`; it is not used on types and files. -/
def upperText (t : Text) : Val :=
  match t.mapM upperSym with
  | some t => .text t
  | none => .undef

/-- The rest of a text begins a line that is not empty. -/
def startsLine : Text → Bool
  | [] => false
  | .c ch :: _ => ch != '\n'
  | _ => true

/-- What is put between `s` and `r`. -/
def padding (n : Nat) (s : Sym) (r : Text) : Text :=
  match s with
  | .c ch => if ch == '\n' && startsLine r then List.replicate n (.c ' ') else []
  | _ => []

/-- `|indent(n)`: lines after the first one begin with spaces, unless they are empty. -/
def indentText (n : Nat) : Text → Text
  | [] => []
  | s :: r => s :: (padding n s r ++ indentText n r)

/-- White space. -/
def blank : Sym → Bool
  | .c ch => ch == ' ' || ch == '\n' || ch == '\t' || ch == '\r'
  | _ => false

/-- `rstrip()` -/
def rstrip : Text → Text
  | [] => []
  | s :: r => match rstrip r with
    | [] => if blank s then [] else [s]
    | a :: b => s :: a :: b

def applyFilter (f : Filter) (v : Val) : Val :=
  match f, v with
  | .indent n, .text t => .text (indentText n t)
  | .upper, .text t => upperText t
  | .lower, .bool b => .text (lit (if b then chars! "true" else chars! "false"))
  | .length, .list l => .nat l.length
  | .reverse, .list l => .list l.reverse
  | _, _ => .undef

/-- `==` -/
def Val.same : Val → Val → Bool
  | .text a, .text b => a == b
  | .nat a, .nat b => a == b
  | _, _ => false

/-- `x in l` for fields. -/
def Val.isIn : Val → Val → Bool
  | .field _ g, .list l => l.any fun v => match v with
    | .field _ g' => g == g'
    | _ => false
  | _, _ => false

/-- Data attributes; the others are methods. -/
def getAttr (T : Typedef) (S : Spelling) (v : Val) (a : Attr) : Val :=
  match v, a with
  | .typedef, .name => .text [.nm T.name]
  | .typedef, .fields => .list (T.m.fields.map (.field none))
  | .typedef, .optional_fields => .list (T.m.optionalFields.map (.field none))
  | .typedef, .oneofs => .list (T.m.oneofs.map .oneof)
  | .typedef, .nested_enum_definitions => .list (T.enums.map .nested)
  | .typedef, .nested_msg_definitions => .list (T.msgs.map .nested)
  | .typedef, .field_ids => .list (T.m.fieldIds.map .pair)
  | .field _ g, .name => .text [.nm g.desc.name]
  | .field _ g, .variable_name => .text [.nm g.desc.name, .c '_']
  | .field _ g, .variable_id_name => .text [.nm (upper g.desc.name)]
  | .field _ g, .optional => .bool g.desc.proto3Optional
  | .field o _, .oneof => match o with
    | some o => .oneof o
    | none => .none
  | .field _ g, .of_type_enum => .bool (g.desc.type == .enum)
  | .field _ g, .repeated_type => match g.shape with
    | .repeated => .text [.raw (repType S g.desc)]
    | _ => .undef
  | .field _ g, .descriptor => .desc g
  | .desc g, .type_name => match g.shape with
    | .recursive => .text (lit (chars! "FieldErrorRecursive"))
    | _ => .text [.raw g.desc.typeName]
  | .oneof o, .fields => .list (o.fields.map (.field (some o)))
  | .loop f _, .first => .bool f
  | .loop _ l, .last => .bool l
  | .value n _, .name => .text [.nm n]
  | .value _ k, .number => .text [.raw k]
  | .file F, .descriptor => .fileDesc F
  | .file F, .enum_definitions => .list (F.enums.map .nested)
  | .file F, .msg_definitions => .list (F.msgs.map .nested)
  | .fileDesc F, .name => .text [.path F.name]
  | v, a => .method v a

/-- `oneof_allocation_required` — Field.py:126-127. -/
def allocationRequired (g : GField) : Bool :=
  match g.shape, g.desc.type with
  | .single, .enum => false
  | _, _ => true

/-- Methods without arguments. -/
def callMethod (T : Typedef) (S : Spelling) (v : Val) (a : Attr) : Val :=
  match v, a with
  | .typedef, .get_name => .text [.nm T.name]
  | .typedef, .get_templates => .list (T.templates.map fun p => .param p.1 p.2)
  | .typedef, .values => .list (T.values.map fun p => .value p.1 p.2)
  | .field _ g, .get_name => .text [.nm g.desc.name]
  | .field o g, .get_variable_name => match o with
    | some o => .text [.nm o.name, .c '_', .c '.', .nm g.desc.name, .c '_']
    | none => .text [.nm g.desc.name, .c '_']
  | .field _ g, .get_variable_id_name => .text [.nm (Gen.upper g.desc.name)]
  | .field _ g, .get_default_value => .text (defaultText S g)
  | .field _ g, .get_type => match g.shape with
    | .recursive => .text (lit (chars! "//"))
    | _ => .text [.raw (typeText S g)]
  | .field _ g, .get_short_type => match g.shape, g.desc.type with
    | .single, .string => .text (lit (chars! "FieldString"))
    | .single, .bytes => .text (lit (chars! "FieldBytes"))
    | .single, .message => .text [.raw (S.short g.desc)]
    | .repeated, _ => .text [.raw (repType S g.desc)]
    | _, _ => .text []
  | .field _ g, .get_cstdint_type => match g.shape, g.desc.type with
    | .single, .scalar s => .text [.raw (cstdintType s)]
    | _, _ => .undef
  | .field _ g, .get_type_as_defined => match g.shape, g.desc.type with
    | .single, .enum => .text [.raw (S.enum g.desc)]
    | _, _ => .undef
  | .field _ g, .get_base_type => match g.shape with
    | .repeated => .text [.raw (elemType S g.desc)]
    | _ => .undef
  | .field _ g, .oneof_allocation_required => .bool (allocationRequired g)
  | .field o _, .get_oneof_name => match o with
    | some o => .text [.nm o.name]
    | none => .undef
  | .field o _, .get_which_oneof => match o with
    | some o => .text (lit (chars! "which_") ++ [.nm o.name, .c '_'])
    | none => .undef
  | .oneof o, .get_name => .text [.nm o.name]
  | .oneof o, .get_variable_name => .text [.nm o.name, .c '_']
  | .oneof o, .get_which_oneof => .text (lit (chars! "which_") ++ [.nm o.name, .c '_'])
  | .oneof o, .get_fields => .list (o.fields.map (.field (some o)))
  | .oneof o, .oneof_allocation_required => .bool (o.fields.any allocationRequired)
  | .text t, .upper => upperText t
  | .file F, .get_header_guard => .text [.path F.guard]
  | .file F, .get_dependencies => .list (F.dependencies.map fun d => .text [.path d])
  | .file F, .get_namespaces => .list (F.spaces.map fun x => .text [.nm x])
  | _, _ => .undef

/-- `tmpl_param['type']`, `tmpl_param['name']`, `id_set[0]`, `id_set[1]`. -/
def indexVal (v i : Val) : Val :=
  match v, i with
  | .param t n, .text k =>
    if k == lit (chars! "type") then .text [.raw t] else if k == lit (chars! "name") then .text [.nm n] else .undef
  | .pair p, .nat 0 => .nat p.1
  | .pair p, .nat 1 => .text [.nm p.2]
  | _, _ => .undef

abbrev Env := Var → Val

def Env.set (env : Env) (v : Var) (x : Val) : Env := fun w => if w = v then x else env w

section
variable (T : Typedef) (S : Spelling) (R : Val → Attr → Val → Text)

/-- `R` is what the methods that render another template answer, and the macros. -/
def callWith (f x : Val) : Val :=
  match f with
  | .method v a => .text (R v a x)
  | _ => .undef

def eval (env : Env) : Ex → Val
  | .str s => .text (lit s)
  | .nat n => .nat n
  | .var v => env v
  | .attr e a => getAttr T S (eval env e) a
  | .index e i => indexVal (eval env e) (eval env i)
  | .call e => match eval env e with
    | .method v a => callMethod T S v a
    | _ => .undef
  | .callWith e x => callWith R (eval env e) (eval env x)
  | .callWith2 e x _ => callWith R (eval env e) (eval env x)
  | .filter e f => applyFilter f (eval env e)
  | .isNone e => match eval env e with
    | .none => .bool true
    | _ => .bool false
  | .isDefined e => match eval env e with
    | .undef => .bool false
    | _ => .bool true
  | .not e => .bool (!(eval env e).truth)
  | .and a b => if (eval env a).truth then eval env b else eval env a
  | .or a b => if (eval env a).truth then eval env a else eval env b
  | .eq a b => .bool ((eval env a).same (eval env b))
  | .ne a b => .bool (!(eval env a).same (eval env b))
  | .gt a b => match eval env a, eval env b with
    | .nat m, .nat n => .bool (decide (n < m))
    | _, _ => .undef
  | .mem a b => .bool ((eval env a).isIn (eval env b))
  | .cond c a b => if (eval env c).truth then eval env a else eval env b

/-- A `for`: the body is given `loop.first`, `loop.last` and the element. -/
def loopText (f : Bool → Bool → Val → Text) : Bool → List Val → Text
  | _, [] => []
  | first, v :: vs => f first vs.isEmpty v ++ loopText f false vs

def render (env : Env) : Nodes → Text
  | .nil => []
  | .text s r => lit s ++ render env r
  | .expr e r => (eval T S R env e).show ++ render env r
  | .ite c a b r => (if (eval T S R env c).truth then render env a else render env b) ++ render env r
  | .loop v e b r =>
    loopText (fun first last x => render ((env.set v x).set .loop (.loop first last)) b) true
      (eval T S R env e).elems ++ render env r
  | .defn _ _ r => render env r

end

end EP.Gen.Jinja
