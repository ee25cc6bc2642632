import Verif.Model.GenShow
import Verif.Model.Lexer

/-!
# The C++ text of a generated class

A class declaration as a tree, a bit closer to the text than `Gen.Class` (which spelling is used where there are
several, and the types): how it is written in C++ (`print`), and what it is in `Gen.Class` (`erase`).
-/

namespace EP.Gen.Cpp

open Template Jinja

/-- The tokens of a fixed piece of C++. -/
macro "cpp!" s:str : term => `(toks (chars! $s))

def place : Place → List Tok
  | .var x => [.id x]
  | .alt o x => [.id o, .sym '.', .id x]

def cond : Cond → List Tok
  | .bit f => cpp! "0 != (presence::mask(presence::fields::" ++ [.id f] ++
      cpp! ") & presence_[presence::index(presence::fields::" ++ [.id f] ++ cpp! ")])"
  | .whichIs i w => cpp! "FieldNumber::" ++ [.id i] ++ cpp! "==" ++ [.id w]
  | .whichNot i w => cpp! "FieldNumber::" ++ [.id i] ++ cpp! "!=" ++ [.id w]
  | .argNot w => cpp! "field_id !=" ++ [.id w]
  | .rhsHas f => cpp! "rhs." ++ [.id f] ++ cpp! "()"
  | .rhsWhichNot f w => cpp! "rhs." ++ [.id f] ++ cpp! "() !=" ++ [.id w]

/-- A statement without substatements. -/
inductive CAct where
  | setBit (f : Str)
  | clearBit (f : Str)
  | clear (x : Place)
  /-- `x = v;` where `v` is the default value of an enum -/
  | reset (x : Place) (v : Str)
  /-- `x = p;` with a parameter -/
  | assign (x : Place) (p : Str)
  /-- `x.set(p);` with a parameter -/
  | set (x : Place) (p : Str)
  | new (x : Place) (t : Str)
  | destroyAt (x : Place)
  | destroy (x : Place) (t : List Tok)
  | setWhich (w id : Str)
  | call (f : Str)
  | callId (f id : Str)
  | callSet (f g : Str)
  deriving DecidableEq, Repr

namespace CAct

def print : CAct → List Tok
  | .setBit f => cpp! "presence_[presence::index(presence::fields::" ++ [.id f] ++
      cpp! ")] |= presence::mask(presence::fields::" ++ [.id f] ++ cpp! ");"
  | .clearBit f => cpp! "presence_[presence::index(presence::fields::" ++ [.id f] ++
      cpp! ")] &= ~(presence::mask(presence::fields::" ++ [.id f] ++ cpp! "));"
  | .clear x => place x ++ cpp! ".clear();"
  | .reset x v => place x ++ cpp! "=" ++ [.raw v] ++ cpp! ";"
  | .assign x p => place x ++ cpp! "=" ++ [.id p] ++ cpp! ";"
  | .set x p => place x ++ cpp! ".set(" ++ [.id p] ++ cpp! ");"
  | .new x t => cpp! "new(&" ++ place x ++ cpp! ")" ++ [.raw t] ++ cpp! ";"
  | .destroyAt x => cpp! "::EmbeddedProto::destroy_at(&" ++ place x ++ cpp! ");"
  | .destroy x t => place x ++ cpp! ".~" ++ t ++ cpp! "();"
  | .setWhich w i => [.id w] ++ cpp! "= FieldNumber::" ++ [.id i] ++ cpp! ";"
  | .call f => [.id f] ++ cpp! "();"
  | .callId f i => [.id f] ++ cpp! "(FieldNumber::" ++ [.id i] ++ cpp! ");"
  | .callSet f g => [.id f] ++ cpp! "(rhs." ++ [.id g] ++ cpp! "());"

def erase : CAct → Act
  | .setBit f => .setBit f
  | .clearBit f => .clearBit f
  | .clear x | .reset x _ => .clear x
  | .assign x _ | .set x _ => .assign x
  | .new x _ => .new x
  | .destroyAt x | .destroy x _ => .destroy x
  | .setWhich w i => .setWhich w i
  | .call f => .call f
  | .callId f i => .callId f i
  | .callSet f g => .callSet f g

end CAct

def acts (l : List CAct) : List Tok := l.flatMap CAct.print

/-- `case FieldNumber::id: … break;` -/
def caseOf (i : Str) (body : List Tok) : List Tok :=
  (cpp! "case FieldNumber::" ++ [.id i] ++ cpp! ":") ++ (body ++ cpp! "break;")

inductive CStmt where
  | act (a : CAct)
  | ite (c : Cond) (yes no : List CAct)
  deriving DecidableEq, Repr

namespace CStmt

def print : CStmt → List Tok
  | .act a => a.print
  | .ite c yes no => cpp! "if(" ++ cond c ++ cpp! ") {" ++ acts yes ++ cpp! "}" ++
      match no with
      | [] => []
      | _ => cpp! "else {" ++ acts no ++ cpp! "}"

def erase : CStmt → Stmt
  | .act a => .act a.erase
  | .ite c yes no => .ite c (yes.map CAct.erase) (no.map CAct.erase)

end CStmt

def stmts (l : List CStmt) : List Tok := l.flatMap CStmt.print

/-- A member function. -/
inductive CBody where
  | test (c : Cond)
  /-- `return x.suffix;` -/
  | get (x : Place) (suffix : List Tok)
  | zero
  | getWhich (w : Str)
  | run (b : List CStmt)
  | ref (b : List CStmt) (x : Place) (suffix : List Tok)
  /-- a parameter `p` of type `const T&`, and if `both` is set another overload with `const T&&` -/
  | value (t : List Tok) (p : Str) (both : Bool) (b : List CStmt)
  | at (x : Place)
  | refAt (x : Place)
  | setAt (t : List Tok) (x : Place)
  | add (t : List Tok) (x : Place)
  deriving DecidableEq, Repr

/-- A function with what is written before its name. -/
structure CFn where
  head : List Tok
  name : Str
  body : CBody
  deriving DecidableEq, Repr

namespace CFn

def print (f : CFn) : List Tok :=
  match f.body with
  | .test c => f.head ++ [.id f.name] ++ cpp! "() const { return" ++ cond c ++ cpp! "; }"
  | .get x suffix => f.head ++ [.id f.name] ++ cpp! "() const { return" ++ place x ++ suffix ++ cpp! "; }"
  | .zero => f.head ++ [.id f.name] ++ cpp! "() const { return 0; }"
  | .getWhich w => f.head ++ [.id f.name] ++ cpp! "() const { return" ++ [.id w] ++ cpp! "; }"
  | .run b => f.head ++ [.id f.name] ++ cpp! "() {" ++ stmts b ++ cpp! "}"
  | .ref b x suffix => f.head ++ [.id f.name] ++ cpp! "() {" ++ stmts b ++ cpp! "return" ++ place x ++ suffix ++ cpp! "; }"
  | .value t p both b =>
    f.head ++ [.id f.name] ++ cpp! "(const" ++ t ++ cpp! "&" ++ [.id p] ++ cpp! ") {" ++ stmts b ++ cpp! "}" ++
    if both then
      f.head ++ [.id f.name] ++ cpp! "(const" ++ t ++ cpp! "&&" ++ [.id p] ++ cpp! ") {" ++ stmts b ++ cpp! "}"
    else []
  | .at x => f.head ++ [.id f.name] ++ cpp! "(uint32_t index) const { return" ++ place x ++ cpp! "[index]; }"
  | .refAt x => f.head ++ [.id f.name] ++ cpp! "(uint32_t index) { return" ++ place x ++ cpp! "[index]; }"
  | .setAt t x =>
    f.head ++ [.id f.name] ++ cpp! "(uint32_t index, const" ++ t ++ cpp! "& value) {" ++ place x ++
      cpp! ".set(index, value); }" ++
    f.head ++ [.id f.name] ++ cpp! "(uint32_t index, const" ++ t ++ cpp! "&& value) {" ++ place x ++
      cpp! ".set(index, value); }"
  | .add t x =>
    f.head ++ [.id f.name] ++ cpp! "(const" ++ t ++ cpp! "& value) {" ++ place x ++ cpp! ".add(value); }"

def erase (f : CFn) : Str × Body :=
  (f.name, match f.body with
    | .test c => .test c
    | .get x _ => .get x
    | .zero => .zero
    | .getWhich w => .getWhich w
    | .run b => .run (b.map CStmt.erase)
    | .ref b x _ => .ref (b.map CStmt.erase) x
    | .value _ _ _ b => .value (b.map CStmt.erase)
    | .at x => .at x
    | .refAt x => .refAt x
    | .setAt _ x => .setAt x
    | .add _ x => .add x)

end CFn

/-- What is declared for a field. -/
structure CField where
  /-- a directive -/
  line : Option Str
  /-- `static constexpr char const* X_NAME = "x";` -/
  const : Str × Str
  funs : List CFn
  set : List CFn
  mutable : List CFn
  /-- is `mutable` written before `set`? -/
  swap : Bool
  get : List CFn
  deriving DecidableEq, Repr

def CField.print (f : CField) : List Tok :=
  (match f.line with
    | some l => [.line l]
    | none => []) ++
  cpp! "static constexpr char const*" ++ [.id f.const.1] ++ cpp! "=" ++ [.str f.const.2] ++ cpp! ";" ++
  (f.funs.flatMap CFn.print ++
   (if f.swap then f.mutable.flatMap CFn.print ++ f.set.flatMap CFn.print
    else f.set.flatMap CFn.print ++ f.mutable.flatMap CFn.print) ++ f.get.flatMap CFn.print)

/-- The functions; the order of declarations does not matter. -/
def CField.erase (f : CField) : List (Str × Body) := (f.funs ++ f.set ++ f.mutable ++ f.get).map CFn.erase

/-- `zero` is how the default value is written. -/
def guard (zero : Str) : Guard → List Tok
  | .has f => [.id f] ++ cpp! "() && (::EmbeddedProto::Error::NO_ERRORS == return_value)"
  | .notDefault x =>
    cpp! "(" ++ [.raw zero] ++ cpp! "!=" ++ place x ++ cpp! ".get()) && (::EmbeddedProto::Error::NO_ERRORS == return_value)"
  | .always => cpp! "::EmbeddedProto::Error::NO_ERRORS == return_value"

def serField (zero : Str) (s : SerField) : List Tok :=
  cpp! "if(" ++ guard zero s.guard ++ cpp! ") { return_value =" ++ place s.place ++
  cpp! ".serialize_with_id(static_cast<uint32_t>(FieldNumber::" ++ [.id s.id] ++ cpp! "), buffer," ++
  (if s.flag then cpp! "true" else cpp! "false") ++ cpp! "); }"

/-- A statement of `serialize` for a field, if there is one. -/
def serOpt (p : Str × Option SerField) : List Tok :=
  match p.2 with
  | some s => serField p.1 s
  | none => []

def des : Des → List Tok
  | .setBit f => (CAct.setBit f).print
  | .field x => cpp! "return_value =" ++ place x ++ cpp! ".deserialize_check_type(buffer, wire_type);"

/-- A oneof: what is declared in the union, and the functions. -/
structure COneof where
  name : Str
  which : Str
  var : Str
  /-- types and names -/
  members : List (Str × Str)
  getWhich : CFn
  fields : List CField
  /-- the calls in `operator=`: `case` and statement -/
  assign : List (Str × CAct)
  /-- the name of `get_which_o`, `init_o`, `clear_o` -/
  getName : Str
  initName : Str
  clearName : Str
  /-- the cases in `init_o`, if there is a `switch` -/
  init : Option (List (Str × CAct))
  /-- the cases in `clear_o` -/
  clear : List (Str × CAct)
  /-- the cases in `serialize` -/
  serialize : List (Str × Str × Option SerField)
  desName : Str
  des : List (Str × List Des)
  showName : Str
  shown : List (Str × Place × Str)
  deriving DecidableEq, Repr

/-- A list with something between the elements. -/
def sep (c : List Tok) : List (List Tok) → List Tok
  | [] => []
  | x :: xs => x ++ (match xs with
    | [] => []
    | _ => c) ++ sep c xs

namespace COneof

/-- In the copy constructors and in `operator=`. -/
def printAssign (o : COneof) : List Tok :=
  (cpp! "if(" ++ cond (.rhsWhichNot o.getName o.which) ++ cpp! ") {" ++ (CAct.call o.clearName).print ++
   cpp! "} switch(rhs." ++ [.id o.getName] ++ cpp! "()) {") ++
  (o.assign.flatMap (fun p => caseOf p.1 p.2.print) ++ cpp! "default: break; }")

def eraseAssign (o : COneof) : List Stmt :=
  [.ite (.rhsWhichNot o.getName o.which) [.call o.clearName] [],
   .switch (.rhsWhich o.getName) (o.assign.map fun p => (p.1, [p.2.erase]))]

def printPublic (o : COneof) : List Tok := o.getWhich.print ++ o.fields.flatMap CField.print

def printSerialize (o : COneof) : List Tok :=
  (cpp! "switch(" ++ [.id o.which] ++ cpp! ") {") ++
  (o.serialize.flatMap (fun p => caseOf p.1 (serOpt p.2)) ++ cpp! "default: break; }")

/-- The labels of all members, and a call. -/
def printCase (o : COneof) : List Tok :=
  (o.des.flatMap fun p => cpp! "case FieldNumber::" ++ [.id p.1] ++ cpp! ":") ++
  (cpp! "return_value =" ++ [.id o.desName] ++ cpp! "(id_tag, buffer, wire_type); break;")

def printInit (o : COneof) : List Tok :=
  (cpp! "void" ++ [.id o.initName] ++ cpp! "(const FieldNumber field_id) {" ++
   (CStmt.ite (.whichNot notSet o.which) [.call o.clearName] []).print) ++
  ((match o.init with
    | some cs => cpp! "switch(field_id) {" ++ (cs.flatMap (fun p => caseOf p.1 p.2.print) ++ cpp! "default: break; }")
    | none => []) ++
   ([.id o.which] ++ cpp! "= field_id; }"))

def printClear (o : COneof) : List Tok :=
  (cpp! "void" ++ [.id o.clearName] ++ cpp! "() { switch(" ++ [.id o.which] ++ cpp! ") {") ++
  (o.clear.flatMap (fun p => caseOf p.1 p.2.print) ++
   (cpp! "default: break; }" ++ (CAct.setWhich o.which notSet).print ++ cpp! "}"))

def printDes (o : COneof) : List Tok :=
  (cpp! "::EmbeddedProto::Error" ++ [.id o.desName] ++ cpp! "(const FieldNumber field_id, ::EmbeddedProto::ReadBufferInterface& buffer, const ::EmbeddedProto::WireFormatter::WireType wire_type)
{
  ::EmbeddedProto::Error return_value = ::EmbeddedProto::Error::NO_ERRORS;
  if(" ++ cond (.argNot o.which) ++ cpp! ") {" ++ [.id o.initName] ++ cpp! "(field_id); }
  switch(" ++ [.id o.which] ++ cpp! ") {") ++
  ((o.des.flatMap fun p => caseOf p.1 (p.2.flatMap Cpp.des)) ++
   (cpp! "default: break; }
  if(::EmbeddedProto::Error::NO_ERRORS != return_value) {" ++ (CAct.call o.clearName).print ++ cpp! "}
  return return_value; }"))

def printShow (o : COneof) : List Tok :=
  (cpp! "::EmbeddedProto::string_view" ++ [.id o.showName] ++ cpp! "(::EmbeddedProto::string_view& str, const uint32_t indent_level, const bool first_field) const
{
  ::EmbeddedProto::string_view left_chars = str;
  switch(" ++ [.id o.which] ++ cpp! ") {") ++
  ((o.shown.flatMap fun p => caseOf p.1 (cpp! "left_chars =" ++ place p.2.1 ++
     cpp! ".to_string(left_chars, indent_level," ++ [.id p.2.2] ++ cpp! ", first_field);")) ++
   cpp! "default: break; }
  return left_chars; }")

/-- The union and the functions that are private. -/
def printPrivate (o : COneof) : List Tok :=
  (cpp! "FieldNumber" ++ [.id o.which] ++ cpp! "= FieldNumber::NOT_SET; union" ++ [.id o.name] ++ cpp! "{" ++
    [.id o.name] ++ cpp! "() {} ~" ++ [.id o.name] ++ cpp! "() {}") ++
  ((o.members.flatMap fun p => [.raw p.1, .id p.2] ++ cpp! ";") ++
   ((cpp! "};" ++ [.id o.name, .id o.var] ++ cpp! ";") ++
    (o.printInit ++ (o.printClear ++ (o.printDes ++
      ([.line (chars! "ifdef MSG_TO_STRING ")] ++ (o.printShow ++ [.line (chars! "endif // End of MSG_TO_STRING")])))))))

def union (o : COneof) : Union where
  type := o.name
  which := o.which
  var := o.var
  members := o.members.map (·.2)

/-- The functions, in the order of `Gen.render`. -/
def eraseFuns (o : COneof) : List (Str × Body) :=
  [o.getWhich.erase,
   (o.initName, .id
     [.ite (.whichNot notSet o.which) [.call o.clearName] [],
      .switch .arg ((o.init.getD []).map fun p => (p.1, [p.2.erase])),
      .act (.setWhichArg o.which)]),
   (o.clearName, .run
     [.switch (.which o.which) (o.clear.map fun p => (p.1, [p.2.erase])), .act (.setWhich o.which notSet)]),
   (o.desName, .des { which := o.which, init := o.initName, cases := o.des, clear := o.clearName })] ++
  o.fields.flatMap CField.erase

end COneof

/-- A variable. -/
structure CVar where
  type : Str
  name : Str
  init : Option Str
  deriving DecidableEq, Repr

def CVar.print (v : CVar) : List Tok :=
  [.raw v.type, .id v.name] ++ (match v.init with
    | some d => cpp! "=" ++ [.raw d]
    | none => []) ++ cpp! ";"

/-- A class. -/
structure CClass where
  /-- the tokens of the template parameters: type and name -/
  templates : List (List Tok)
  name : Str
  /-- nested enums and classes -/
  enums : List (List Tok)
  classes : List (List Tok)
  /-- without `NOT_SET` -/
  enumerators : List (Str × Nat)
  assign : List CStmt
  fields : List CField
  oneofs : List COneof
  serialize : List (Str × Option SerField)
  cases : List (Str × List Des)
  clear : List CAct
  names : List (Str × Str)
  shows : List Show
  presence : List Str
  vars : List CVar

def bool (b : Bool) : List Tok := if b then cpp! "true" else cpp! "false"

def showStmt : Show → List Tok
  | .field x c first => cpp! "left_chars =" ++ place x ++ cpp! ".to_string(left_chars, indent_level + 2," ++ [.id c] ++
      cpp! "," ++ bool first ++ cpp! ");"
  | .oneof f first => cpp! "left_chars =" ++ [.id f] ++ cpp! "(left_chars, indent_level + 2," ++ bool first ++ cpp! ");"

def nameCase (p : Str × Str) : List Tok := caseOf p.1 (cpp! "name =" ++ [.id p.2] ++ cpp! ";")

namespace CClass
variable (C : CClass)

def printTemplates : List Tok :=
  match C.templates with
  | [] => []
  | ts => cpp! "template<" ++ sep (cpp! ",") ts ++ cpp! ">"

/-- The statements of the copy constructors and of `operator=`. -/
def printAssign : List (List Tok) := [stmts C.assign, C.oneofs.flatMap COneof.printAssign]

def printEnumerators : List (List Tok) :=
  [cpp! "enum class FieldNumber : uint32_t { NOT_SET = 0,",
   sep (cpp! ",") (C.enumerators.map fun e => [.id e.1] ++ cpp! "=" ++ [.id (Nat.repr e.2).toList]),
   cpp! "};"]

def printSerialize : List (List Tok) :=
  [cpp! "::EmbeddedProto::Error serialize(::EmbeddedProto::WriteBufferInterface& buffer) const override {
    ::EmbeddedProto::Error return_value = ::EmbeddedProto::Error::NO_ERRORS;",
   C.serialize.flatMap serOpt, C.oneofs.flatMap COneof.printSerialize, cpp! "return return_value; };"]

def printDeserialize : List (List Tok) :=
  [cpp! "::EmbeddedProto::Error deserialize(::EmbeddedProto::ReadBufferInterface& buffer) override
  {
    ::EmbeddedProto::Error return_value = ::EmbeddedProto::Error::NO_ERRORS;
    ::EmbeddedProto::WireFormatter::WireType wire_type = ::EmbeddedProto::WireFormatter::WireType::VARINT;
    uint32_t id_number = 0;
    FieldNumber id_tag = FieldNumber::NOT_SET;
    ::EmbeddedProto::Error tag_value = ::EmbeddedProto::WireFormatter::DeserializeTag(buffer, wire_type, id_number);
    while((::EmbeddedProto::Error::NO_ERRORS == return_value) && (::EmbeddedProto::Error::NO_ERRORS == tag_value))
    {
      id_tag = static_cast<FieldNumber>(id_number);
      switch(id_tag)
      {",
   C.cases.flatMap fun p => caseOf p.1 (p.2.flatMap des), C.oneofs.flatMap COneof.printCase,
   cpp! "
        case FieldNumber::NOT_SET:
          return_value = ::EmbeddedProto::Error::INVALID_FIELD_ID;
          break;
        default:
          return_value = skip_unknown_field(buffer, wire_type);
          break;
      }
      if(::EmbeddedProto::Error::NO_ERRORS == return_value)
      {
        tag_value = ::EmbeddedProto::WireFormatter::DeserializeTag(buffer, wire_type, id_number);
      }
    }
    if((::EmbeddedProto::Error::NO_ERRORS == return_value)
       && (::EmbeddedProto::Error::NO_ERRORS != tag_value)
       && (::EmbeddedProto::Error::END_OF_BUFFER != tag_value))
    {
      return_value = tag_value;
    }
    return return_value;
  };"]

def printClear : List (List Tok) :=
  [cpp! "void clear() override {", acts C.clear, C.oneofs.flatMap fun o => (CAct.call o.clearName).print, cpp! "}"]

def printNames : List (List Tok) :=
  [cpp! "static char const* field_number_to_name(const FieldNumber fieldNumber)
  {
    char const* name = nullptr;
    switch(fieldNumber)
    {", C.names.flatMap nameCase, cpp! "
      default:
        name = \"Invalid FieldNumber\";
        break;
    }
    return name;
  }"]

def printShow : List (List Tok) :=
  [[.line (chars! "ifdef MSG_TO_STRING")], cpp! "
  ::EmbeddedProto::string_view to_string(::EmbeddedProto::string_view& str) const
  {
    return this->to_string(str, 0, nullptr, true);
  }
  ::EmbeddedProto::string_view to_string(::EmbeddedProto::string_view& str, const uint32_t indent_level, char const* name, const bool first_field) const override
  {
    ::EmbeddedProto::string_view left_chars = str;
    int32_t n_chars_used = 0;
    if(!first_field)
    {
      n_chars_used = snprintf(left_chars.data, left_chars.size, \",\\n\");
      if(0 < n_chars_used)
      {
        left_chars.data += n_chars_used;
        left_chars.size -= n_chars_used;
      }
    }
    if(nullptr != name)
    {
      if( 0 == indent_level)
      {
        n_chars_used = snprintf(left_chars.data, left_chars.size, \"\\\"%s\\\": {\\n\", name);
      }
      else
      {
        n_chars_used = snprintf(left_chars.data, left_chars.size, \"%*s\\\"%s\\\": {\\n\", indent_level, \" \", name);
      }
    }
    else
    {
      if( 0 == indent_level)
      {
        n_chars_used = snprintf(left_chars.data, left_chars.size, \"{\\n\");
      }
      else
      {
        n_chars_used = snprintf(left_chars.data, left_chars.size, \"%*s{\\n\", indent_level, \" \");
      }
    }
    if(0 < n_chars_used)
    {
      left_chars.data += n_chars_used;
      left_chars.size -= n_chars_used;
    }", C.shows.flatMap showStmt, cpp! "
    if( 0 == indent_level)
    {
      n_chars_used = snprintf(left_chars.data, left_chars.size, \"\\n}\");
    }
    else
    {
      n_chars_used = snprintf(left_chars.data, left_chars.size, \"\\n%*s}\", indent_level, \" \");
    }
    if(0 < n_chars_used)
    {
      left_chars.data += n_chars_used;
      left_chars.size -= n_chars_used;
    }
    return left_chars;
  }", [.line (chars! "endif // End of MSG_TO_STRING")]]

/-- The rest of `presence`, for so many fields. -/
def presenceTail (n : Nat) : List Tok := cpp! "
    };
    static constexpr uint32_t N_FIELDS =" ++ [.id (Nat.repr n).toList] ++ cpp! ";
    using TYPE = uint32_t;
    static constexpr uint32_t N_BITS = std::numeric_limits<TYPE>::digits;
    static constexpr uint32_t SIZE = (N_FIELDS / N_BITS) + ((N_FIELDS % N_BITS) > 0 ? 1 : 0);
    static constexpr uint32_t index(const fields& field) { return static_cast<uint32_t>(field) / N_BITS; }
    static constexpr TYPE mask(const fields& field)
    {
      return static_cast<uint32_t>(0x01) << (static_cast<uint32_t>(field) % N_BITS);
    }
  };
  typename presence::TYPE presence_[presence::SIZE] = {0};"

def printPresence : List Tok :=
  match C.presence with
  | [] => []
  | ps => cpp! "
  struct presence
  {
    enum class fields : uint32_t
    {" ++ (sep (cpp! ",") (ps.map fun f => [.id f]) ++ presenceTail ps.length)

def pieces : List (List Tok) :=
  [C.printTemplates] ++
  [cpp! "class" ++ [.id C.name] ++ cpp! "final: public ::EmbeddedProto::MessageInterface { public:" ++
     [.id C.name] ++ cpp! "() = default;",
   [.id C.name] ++ cpp! "(const" ++ [.id C.name] ++ cpp! "& rhs ) {"] ++ C.printAssign ++ [cpp! "}"] ++
  [[.id C.name] ++ cpp! "(const" ++ [.id C.name] ++ cpp! "&& rhs ) noexcept {"] ++ C.printAssign ++ [cpp! "}"] ++
  [cpp! "~" ++ [.id C.name] ++ cpp! "() override = default;"] ++
  [C.enums.flatten] ++ [C.classes.flatten] ++ C.printEnumerators ++
  [[.id C.name] ++ cpp! "& operator=(const" ++ [.id C.name] ++ cpp! "& rhs) {"] ++ C.printAssign ++
  [cpp! "return *this; }"] ++
  [[.id C.name] ++ cpp! "& operator=(const" ++ [.id C.name] ++ cpp! "&& rhs) noexcept {"] ++ C.printAssign ++
  [cpp! "return *this; }"] ++
  [C.fields.flatMap CField.print] ++ [C.oneofs.flatMap COneof.printPublic] ++
  C.printSerialize ++ C.printDeserialize ++ C.printClear ++ C.printNames ++ C.printShow ++ [cpp! "private:"] ++
  [C.printPresence] ++ [C.vars.flatMap CVar.print] ++ [C.oneofs.flatMap COneof.printPrivate] ++ [cpp! "};"]

def print : List Tok := C.pieces.flatten

/-- The class in the sense of `Gen.Class`; the types of the members are given separately. -/
def erase (fs : Fields) (os : Oneofs) : Class where
  name := C.name
  enumerators := (notSet, 0) :: C.enumerators
  presence := C.presence
  vars := C.vars.map (·.name)
  fs := fs
  unions := C.oneofs.map COneof.union
  os := os
  consts := (C.fields ++ C.oneofs.flatMap (·.fields)).map (·.const)
  funs := C.fields.flatMap CField.erase ++ C.oneofs.flatMap COneof.eraseFuns
  assign := C.assign.map CStmt.erase ++ C.oneofs.flatMap COneof.eraseAssign
  clear := C.clear.map (fun a => .act a.erase) ++ C.oneofs.map fun o => .act (.call o.clearName)
  serialize := C.serialize.map (fun p => .field p.2) ++
    C.oneofs.map fun o => .switch o.which (o.serialize.map fun p => (p.1, p.2.2))
  cases := C.cases.map (fun p => .field p.1 p.2) ++ C.oneofs.map fun o => .oneof (o.des.map (·.1)) o.desName
  names := C.names

def eraseShows : Shows where
  statements := C.shows
  funs := C.oneofs.map fun o => (o.showName, { which := o.which, cases := o.shown })

end CClass

end EP.Gen.Cpp
