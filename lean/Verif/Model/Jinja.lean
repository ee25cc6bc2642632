import Verif.Model.GenMessage
import Verif.Model.TemplateText

/-!
# Jinja

The part of the template language that the templates use: texts, `{{ … }}`, `{% if %}`, `{% for %}`, `{% macro %}`,
`{% import %}` and comments, with `trim_blocks` and `lstrip_blocks` (main.py:91).
-/

namespace EP.Gen.Jinja

open Template

/-! ## Pieces of a template -/

/-- A template is text, `{{ … }}` and `{% … %}`. -/
inductive Piece where
  | text (s : Str)
  | expr (s : Str)
  | block (s : Str)
  deriving DecidableEq, Repr

inductive Mode where
  | text
  /-- nothing since the end of a block or a comment -/
  | after
  /-- after `{` -/
  | brace
  | expr
  /-- after `}` -/
  | exprEnd
  | block
  /-- after `%` -/
  | blockEnd
  | comment
  /-- after `#` -/
  | commentEnd
  deriving DecidableEq, Repr

/-- A text ends; `b` are its characters, the last one first. -/
def closeText (b : Str) : List Piece :=
  match b with
  | [] => []
  | _ => [.text b.reverse]

/-- The white space before a block, if there is nothing else on the line (`lstrip_blocks`). -/
def strip (b : Str) : Str :=
  match b.dropWhile fun c => c == ' ' || c == '\t' with
  | [] => []
  | c :: r => if c == '\n' then c :: r else b

/-- One character; the result has the pieces that have ended. -/
def scanStep : Mode → Str → Char → List Piece × Mode × Str
  | .text, b, c | .after, b, c => if c == '{' then ([], .brace, b) else ([], .text, c :: b)
  | .brace, b, c =>
    if c == '{' then (closeText b, .expr, [])
    else if c == '%' then (closeText (strip b), .block, [])
    else if c == '#' then (closeText (strip b), .comment, [])
    else ([], .text, c :: '{' :: b)
  | .expr, b, c => if c == '}' then ([], .exprEnd, b) else ([], .expr, c :: b)
  | .exprEnd, b, c => if c == '}' then ([.expr b.reverse], .text, []) else ([], .expr, c :: '}' :: b)
  | .block, b, c => if c == '%' then ([], .blockEnd, b) else ([], .block, c :: b)
  | .blockEnd, b, c => if c == '}' then ([.block b.reverse], .after, []) else ([], .block, c :: '%' :: b)
  | .comment, _, c => if c == '#' then ([], .commentEnd, []) else ([], .comment, [])
  | .commentEnd, _, c => if c == '}' then ([], .after, []) else if c == '#' then ([], .commentEnd, []) else ([], .comment, [])

/-- The end of a line; after a block or a comment it is dropped (`trim_blocks`). -/
def endLine : Mode → Str → Mode × Str
  | .after, b => (.text, b)
  | .brace, b => (.text, '\n' :: '{' :: b)
  | m, b => (m, '\n' :: b)

def scanLine (m : Mode) (b : Str) : Str → List Piece × Mode × Str
  | [] => ([], endLine m b)
  | c :: r =>
    let x := scanStep m b c
    let y := scanLine x.2.1 x.2.2 r
    (x.1 ++ y.1, y.2)

/-- The lines of a file.  The last line is not ended. -/
def scanLines (m : Mode) (b : Str) : List Str → List Piece
  | [] => match m with
    | .text => closeText b.tail
    | _ => []
  | l :: ls =>
    let x := scanLine m b l
    x.1 ++ scanLines x.2.1 x.2.2 ls

/-- A newline at the end of the file is dropped (`keep_trailing_newline` is not set). -/
def dropLastLine : List Str → List Str
  | [] => []
  | [l] => match l with
    | [] => []
    | _ => [l]
  | l :: m :: ls => l :: dropLastLine (m :: ls)

def pieces (file : List Str) : List Piece := scanLines .text [] (dropLastLine file)

/-! ## Expressions -/

inductive Var where
  | typedef | field | oneof | _oneof | enum | msg | tmpl_param | id_set | value | loop | environment | _environment
  | TypeOneof | proto_file | dependency | namespace
  deriving DecidableEq, Repr

inductive Attr where
  | get_templates | get_name | name | fields | optional_fields | oneofs | nested_enum_definitions
  | nested_msg_definitions | field_ids | render | render_get_set | render_serialize | render_deserialize
  | get_variable_id_name | variable_id_name | get_variable_name | variable_name | get_default_value | get_type
  | get_short_type | get_cstdint_type | get_type_as_defined | get_base_type | repeated_type | optional | oneof
  | of_type_enum | oneof_allocation_required | get_which_oneof | get_oneof_name | descriptor | type_name | get_fields
  | upper | first | last | assign | init | clear | deserialize | to_string | values | number
  | get_header_guard | get_dependencies | get_namespaces | enum_definitions | msg_definitions
  deriving DecidableEq, Repr

inductive Filter where
  | indent (width : Nat)
  | upper | lower | length | reverse
  deriving DecidableEq, Repr

/-- `|f(n)` -/
def Filter.withArg : Filter → Nat → Option Filter
  | .indent _, n => some (.indent n)
  | _, _ => none

inductive Ex where
  | str (s : Str)
  | nat (n : Nat)
  | var (v : Var)
  | attr (e : Ex) (a : Attr)
  | index (e i : Ex)
  | call (e : Ex)
  | callWith (e a : Ex)
  | callWith2 (e a b : Ex)
  | filter (e : Ex) (f : Filter)
  | isNone (e : Ex)
  | isDefined (e : Ex)
  | not (e : Ex)
  | and (a b : Ex)
  | or (a b : Ex)
  | eq (a b : Ex)
  | ne (a b : Ex)
  | gt (a b : Ex)
  | mem (a b : Ex)
  /-- `a if c else b` -/
  | cond (c a b : Ex)
  deriving DecidableEq, Repr

/-- `e.a()` -/
abbrev Ex.ask (e : Ex) (a : Attr) : Ex := .call (.attr e a)

def variables : List (Str × Var) :=
  [(chars! "typedef", .typedef), (chars! "field", .field), (chars! "oneof", .oneof), (chars! "_oneof", ._oneof),
   (chars! "enum", .enum), (chars! "msg", .msg), (chars! "tmpl_param", .tmpl_param), (chars! "id_set", .id_set),
   (chars! "value", .value), (chars! "loop", .loop), (chars! "environment", .environment),
   (chars! "_environment", ._environment), (chars! "TypeOneof", .TypeOneof), (chars! "proto_file", .proto_file),
   (chars! "dependency", .dependency), (chars! "namespace", .namespace)]

def attributes : List (Str × Attr) :=
  [(chars! "get_templates", .get_templates), (chars! "get_name", .get_name), (chars! "name", .name),
   (chars! "fields", .fields), (chars! "optional_fields", .optional_fields), (chars! "oneofs", .oneofs),
   (chars! "nested_enum_definitions", .nested_enum_definitions),
   (chars! "nested_msg_definitions", .nested_msg_definitions), (chars! "field_ids", .field_ids),
   (chars! "render", .render), (chars! "render_get_set", .render_get_set),
   (chars! "render_serialize", .render_serialize), (chars! "render_deserialize", .render_deserialize),
   (chars! "get_variable_id_name", .get_variable_id_name), (chars! "variable_id_name", .variable_id_name),
   (chars! "get_variable_name", .get_variable_name), (chars! "variable_name", .variable_name),
   (chars! "get_default_value", .get_default_value), (chars! "get_type", .get_type),
   (chars! "get_short_type", .get_short_type), (chars! "get_cstdint_type", .get_cstdint_type),
   (chars! "get_type_as_defined", .get_type_as_defined), (chars! "get_base_type", .get_base_type),
   (chars! "repeated_type", .repeated_type), (chars! "optional", .optional), (chars! "oneof", .oneof),
   (chars! "of_type_enum", .of_type_enum), (chars! "oneof_allocation_required", .oneof_allocation_required),
   (chars! "get_which_oneof", .get_which_oneof), (chars! "get_oneof_name", .get_oneof_name),
   (chars! "descriptor", .descriptor), (chars! "type_name", .type_name), (chars! "get_fields", .get_fields),
   (chars! "upper", .upper), (chars! "first", .first), (chars! "last", .last), (chars! "assign", .assign),
   (chars! "init", .init), (chars! "clear", .clear), (chars! "deserialize", .deserialize),
   (chars! "to_string", .to_string), (chars! "values", .values), (chars! "number", .number),
   (chars! "get_header_guard", .get_header_guard), (chars! "get_dependencies", .get_dependencies),
   (chars! "get_namespaces", .get_namespaces), (chars! "enum_definitions", .enum_definitions),
   (chars! "msg_definitions", .msg_definitions)]

def filters : List (Str × Filter) :=
  [(chars! "indent", .indent 4), (chars! "upper", .upper), (chars! "lower", .lower), (chars! "length", .length),
   (chars! "reverse", .reverse)]

inductive Kw where
  | «if» | «else» | «and» | «or» | «not» | «is» | «in» | none | defined | «elif» | endif | «for» | endfor | «macro»
  | endmacro | «import» | as
  deriving DecidableEq, Repr

def keywordTable : List (Str × Kw) :=
  [(chars! "if", .if), (chars! "else", .else), (chars! "and", .and), (chars! "or", .or), (chars! "not", .not),
   (chars! "is", .is), (chars! "in", .in), (chars! "none", .none), (chars! "defined", .defined),
   (chars! "elif", .elif), (chars! "endif", .endif), (chars! "for", .for), (chars! "endfor", .endfor),
   (chars! "macro", .macro), (chars! "endmacro", .endmacro), (chars! "import", .import), (chars! "as", .as)]

inductive ETok where
  | id (s : Str)
  | kw (k : Kw)
  | str (s : Str)
  | num (n : Nat)
  | eq | ne
  | sym (c : Char)
  deriving DecidableEq, Repr

def identChar (c : Char) : Bool := c.isAlphanum || c == '_'

/-- A word that has ended: its characters, the last one first. -/
def word (b : Str) : List ETok :=
  match b.reverse with
  | [] => []
  | c :: w =>
    if c.isDigit then [.num ((c :: w).foldl (fun n d => 10 * n + (d.toNat - 48)) 0)]
    else match keywordTable.lookup (c :: w) with
      | some k => [.kw k]
      | none => [.id (c :: w)]

inductive EMode where
  | word
  /-- after `=` or `!` -/
  | op (c : Char)
  | quoted (q : Char)
  /-- after a backslash -/
  | escaped (q : Char)

/-- The tokens of an expression. -/
def etoks (m : EMode) (b : Str) : Str → List ETok
  | [] => word b
  | c :: r =>
    match m with
    | .op d => if c == '=' then (if d == '=' then .eq else .ne) :: etoks .word [] r else .sym d :: etoks .word [c] r
    | .escaped q => etoks (.quoted q) ((if c == 'n' then '\n' else c) :: b) r
    | .quoted q =>
      if c == q then .str b.reverse :: etoks .word [] r
      else if c == '\\' then etoks (.escaped q) b r
      else etoks (.quoted q) (c :: b) r
    | .word =>
      if identChar c then etoks .word (c :: b) r
      else word b ++
        (if c == ' ' || c == '\n' then etoks .word [] r
         else if c == '"' || c == '\'' then etoks (.quoted c) [] r
         else if c == '=' || c == '!' then etoks (.op c) [] r
         else .sym c :: etoks .word [] r)

/-- The levels of the grammar of expressions. -/
inductive Level where
  | cond | disj | conj | neg | compare | primary | tail (e : Ex)

/-- Jinja's parser of expressions; the number bounds the depth. -/
def parseEx : Nat → Level → List ETok → Option (Ex × List ETok)
  | 0, _, _ => none
  | n + 1, .cond, ts => do
    let (a, ts) ← parseEx n .disj ts
    match ts with
    | .kw .if :: ts => do
      let (c, ts) ← parseEx n .disj ts
      match ts with
      | .kw .else :: ts => do
        let (b, ts) ← parseEx n .cond ts
        pure (.cond c a b, ts)
      | _ => pure (.cond c a (.str []), ts)
    | _ => pure (a, ts)
  | n + 1, .disj, ts => do
    let (a, ts) ← parseEx n .conj ts
    match ts with
    | .kw .or :: ts => do
      let (b, ts) ← parseEx n .disj ts
      pure (.or a b, ts)
    | _ => pure (a, ts)
  | n + 1, .conj, ts => do
    let (a, ts) ← parseEx n .neg ts
    match ts with
    | .kw .and :: ts => do
      let (b, ts) ← parseEx n .conj ts
      pure (.and a b, ts)
    | _ => pure (a, ts)
  | n + 1, .neg, ts =>
    match ts with
    | .kw .not :: ts => do
      let (a, ts) ← parseEx n .neg ts
      pure (.not a, ts)
    | ts => parseEx n .compare ts
  | n + 1, .compare, ts => do
    let (a, ts) ← parseEx n .primary ts
    match ts with
    | .eq :: ts => do
      let (b, ts) ← parseEx n .primary ts
      pure (.eq a b, ts)
    | .ne :: ts => do
      let (b, ts) ← parseEx n .primary ts
      pure (.ne a b, ts)
    | .sym '>' :: ts => do
      let (b, ts) ← parseEx n .primary ts
      pure (.gt a b, ts)
    | .kw .in :: ts => do
      let (b, ts) ← parseEx n .primary ts
      pure (.mem a b, ts)
    | _ => pure (a, ts)
  | n + 1, .primary, ts =>
    match ts with
    | .str s :: ts => parseEx n (.tail (.str s)) ts
    | .num k :: ts => parseEx n (.tail (.nat k)) ts
    | .id s :: ts =>
      match variables.lookup s with
      | some v => parseEx n (.tail (.var v)) ts
      | none => none
    | .sym '(' :: ts => do
      let (a, ts) ← parseEx n .cond ts
      match ts with
      | .sym ')' :: ts => parseEx n (.tail a) ts
      | _ => none
    | _ => none
  | n + 1, .tail e, ts =>
    match ts with
    | .sym '.' :: .id s :: ts =>
      match attributes.lookup s with
      | some a => parseEx n (.tail (.attr e a)) ts
      | none => none
    | .sym '(' :: .sym ')' :: ts => parseEx n (.tail (.call e)) ts
    | .sym '(' :: ts => do
      let (a, ts) ← parseEx n .cond ts
      match ts with
      | .sym ')' :: ts => parseEx n (.tail (.callWith e a)) ts
      | .sym ',' :: ts => do
        let (b, ts) ← parseEx n .cond ts
        match ts with
        | .sym ')' :: ts => parseEx n (.tail (.callWith2 e a b)) ts
        | _ => none
      | _ => none
    | .sym '[' :: ts => do
      let (i, ts) ← parseEx n .cond ts
      match ts with
      | .sym ']' :: ts => parseEx n (.tail (.index e i)) ts
      | _ => none
    | .sym '|' :: .id s :: ts =>
      match filters.lookup s with
      | some f =>
        match ts with
        | .sym '(' :: .num k :: .sym ')' :: ts => do
          let f ← f.withArg k
          parseEx n (.tail (.filter e f)) ts
        | ts => parseEx n (.tail (.filter e f)) ts
      | none => none
    | .kw .is :: .kw .none :: ts => parseEx n (.tail (.isNone e)) ts
    | .kw .is :: .kw .not :: .kw .none :: ts => parseEx n (.tail (.not (.isNone e))) ts
    | .kw .is :: .kw .defined :: ts => parseEx n (.tail (.isDefined e)) ts
    | ts => some (e, ts)

def parseAll (ts : List ETok) : Option Ex :=
  match parseEx 40 .cond ts with
  | some (e, []) => some e
  | _ => none

/-! ## Templates -/

/-- A sequence of nodes. -/
inductive Nodes where
  | nil
  | text (s : Str) (rest : Nodes)
  | expr (e : Ex) (rest : Nodes)
  | ite (c : Ex) (yes no rest : Nodes)
  | loop (v : Var) (e : Ex) (body rest : Nodes)
  | defn (f : Attr) (body rest : Nodes)
  deriving DecidableEq, Repr

inductive Block where
  | if (c : Ex) | elif (c : Ex) | else | endif
  | for (v : Var) (e : Ex) | endfor
  | macro (f : Attr) | endmacro
  | import
  deriving DecidableEq, Repr

/-- The content of `{% … %}`. -/
def parseBlock (s : Str) : Option Block :=
  match etoks .word [] s with
  | .kw .if :: ts => (parseAll ts).map .if
  | .kw .elif :: ts => (parseAll ts).map .elif
  | [.kw .else] => some .else
  | [.kw .endif] => some .endif
  | .kw .for :: .id x :: .kw .in :: ts => do
    let v ← variables.lookup x
    let e ← parseAll ts
    pure (.for v e)
  | [.kw .endfor] => some .endfor
  | [.kw .macro, .id f, .sym '(', .id x, .sym ')'] =>
    if variables.lookup x = some ._oneof then (attributes.lookup f).map .macro else none
  | [.kw .macro, .id f, .sym '(', .id x, .sym ',', .id y, .sym ')'] =>
    if variables.lookup x = some ._oneof ∧ variables.lookup y = some ._environment
    then (attributes.lookup f).map .macro else none
  | [.kw .endmacro] => some .endmacro
  | [.kw .import, .str _, .kw .as, .id x] => if variables.lookup x = some .TypeOneof then some .import else none
  | _ => none

/-- A piece with its content parsed. -/
inductive Item where
  | text (s : Str)
  | expr (e : Ex)
  | block (b : Block)
  deriving DecidableEq, Repr

def items : List Piece → Option (List Item)
  | [] => some []
  | .text s :: ps => do
    let is ← items ps
    pure (.text s :: is)
  | .expr s :: ps => do
    let e ← parseAll (etoks .word [] s)
    let is ← items ps
    pure (.expr e :: is)
  | .block s :: ps => do
    let b ← parseBlock s
    let is ← items ps
    pure (.block b :: is)

/-- What may come next. -/
inductive Want where
  | nodes
  /-- after the first branch of an `if` -/
  | branch

/-- The nodes up to the end of the enclosing block, and what is left; the number bounds the depth. -/
def parseNodes : Nat → Want → List Item → Option (Nodes × List Item)
  | 0, _, _ => none
  | n + 1, .branch, is =>
    match is with
    | .block .endif :: is => some (.nil, is)
    | .block .else :: is => do
      let (b, is) ← parseNodes n .nodes is
      match is with
      | .block .endif :: is => some (b, is)
      | _ => none
    | .block (.elif c) :: is => do
      let (a, is) ← parseNodes n .nodes is
      let (b, is) ← parseNodes n .branch is
      pure (.ite c a b .nil, is)
    | _ => none
  | n + 1, .nodes, is =>
    match is with
    | .text s :: is => do
      let (r, is) ← parseNodes n .nodes is
      pure (.text s r, is)
    | .expr e :: is => do
      let (r, is) ← parseNodes n .nodes is
      pure (.expr e r, is)
    | .block (.if c) :: is => do
      let (a, is) ← parseNodes n .nodes is
      let (b, is) ← parseNodes n .branch is
      let (r, is) ← parseNodes n .nodes is
      pure (.ite c a b r, is)
    | .block (.for v e) :: is => do
      let (b, is) ← parseNodes n .nodes is
      match is with
      | .block .endfor :: is => do
        let (r, is) ← parseNodes n .nodes is
        pure (.loop v e b r, is)
      | _ => none
    | .block (.macro f) :: is => do
      let (b, is) ← parseNodes n .nodes is
      match is with
      | .block .endmacro :: is => do
        let (r, is) ← parseNodes n .nodes is
        pure (.defn f b r, is)
      | _ => none
    | .block .import :: is => parseNodes n .nodes is
    | is => some (.nil, is)

/-- The template in a file. -/
def parse (file : List Str) : Option Nodes := do
  let is ← items (pieces file)
  match parseNodes 400 .nodes is with
  | some (n, []) => some n
  | _ => none

namespace Nodes

def append : Nodes → Nodes → Nodes
  | nil, b => b
  | text s r, b => text s (r.append b)
  | expr e r, b => expr e (r.append b)
  | ite c x y r, b => ite c x y (r.append b)
  | loop v e x r, b => loop v e x (r.append b)
  | defn f x r, b => defn f x (r.append b)

instance : Append Nodes := ⟨append⟩

/-- The macro with a name. -/
def find (f : Attr) : Nodes → Nodes
  | nil => nil
  | text _ r | expr _ r | ite _ _ _ r | loop _ _ _ r => r.find f
  | defn g b r => if g = f then b else r.find f

end Nodes

end EP.Gen.Jinja
