import Verif.Model.GenClass
import Verif.Model.ToString

/-!
# `to_string` of the class the templates emit

/repo/generator/EmbeddedProto/templates/TypeDefMsg.h:273-352 and TypeOneof.h:142-160, with the names of the header.
As in `GenClass`, the text is represented by syntax trees; what does not depend on the message is written in the
interpreter.
-/

namespace EP.Gen

/-- The characters of a C string literal. -/
def literal (s : Str) : List Byte := s.map fun c => BitVec.ofNat 8 c.toNat

/-- A statement of `to_string`. -/
inductive Show where
  /-- `left_chars = x.to_string(left_chars, indent_level + 2, c, first);` -/
  | field (x : Place) (c : Str) (first : Bool)
  /-- `left_chars = f(left_chars, indent_level + 2, first);` -/
  | oneof (f : Str) (first : Bool)
  deriving DecidableEq, Repr

/-- The names in `to_string_o`. -/
structure ShowOneof where
  which : Str
  /-- `case FieldNumber::id: left_chars = x.to_string(left_chars, indent_level, c, first_field); break;` -/
  cases : List (Str × Place × Str)
  deriving DecidableEq, Repr

structure Shows where
  statements : List Show
  funs : List (Str × ShowOneof)
  deriving DecidableEq, Repr

/-- `{% for field in typedef.fields %}` — TypeDefMsg.h:326-330; the argument is `loop.first`.  Nothing is emitted for a
`FieldErrorRecursive`, but it counts. -/
def showFields : Bool → List GField → List Show
  | _, [] => []
  | first, g :: gs =>
    (if g.shape = .recursive then [] else [.field (.var (under g.desc.name)) (constName g.desc.name) first]) ++
      showFields false gs

/-- `{% for oneof in typedef.oneofs %}` — TypeDefMsg.h:331-333; the argument is
`(typedef.fields|length == 0) and loop.first`. -/
def showOneofs : Bool → List GOneof → List Show
  | _, [] => []
  | first, o :: os => .oneof (toStringName o.name) first :: showOneofs false os

/-- The macro `to_string` — TypeOneof.h:142-160. -/
def showOneof (o : GOneof) : ShowOneof where
  which := whichName o.name
  cases := o.fields.map fun g =>
    (upper g.desc.name, .alt (under o.name) (under g.desc.name), constName g.desc.name)

def renderShows (m : GMessage) : Shows where
  statements := showFields true m.fields ++ showOneofs (m.fields.length == 0) m.oneofs
  funs := m.oneofs.map fun o => (toStringName o.name, showOneof o)

/-- `to_string` of a data member that is not in a union. -/
def memberToString (P : Printer) (path : List Nat) : (c : Card) → (t : ElemTy) → (c.cls t).State → TextView → Nat →
    List Byte → Bool → Res TextView
  | .single, t, x, v, indent, name, first => t.toString P path x v indent (some name) first
  | .opt, t, x, v, indent, name, first => t.toString P path x v indent (some name) first
  | .rep cap, t, x, v, indent, name, first =>
    RepObj.toString (fun e v n fst => t.toString P path e v n none fst) cap x v indent name first

namespace Class
variable (K : Class) (S : Shows) (P : Printer) (path : List Nat) (o : K.Obj) (indent : Nat)

/-- `x.to_string(left_chars, indent_level, c, first)`; `path` says which message this is, for the names in nested
messages. -/
def showPlace (x : Place) (c : Str) (first : Bool) (v : TextView) : Res TextView := do
  let name ← need (K.consts.lookup c)
  match x with
  | .var x =>
    match findVar K.fs K.vars x with
    | some s => memberToString P (s.num :: path) s.c s.t (s.slot.state 0 o.fields) v indent (literal name) first
    | none => .ub
  | .alt u x =>
    match findUnion (·.var == u) K.os K.unions with
    | some u =>
      match findMember u.alts u.members x with
      | some m => do
        let w ← need ((u.slot.state o.oneofs).live.bind m.member.projState)
        m.t.toString P (m.num :: path) w v indent (some (literal name)) first
      | none => .ub
    | none => .ub

def showStmt (v : TextView) : Show → Res TextView
  | .field x c first => K.showPlace P path o indent x c first v
  | .oneof f first => do
    let s ← need (S.funs.lookup f)
    let n ← K.getWhich s.which o
    let b ← K.select n s.cases
    match b with
    | some (x, c) => K.showPlace P path o indent x c first v
    | none => pure v

/-- `to_string(str, indent_level, name, first_field)` — TypeDefMsg.h:280-351. -/
def runToString (name : Option (List Byte)) (first : Bool) (v : TextView) : Res TextView := do
  let v ← v.printComma first
  let v ← (match name with
    | some n =>
      if indent = 0 then v.print (ascii "\"" ++ n ++ ascii "\": {\n")
      else v.print (padding indent ++ ascii "\"" ++ n ++ ascii "\": {\n")
    | none =>
      if indent = 0 then v.print (ascii "{\n") else v.print (padding indent ++ ascii "{\n"))
  let v ← S.statements.foldlM (K.showStmt S P path o (indent + 2)) v
  if indent = 0 then v.print (ascii "\n}") else v.print (ascii "\n" ++ padding indent ++ ascii "}")

end Class

end EP.Gen
