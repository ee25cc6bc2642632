import Verif.Model.Schema
import Verif.Spec.Text

/-!
# `to_string` — the code under `MSG_TO_STRING`

/repo/src/Fields.h:234-331, /repo/src/FieldStringBytes.h:352-390, 432-483, /repo/src/RepeatedField.h:260-303,
/repo/generator/EmbeddedProto/templates/TypeDefMsg.h:273-352, TypeOneof.h:142-160.

Simplified: `indent_level` is a natural number (in C++ `uint32_t`, passed to `%*s` as `int`); `%f` is a
parameter; `%ld` is taken to fit `int64_t`.
-/

namespace EP

/-- `string_view` (/repo/src/Defines.h:75-83) into the array `mem` of the caller: `data` points to `mem[pos]`. -/
structure TextView where
  mem : List Byte
  pos : Nat
  size : Nat
  deriving DecidableEq, Repr

namespace TextView

/-- `snprintf(left_chars.data, left_chars.size, …)` where the whole text is `text`: at most `size - 1`
characters and a NUL are written; the result is the length of the whole text.  If that is no `int` the
result is negative and what is written is not specified. -/
def snprintf (v : TextView) (text : List Byte) : Res (Nat × TextView) :=
  if text.length < 2147483648 then
    if v.size = 0 then pure (text.length, v)
    else do
      let m ← arrayCopy v.mem v.pos (text.take (v.size - 1) ++ [0])
      pure (text.length, { v with mem := m })
  else .ub

/-- `if(0 < n_chars_used) { left_chars.data += n_chars_used; left_chars.size -= n_chars_used; }`: a pointer
may not be moved further than just behind the array. -/
def advance (v : TextView) (n : Nat) : Res TextView :=
  if 0 < n then
    if v.pos + n ≤ v.mem.length then pure { v with pos := v.pos + n, size := u32sub v.size n } else .ub
  else pure v

/-- The two together, with the number of characters. -/
def printN (v : TextView) (text : List Byte) : Res (Nat × TextView) := do
  let (n, v) ← v.snprintf text
  let v ← v.advance n
  pure (n, v)

def print (v : TextView) (text : List Byte) : Res TextView := do
  let (_, v) ← v.printN text
  pure v

/-- `if(!first_field) { … ",\n" … }` -/
def printComma (v : TextView) (first : Bool) : Res TextView := if first then pure v else v.print (ascii ",\n")

end TextView

/-- `%*s` with a width and the argument `" "`. -/
def padding (n : Nat) : List Byte := List.replicate (n - 1) 0x20 ++ ascii " "

/-- `FieldTemplate::to_string` — Fields.h:244-331. -/
def ScalarTy.toString (P : Printer) (s : ScalarTy) (x : s.Val) (v : TextView) (indent : Nat)
    (name : Option (List Byte)) (first : Bool) : Res TextView := do
  let v ← v.printComma first
  let v ← (match name with
    | some n => v.print (padding indent ++ ascii "\"" ++ n ++ ascii "\": ")
    | none => v.print (padding indent))
  v.print (s.text P x)

namespace StrObj

/-- `FieldString::to_string` — FieldStringBytes.h:354-386. -/
def toString (x : StrObj) (v : TextView) (indent : Nat) (name : Option (List Byte)) (first : Bool) :
    Res TextView := do
  let v ← v.printComma first
  let s ← x.cText
  match name with
  | some n => v.print (padding indent ++ ascii "\"" ++ n ++ ascii "\": \"" ++ s ++ ascii "\"")
  | none => v.print (padding indent ++ ascii "\"" ++ s ++ ascii "\"")

/-- The loop of `FieldBytes::to_string` — FieldStringBytes.h:466-471.  `n` is `get_length() - i`. -/
def toStringLoop (P : Printer) (cap : Nat) (x : StrObj) (indent : Nat) : Nat → Nat → TextView → Res TextView
  | 0, _, v => pure v
  | n + 1, i, v => do
    let b ← x.getConst cap i
    let v ← ScalarTy.toString P .uint32 (b.setWidth 32) v indent none (i == 0)
    toStringLoop P cap x indent n (i + 1) v

/-- `FieldBytes::to_string` — FieldStringBytes.h:434-481. -/
def toStringBytes (P : Printer) (cap : Nat) (x : StrObj) (v : TextView) (indent : Nat)
    (name : Option (List Byte)) (first : Bool) : Res TextView := do
  let v ← v.printComma first
  let (n, v) ← (match name with
    | some n => v.printN (padding indent ++ ascii "\"" ++ n ++ ascii "\": [\n")
    | none => v.printN (padding indent ++ ascii "[\n"))
  let v ← x.toStringLoop P cap n x.len 0 v
  v.print (ascii "\n" ++ padding (n - 2) ++ ascii "]")

end StrObj

namespace RepObj
variable {α : Type}

/-- The loop of `RepeatedField::to_string` — RepeatedField.h:287-290.  `elem` is `to_string` of the elements
without a name; `n` is `get_length() - i`. -/
def toStringLoop (elem : α → TextView → Nat → Bool → Res TextView) (cap : Nat) (x : RepObj α) (indent : Nat) :
    Nat → Nat → TextView → Res TextView
  | 0, _, v => pure v
  | n + 1, i, v => do
    let e ← x.getConst cap i
    let v ← elem e v indent (i == 0)
    toStringLoop elem cap x indent n (i + 1) v

/-- `RepeatedField::to_string` — RepeatedField.h:262-301. -/
def toString (elem : α → TextView → Nat → Bool → Res TextView) (cap : Nat) (x : RepObj α) (v : TextView)
    (indent : Nat) (name : List Byte) (first : Bool) : Res TextView := do
  let v ← v.printComma first
  let (n, v) ← v.printN (padding indent ++ ascii "\"" ++ name ++ ascii "\": [\n")
  let v ← x.toStringLoop elem cap n x.len 0 v
  v.print (ascii "\n" ++ padding (n - 2) ++ ascii "]")

end RepObj

mutual
/-- `to_string` of the class generated for a type; `path` says which field it is. -/
def ElemTy.toString (P : Printer) : (t : ElemTy) → List Nat → t.cls.State → TextView → Nat →
    Option (List Byte) → Bool → Res TextView
  | .scalar s, _, x, v, indent, name, first => ScalarTy.toString P s x v indent name first
  | .str cap, path, x, v, indent, name, first =>
    if P.isBytes path then StrObj.toStringBytes P cap x v indent name first
    else StrObj.toString x v indent name first
  | .msg fs os, path, x, v, indent, name, first => do       -- TypeDefMsg.h:280-351
    let v ← v.printComma first
    let v ← (match name with
      | some n =>
        if indent = 0 then v.print (ascii "\"" ++ n ++ ascii "\": {\n")
        else v.print (padding indent ++ ascii "\"" ++ n ++ ascii "\": {\n")
      | none =>
        if indent = 0 then v.print (ascii "{\n") else v.print (padding indent ++ ascii "{\n"))
    let v ← fs.toString P 0 path (MsgObj.fields x) v (indent + 2) true
    let v ← os.toString P path (MsgObj.oneofs x) v (indent + 2) (fs.numbers.length == 0)
    if indent = 0 then v.print (ascii "\n}") else v.print (ascii "\n" ++ padding indent ++ ascii "}")
/-- `{% for field in typedef.fields %}` — TypeDefMsg.h:326-330; `first` is `loop.first`. -/
def Fields.toString (P : Printer) : (fs : Fields) → (idx : Nat) → List Nat → (fs.cls idx).State → TextView → Nat →
    Bool → Res TextView
  | .nil, _, _, _, v, _, _ => pure v
  | .plain num t rest, idx, path, x, v, indent, first => do
    let v ← t.toString P (num :: path) x.1 v indent (some (P.name (num :: path))) first
    rest.toString P idx path x.2 v indent false
  | .optional num t rest, idx, path, x, v, indent, first => do
    let v ← t.toString P (num :: path) x.1 v indent (some (P.name (num :: path))) first
    rest.toString P (idx + 1) path x.2 v indent false
  | .repeated num cap t rest, idx, path, x, v, indent, first => do
    let v ← RepObj.toString (fun e v n fst => t.toString P (num :: path) e v n none fst) cap x.1 v indent
      (P.name (num :: path)) first
    rest.toString P idx path x.2 v indent false
/-- The `switch` of `to_string_x` — TypeOneof.h:147-156. -/
def Alts.toString (P : Printer) : (a : Alts) → List Nat → Nat → Option a.cls.U → TextView → Nat → Bool →
    Res TextView
  | .nil, _, _, _, v, _, _ => pure v
  | .cons num t rest, path, which, u, v, indent, first =>
    if which = num then do
      let x ← AltsClass.access (AltsClass.left? u)
      t.toString P (num :: path) x v indent (some (P.name (num :: path))) first
    else rest.toString P path which (AltsClass.right? u) v indent first
/-- `{% for oneof in typedef.oneofs %}` — TypeDefMsg.h:331-333. -/
def Oneofs.toString (P : Printer) : (os : Oneofs) → List Nat → os.cls.State → TextView → Nat → Bool → Res TextView
  | .nil, _, _, v, _, _ => pure v
  | .cons a rest, path, x, v, indent, first => do
    let v ← a.toString P path x.1.which x.1.live v indent first
    rest.toString P path x.2 v indent false
end

end EP
