import Verif.Spec.Value

/-!
# The text shown by `to_string`

What `to_string` should write for a value, as a list of bytes.  The layout (what is put on a new line and how
far it is indented) is the one of the code; everything else is independent of it.
-/

namespace EP

/-- The bytes of a text of ASCII characters. -/
def ascii (s : String) : List Byte := s.toList.map fun c => BitVec.ofNat 8 c.toNat

/-- What the text depends on besides the value.  A path is the list of field numbers from the message that
is shown to a field, innermost first. -/
structure Printer where
  /-- the name of the field -/
  name : List Nat → List Byte
  /-- is it a `bytes` field (not a `string`)? -/
  isBytes : List Nat → Bool
  /-- `%f` of a `float` and of a `double` -/
  float : BitVec 32 → List Byte
  double : BitVec 64 → List Byte
  float_ne : ∀ v, float v ≠ []
  double_ne : ∀ v, double v ≠ []

/-- Decimal digits. -/
def decimal (n : Nat) : List Byte := ascii (Nat.repr n)

def decimalInt (i : Int) : List Byte := if i < 0 then ascii "-" ++ decimal i.natAbs else decimal i.natAbs

/-- A value of a scalar type. -/
def ScalarTy.text (P : Printer) : (s : ScalarTy) → s.Val → List Byte
  | .int32, v => decimalInt (BitVec.toInt (n := 32) v)
  | .sint32, v => decimalInt (BitVec.toInt (n := 32) v)
  | .sfixed32, v => decimalInt (BitVec.toInt (n := 32) v)
  | .enumeration, v => decimalInt (BitVec.toInt (n := 32) v)
  | .int64, v => decimalInt (BitVec.toInt (n := 64) v)
  | .sint64, v => decimalInt (BitVec.toInt (n := 64) v)
  | .sfixed64, v => decimalInt (BitVec.toInt (n := 64) v)
  | .uint32, v => decimal (BitVec.toNat (w := 32) v)
  | .fixed32, v => decimal (BitVec.toNat (w := 32) v)
  | .uint64, v => decimal (BitVec.toNat (w := 64) v)
  | .fixed64, v => decimal (BitVec.toNat (w := 64) v)
  | .boolean, v => if v then ascii "true" else ascii "false"
  | .floatfixed, v => P.float v
  | .doublefixed, v => P.double v

namespace Spec

def spaces (n : Nat) : List Byte := List.replicate (max n 1) 0x20

def quoted (s : List Byte) : List Byte := ascii "\"" ++ s ++ ascii "\""

/-- What separates a field from the one before. -/
def comma (first : Bool) : List Byte := if first then [] else ascii ",\n"

/-- Indentation and name. -/
def label (indent : Nat) : Option (List Byte) → List Byte
  | some n => spaces indent ++ quoted n ++ ascii ": "
  | none => spaces indent

/-- The same for a message, which at the outermost level has no indentation. -/
def openLabel (indent : Nat) (name : Option (List Byte)) : List Byte :=
  if indent = 0 then (match name with | some n => quoted n ++ ascii ": " | none => []) else label indent name

/-- The elements of a list, one after the other; `true` for the first. -/
def textElems {V : Type} (f : V → Bool → List Byte) : List V → Bool → List Byte
  | [], _ => []
  | v :: vs, first => f v first ++ textElems f vs false

/-- A list in brackets.  Elements are indented by the length of the opening line. -/
def textList {V : Type} (f : Nat → V → Bool → List Byte) (opening : List Byte) (vs : List V) : List Byte :=
  opening ++ textElems (f opening.length) vs true ++ ascii "\n" ++ spaces (opening.length - 2) ++ ascii "]"

def textScalar (P : Printer) (s : ScalarTy) (v : s.Val) (indent : Nat) (name : Option (List Byte)) (first : Bool) :
    List Byte :=
  comma first ++ label indent name ++ s.text P v

end Spec
open Spec

mutual
/-- The text of a value of a declared type. -/
def ElemTy.text (P : Printer) : (t : ElemTy) → List Nat → t.Val → Nat → Option (List Byte) → Bool → List Byte
  | .scalar s, _, v, indent, name, first => textScalar P s v indent name first
  | .str _, path, v, indent, name, first =>
    if P.isBytes path then
      comma first ++ textList (fun n (b : Byte) fst => textScalar P .uint32 (b.setWidth 32) n none fst)
        (label indent name ++ ascii "[\n") v
    else comma first ++ label indent name ++ quoted v
  | .msg fs os, path, v, indent, name, first =>
    comma first ++ openLabel indent name ++ ascii "{\n" ++
    fs.text P path v.1 (indent + 2) true ++ os.text P path v.2 (indent + 2) (fs.numbers = []) ++
    ascii "\n" ++ (if indent = 0 then [] else spaces indent) ++ ascii "}"
/-- The text of the fields.  A field that is not present is shown with its default value. -/
def Fields.text (P : Printer) : (fs : Fields) → List Nat → fs.Val → Nat → Bool → List Byte
  | .nil, _, _, _, _ => []
  | .plain num t rest, path, v, indent, first =>
    t.text P (num :: path) v.1 indent (some (P.name (num :: path))) first ++ rest.text P path v.2 indent false
  | .optional num t rest, path, v, indent, first =>
    t.text P (num :: path) (v.1.getD t.dflt) indent (some (P.name (num :: path))) first ++
      rest.text P path v.2 indent false
  | .repeated num _ t rest, path, v, indent, first =>
    comma first ++ textList (fun n v fst => t.text P (num :: path) v n none fst)
      (label indent (some (P.name (num :: path))) ++ ascii "[\n") v.1 ++ rest.text P path v.2 indent false
/-- The text of the member that is set. -/
def Alts.text (P : Printer) : (a : Alts) → List Nat → a.Val → Nat → Bool → List Byte
  | .nil, _, _, _, _ => []
  | .cons num t _, path, .inl v, indent, first =>
    t.text P (num :: path) v indent (some (P.name (num :: path))) first
  | .cons _ _ rest, path, .inr v, indent, first => rest.text P path v indent first
/-- The text of the oneofs.  One that is not set shows nothing. -/
def Oneofs.text (P : Printer) : (os : Oneofs) → List Nat → os.Val → Nat → Bool → List Byte
  | .nil, _, _, _, _ => []
  | .cons a rest, path, v, indent, first =>
    (match v.1 with
      | none => []
      | some w => a.text P path w indent first) ++ rest.text P path v.2 indent false
end

end EP
