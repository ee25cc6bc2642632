import Verif.Spec.HeaderRequest
import Verif.Spec.HeaderChars
import Verif.Spec.Schema

/-!
# What the types in a header mean

A reader of the C++ types and literals in the generated classes, independent of the tables of the generator: the names of
the library are those of Fields.h:441-456, FieldStringBytes.h and RepeatedFieldFixedSize.h.
-/

namespace EP.Gen.Cpp

open Jinja

/-- The type of a member of a class. -/
inductive MemberTy where
  | one (t : ElemTy)
  | many (n : Nat) (t : ElemTy)

/-- What the other names in a type stand for. -/
structure Names where
  /-- template parameters -/
  number : Str → Option Nat
  /-- classes, with their arguments -/
  message : List Str → List Nat → Option ElemTy
  enum : List Str → Bool

/-- A number in decimal digits, or the name of one. -/
def numberOf (N : Names) (x : Str) : Option Nat :=
  if x ≠ [] ∧ x.all Char.isDigit = true then some (Nat.ofDigitChars 10 x 0) else N.number x

/-- The classes of the library for scalars — Fields.h:441-453. -/
def library : List (Str × ScalarTy) :=
  [(chars! "int32", .int32), (chars! "int64", .int64), (chars! "uint32", .uint32), (chars! "uint64", .uint64),
   (chars! "sint32", .sint32), (chars! "sint64", .sint64), (chars! "boolean", .boolean), (chars! "fixed32", .fixed32),
   (chars! "fixed64", .fixed64), (chars! "sfixed32", .sfixed32), (chars! "sfixed64", .sfixed64),
   (chars! "floatfixed", .floatfixed), (chars! "doublefixed", .doublefixed)]

/-- `a::b::c`, and what comes after it. -/
def readPath : List Tok → List Str × List Tok
  | .id x :: .sym ':' :: .sym ':' :: r => (x :: (readPath r).1, (readPath r).2)
  | .id x :: r => ([x], r)
  | r => ([], r)

/-- `a, b, c>` -/
def readArgs : List Tok → Option (List Str)
  | [.id x, .sym '>'] => some [x]
  | .id x :: .sym ',' :: r => (readArgs r).map (x :: ·)
  | _ => none

/-- `<a, b, c>`, or nothing. -/
def readTemplate : List Tok → Option (List Str)
  | [] => some []
  | .sym '<' :: r => readArgs r
  | _ => none

/-- The namespace of the library. -/
def librarySpace : Str := chars! "EmbeddedProto"

/-- `::EmbeddedProto::FieldString<n>` and `::EmbeddedProto::FieldBytes<n>`. -/
def readString (N : Names) : List Tok → Option ElemTy
  | [.sym ':', .sym ':', .id ns, .sym ':', .sym ':', .id x, .sym '<', .id n, .sym '>'] =>
    if ns = librarySpace ∧ (x = chars! "FieldString" ∨ x = chars! "FieldBytes") then (numberOf N n).map .str else none
  | _ => none

/-- The type of a value. -/
def readElem (N : Names) (ts : List Tok) : Option ElemTy :=
  if ts.head? = some (.sym ':') then readString N ts
  else if (readPath ts).1.head? = some librarySpace then
    match (readPath ts).1, (readPath ts).2 with
    | [_, x], [] => (library.lookup x).map .scalar
    | [_, x], .sym '<' :: r =>
      if x = chars! "enumeration" ∧ (readPath r).2 = [.sym '>'] ∧ N.enum (readPath r).1 = true then
        some (.scalar .enumeration)
      else none
    | _, _ => none
  else ((readTemplate (readPath ts).2).bind (·.mapM (numberOf N))).bind (N.message (readPath ts).1)

/-- The beginning of the type of a repeated field. -/
def repeatedHead : List Tok :=
  [.sym ':', .sym ':', .id librarySpace, .sym ':', .sym ':', .id (chars! "RepeatedFieldFixedSize"), .sym '<']

/-- The type of a member: `::EmbeddedProto::RepeatedFieldFixedSize<type, n>`, or that of a value. -/
def readMember (N : Names) (ts : List Tok) : Option MemberTy :=
  if ts.take 7 = repeatedHead then
    match (ts.drop 7).reverse with
    | .sym '>' :: .id n :: .sym ',' :: r =>
      (numberOf N n).bind fun n => (readElem N r.reverse).map (.many n)
    | _ => none
  else (readElem N ts).map .one

/-- The members outside oneofs. -/
def fieldMembers : Fields → List MemberTy
  | .nil => []
  | .plain _ t rest => .one t :: fieldMembers rest
  | .optional _ t rest => .one t :: fieldMembers rest
  | .repeated _ n t rest => .many n t :: fieldMembers rest

/-- The members of a union. -/
def altMembers : Alts → List ElemTy
  | .nil => []
  | .cons _ t rest => t :: altMembers rest

/-- The members of the unions. -/
def oneofMembers : Oneofs → List (List ElemTy)
  | .nil => []
  | .cons a rest => altMembers a :: oneofMembers rest

/-! ## Values -/

/-- Fundamental types. -/
inductive CType where
  | signed (bits : Nat) | unsigned (bits : Nat) | bool | float | double
  deriving DecidableEq, Repr

/-- A fundamental type, or one of `<cstdint>`. -/
def readType : List Tok → Option CType
  | [.id x] =>
    if x = chars! "int32_t" then some (.signed 32)
    else if x = chars! "int64_t" then some (.signed 64)
    else if x = chars! "uint32_t" then some (.unsigned 32)
    else if x = chars! "uint64_t" then some (.unsigned 64)
    else if x = chars! "bool" then some .bool
    else if x = chars! "float" then some .float
    else if x = chars! "double" then some .double
    else none
  | _ => none

/-- The type of the value in a field of the library — Fields.h:441-453; for an enum it is that enum. -/
def variableType : ScalarTy → Option CType
  | .int32 | .sint32 | .sfixed32 => some (.signed 32)
  | .int64 | .sint64 | .sfixed64 => some (.signed 64)
  | .uint32 | .fixed32 => some (.unsigned 32)
  | .uint64 | .fixed64 => some (.unsigned 64)
  | .boolean => some .bool
  | .floatfixed => some .float
  | .doublefixed => some .double
  | .enumeration => none

/-- A template parameter: its type and its name. -/
def readParam (ts : List Tok) : Option (CType × Str) :=
  match ts.flatMap Tok.expand with
  | [.id t, .id x] => (readType [.id t]).map (·, x)
  | _ => none

/-! ## Enums -/

/-- Decimal digits. -/
def digits (x : Str) : Option Nat :=
  if x ≠ [] ∧ x.all Char.isDigit = true then some (Nat.ofDigitChars 10 x 0) else none

/-- `A = 1, B = -2 };` -/
def readValues : List Tok → Option (List (Str × Int))
  | [.sym '}', .sym ';'] => some []
  | [.id v, .sym '=', .id x, .sym '}', .sym ';'] => (digits x).map fun n => [(v, (n : Int))]
  | [.id v, .sym '=', .sym '-', .id x, .sym '}', .sym ';'] => (digits x).map fun n => [(v, -(n : Int))]
  | .id v :: .sym '=' :: .id x :: .sym ',' :: r =>
    (digits x).bind fun n => (readValues r).map ((v, (n : Int)) :: ·)
  | .id v :: .sym '=' :: .sym '-' :: .id x :: .sym ',' :: r =>
    (digits x).bind fun n => (readValues r).map ((v, -(n : Int)) :: ·)
  | _ => none

/-- The declaration of an enum. -/
structure EnumDecl where
  name : Str
  /-- the underlying type -/
  type : CType
  values : List (Str × Int)
  deriving DecidableEq, Repr

/-- `enum class E : type { … };` -/
def readEnum : List Tok → Option EnumDecl
  | .id e :: .id c :: .id name :: .sym ':' :: .id t :: .sym '{' :: r =>
    if e = chars! "enum" ∧ c = chars! "class" then
      (readType [.id t]).bind fun t => (readValues r).map fun l => ⟨name, t, l⟩
    else none
  | _ => none

/-! ## Literals -/

/-- A literal. -/
inductive Literal where
  | int (n : Nat) (unsigned : Bool)
  /-- `n` with the point before the last `e` digits -/
  | real (n e : Nat)
  | bool (b : Bool)
  deriving DecidableEq, Repr

/-- `12`, `12U`, `1.5`, `true`, `false`. -/
def readLiteral : List Tok → Option Literal
  | [.id x] =>
    if x = chars! "true" then some (.bool true)
    else if x = chars! "false" then some (.bool false)
    else if x ≠ [] ∧ x.all Char.isDigit = true then some (.int (Nat.ofDigitChars 10 x 0) false)
    else if x.getLast? = some 'U' ∧ x.dropLast ≠ [] ∧ x.dropLast.all Char.isDigit = true then
      some (.int (Nat.ofDigitChars 10 x.dropLast 0) true)
    else none
  | [.id x, .sym '.', .id y] =>
    if x ≠ [] ∧ y ≠ [] ∧ (x ++ y).all Char.isDigit = true then some (.real (Nat.ofDigitChars 10 (x ++ y) 0) y.length) else none
  | _ => none

/-- The value of a literal of the kind of the type; of floating point numbers only zero is needed. -/
def Literal.value : (s : ScalarTy) → Literal → Option s.Val
  | .int32, .int n false | .sint32, .int n false | .sfixed32, .int n false => some (BitVec.ofNat 32 n)
  | .int64, .int n false | .sint64, .int n false | .sfixed64, .int n false => some (BitVec.ofNat 64 n)
  | .uint32, .int n true | .fixed32, .int n true => some (BitVec.ofNat 32 n)
  | .uint64, .int n true | .fixed64, .int n true => some (BitVec.ofNat 64 n)
  | .boolean, .bool b => some b
  | .floatfixed, .real 0 _ => some (0 : BitVec 32)
  | .doublefixed, .real 0 _ => some (0 : BitVec 64)
  | _, _ => none

end EP.Gen.Cpp
