import Verif.Spec.Text

/-!
# JSON

A reader of JSON texts (RFC 8259) on lists of bytes.  That the bytes are UTF-8 is not checked, and `\u` stands for one
code point (pairs of surrogates are not put together).
-/

namespace EP.Json

inductive JVal where
  | null
  | bool (b : Bool)
  /-- a number without fraction and exponent -/
  | int (i : Int)
  /-- any other number, as it is written -/
  | real (text : List Byte)
  | str (s : List Byte)
  | arr (vs : List JVal)
  | obj (ms : List (List Byte × JVal))

def isWs (b : Byte) : Bool := b == 0x20 || b == 0x0A || b == 0x0D || b == 0x09

def skipWs (l : List Byte) : List Byte := l.dropWhile isWs

/-! ## Numbers -/

def isDigit (b : Byte) : Bool := 0x30 ≤ b.toNat && b.toNat ≤ 0x39

/-- The characters numbers consist of. -/
def isNumChar (b : Byte) : Bool := isDigit b || b == 0x2B || b == 0x2D || b == 0x2E || b == 0x65 || b == 0x45

/-- At least one digit; what comes behind all digits. -/
def digits : List Byte → Option (List Byte)
  | [] => none
  | b :: r => if isDigit b then some (r.dropWhile isDigit) else none

/-- `0`, or digits that do not begin with it. -/
def intPart : List Byte → Option (List Byte)
  | [] => none
  | b :: r => if b = 0x30 then some r else digits (b :: r)

def minus : List Byte → List Byte
  | [] => []
  | b :: r => if b = 0x2D then r else b :: r

def fracPart : List Byte → Option (List Byte)
  | [] => some []
  | b :: r => if b = 0x2E then digits r else some (b :: r)

def sign : List Byte → List Byte
  | [] => []
  | b :: r => if b = 0x2B ∨ b = 0x2D then r else b :: r

def expPart : List Byte → Option (List Byte)
  | [] => some []
  | b :: r => if b = 0x65 ∨ b = 0x45 then digits (sign r) else some (b :: r)

/-- `[ minus ] int [ frac ] [ exp ]` -/
def isNumber (l : List Byte) : Bool := ((intPart (minus l)).bind fun l => (fracPart l).bind expPart) == some []

/-- The number written with these digits. -/
def natOf (l : List Byte) : Nat := l.foldl (fun n b => 10 * n + (b.toNat - 0x30)) 0

def numberOf (l : List Byte) : JVal :=
  if (minus l).all isDigit then .int (if l.head? = some 0x2D then -(natOf (minus l)) else natOf (minus l)) else .real l

/-! ## Strings -/

/-- What stands behind a backslash, other than `u`. -/
def escape (b : Byte) : Option Byte :=
  if b = 0x22 ∨ b = 0x5C ∨ b = 0x2F then some b
  else if b = 0x62 then some 0x08 else if b = 0x66 then some 0x0C else if b = 0x6E then some 0x0A
  else if b = 0x72 then some 0x0D else if b = 0x74 then some 0x09 else none

def hexDigit (b : Byte) : Option Nat :=
  if isDigit b then some (b.toNat - 0x30)
  else if 0x41 ≤ b.toNat ∧ b.toNat ≤ 0x46 then some (b.toNat - 0x37)
  else if 0x61 ≤ b.toNat ∧ b.toNat ≤ 0x66 then some (b.toNat - 0x57) else none

/-- UTF-8 of a code point below `0x10000`. -/
def utf8 (n : Nat) : List Byte :=
  (if n < 0x80 then [n] else if n < 0x800 then [0xC0 + n / 64, 0x80 + n % 64]
    else [0xE0 + n / 4096, 0x80 + n / 64 % 64, 0x80 + n % 64]).map (BitVec.ofNat 8)

def hexCode (a b c d : Byte) : Option Nat := do
  pure ((((← hexDigit a) * 16 + (← hexDigit b)) * 16 + (← hexDigit c)) * 16 + (← hexDigit d))

/-- The rest of a string, up to and including the closing quotation mark, and what follows it. -/
def string : List Byte → Option (List Byte × List Byte)
  | [] => none
  | b :: r =>
    if b = 0x22 then some ([], r)
    else if b = 0x5C then
      match r with
      | [] => none
      | c :: r =>
        match escape c with
        | some e => (string r).map fun p => (e :: p.1, p.2)
        | none =>
          if c = 0x75 then
            match r with
            | h1 :: h2 :: h3 :: h4 :: r => do
              let n ← hexCode h1 h2 h3 h4
              let p ← string r
              pure (utf8 n ++ p.1, p.2)
            | _ => none
          else none
    else if b.toNat < 0x20 then none
    else (string r).map fun p => (b :: p.1, p.2)

/-! ## Values -/

/-- The rest of the text behind these characters. -/
def after (text l : List Byte) : Option (List Byte) := if text.isPrefixOf l then some (l.drop text.length) else none

mutual
/-- A value and what follows it.  The number bounds the depth of the recursion. -/
def value : Nat → List Byte → Option (JVal × List Byte)
  | 0, _ => none
  | n + 1, l =>
    match skipWs l with
    | [] => none
    | b :: r =>
      if b = 0x7B then
        match skipWs r with
        | [] => none
        | c :: r => if c = 0x7D then some (.obj [], r) else (members n (c :: r)).map fun p => (.obj p.1, p.2)
      else if b = 0x5B then
        match skipWs r with
        | [] => none
        | c :: r => if c = 0x5D then some (.arr [], r) else (elements n (c :: r)).map fun p => (.arr p.1, p.2)
      else if b = 0x22 then (string r).map fun p => (.str p.1, p.2)
      else match after (ascii "true") (b :: r), after (ascii "false") (b :: r), after (ascii "null") (b :: r) with
        | some r, _, _ => some (.bool true, r)
        | _, some r, _ => some (.bool false, r)
        | _, _, some r => some (.null, r)
        | none, none, none =>
          if isNumber ((b :: r).takeWhile isNumChar) then
            some (numberOf ((b :: r).takeWhile isNumChar), (b :: r).dropWhile isNumChar)
          else none
/-- The members of an object, at least one, up to and including the closing brace. -/
def members : Nat → List Byte → Option (List (List Byte × JVal) × List Byte)
  | 0, _ => none
  | n + 1, l =>
    match skipWs l with
    | [] => none
    | b :: r =>
      if b = 0x22 then do
        let (name, r) ← string r
        let r ← after (ascii ":") (skipWs r)
        let (v, r) ← value n r
        match skipWs r with
        | [] => none
        | c :: r =>
          if c = 0x2C then (members n r).map fun p => ((name, v) :: p.1, p.2)
          else if c = 0x7D then some ([(name, v)], r) else none
      else none
/-- The elements of an array, at least one, up to and including the closing bracket. -/
def elements : Nat → List Byte → Option (List JVal × List Byte)
  | 0, _ => none
  | n + 1, l => do
    let (v, r) ← value n l
    match skipWs r with
    | [] => none
    | c :: r =>
      if c = 0x2C then (elements n r).map fun p => (v :: p.1, p.2)
      else if c = 0x5D then some ([v], r) else none
end

/-- The value of a JSON text. -/
def parse (l : List Byte) : Option JVal :=
  match value (l.length + 1) l with
  | some (v, r) => if (skipWs r).isEmpty then some v else none
  | none => none

end EP.Json

namespace EP
open Json

/-! ## The JSON value of a message -/

def ScalarTy.json (P : Printer) : (s : ScalarTy) → s.Val → JVal
  | .int32, v => .int (BitVec.toInt (n := 32) v)
  | .sint32, v => .int (BitVec.toInt (n := 32) v)
  | .sfixed32, v => .int (BitVec.toInt (n := 32) v)
  | .enumeration, v => .int (BitVec.toInt (n := 32) v)
  | .int64, v => .int (BitVec.toInt (n := 64) v)
  | .sint64, v => .int (BitVec.toInt (n := 64) v)
  | .sfixed64, v => .int (BitVec.toInt (n := 64) v)
  | .uint32, v => .int (BitVec.toNat (w := 32) v)
  | .fixed32, v => .int (BitVec.toNat (w := 32) v)
  | .uint64, v => .int (BitVec.toNat (w := 64) v)
  | .fixed64, v => .int (BitVec.toNat (w := 64) v)
  | .boolean, v => .bool v
  | .floatfixed, v => numberOf (P.float v)
  | .doublefixed, v => numberOf (P.double v)

mutual
/-- A message is an object with a member for every field and every oneof that is set; a field that is not present has its
default value, a `bytes` field is an array of numbers. -/
def ElemTy.json (P : Printer) : (t : ElemTy) → List Nat → t.Val → JVal
  | .scalar s, _, v => s.json P v
  | .str _, path, v => if P.isBytes path then .arr (List.map (fun b : Byte => .int b.toNat) v) else .str v
  | .msg fs os, path, v => .obj (fs.json P path v.1 ++ os.json P path v.2)
def Fields.json (P : Printer) : (fs : Fields) → List Nat → fs.Val → List (List Byte × JVal)
  | .nil, _, _ => []
  | .plain num t rest, path, v => (P.name (num :: path), t.json P (num :: path) v.1) :: rest.json P path v.2
  | .optional num t rest, path, v =>
    (P.name (num :: path), t.json P (num :: path) (v.1.getD t.dflt)) :: rest.json P path v.2
  | .repeated num _ t rest, path, v =>
    (P.name (num :: path), .arr (List.map (t.json P (num :: path)) v.1)) :: rest.json P path v.2
def Alts.json (P : Printer) : (a : Alts) → List Nat → a.Val → List (List Byte × JVal)
  | .nil, _, _ => []
  | .cons num t _, path, .inl v => [(P.name (num :: path), t.json P (num :: path) v)]
  | .cons _ _ rest, path, .inr v => rest.json P path v
def Oneofs.json (P : Printer) : (os : Oneofs) → List Nat → os.Val → List (List Byte × JVal)
  | .nil, _, _ => []
  | .cons a rest, path, v =>
    (match v.1 with
      | none => []
      | some w => a.json P path w) ++ rest.json P path v.2
end

/-- Characters that stand for themselves in a JSON string. -/
def PlainText (s : List Byte) : Prop := ∀ b ∈ s, b ≠ 0x22 ∧ b ≠ 0x5C ∧ 0x20 ≤ b.toNat

/-- No oneof is set. -/
def Oneofs.NoneSet : (os : Oneofs) → os.Val → Prop
  | .nil, _ => True
  | .cons _ rest, v => v.1.isSome = false ∧ rest.NoneSet v.2

/-- If any oneof is set the first one is. -/
def Oneofs.Leading : (os : Oneofs) → os.Val → Prop
  | .nil, _ => True
  | .cons _ rest, v => v.1.isSome = true ∨ rest.NoneSet v.2

/-- The text of the value is a JSON text. -/
def ScalarTy.Readable (P : Printer) : (s : ScalarTy) → s.Val → Prop
  | .floatfixed, v => isNumber (P.float v) = true
  | .doublefixed, v => isNumber (P.double v) = true
  | _, _ => True

mutual
/-- No string has characters that would need an escape, `%f` gives numbers (it does not for infinity and NaN), and in a
message without other fields the first oneof is set if any is. -/
def ElemTy.Readable (P : Printer) : (t : ElemTy) → List Nat → t.Val → Prop
  | .scalar s, _, v => s.Readable P v
  | .str _, path, v => P.isBytes path = true ∨ PlainText v
  | .msg fs os, path, v =>
    fs.Readable P path v.1 ∧ os.Readable P path v.2 ∧ (fs.numbers = [] → os.Leading v.2)
def Fields.Readable (P : Printer) : (fs : Fields) → List Nat → fs.Val → Prop
  | .nil, _, _ => True
  | .plain num t rest, path, v => t.Readable P (num :: path) v.1 ∧ rest.Readable P path v.2
  | .optional num t rest, path, v =>
    t.Readable P (num :: path) (v.1.getD t.dflt) ∧ rest.Readable P path v.2
  | .repeated num _ t rest, path, v =>
    (∀ x ∈ (v.1 : List t.Val), t.Readable P (num :: path) x) ∧ rest.Readable P path v.2
def Alts.Readable (P : Printer) : (a : Alts) → List Nat → a.Val → Prop
  | .nil, _, _ => True
  | .cons num t _, path, .inl v => t.Readable P (num :: path) v
  | .cons _ _ rest, path, .inr v => rest.Readable P path v
def Oneofs.Readable (P : Printer) : (os : Oneofs) → List Nat → os.Val → Prop
  | .nil, _, _ => True
  | .cons a rest, path, v => (∀ w ∈ (v.1 : Option a.Val), a.Readable P path w) ∧ rest.Readable P path v.2
end

/-- At most one oneof. -/
def Oneofs.Single : Oneofs → Prop
  | .cons _ (.cons _ _) => False
  | _ => True

mutual
/-- A type of which every value is readable: no `string`, `float` or `double` at any depth, and in every message a field
outside the oneofs, or only one oneof. -/
def ElemTy.AlwaysReadable (P : Printer) : ElemTy → List Nat → Prop
  | .scalar s, _ => s ≠ .floatfixed ∧ s ≠ .doublefixed
  | .str _, path => P.isBytes path = true
  | .msg fs os, path => fs.AlwaysReadable P path ∧ os.AlwaysReadable P path ∧ (fs.numbers = [] → os.Single)
def Fields.AlwaysReadable (P : Printer) : Fields → List Nat → Prop
  | .nil, _ => True
  | .plain num t rest, path => t.AlwaysReadable P (num :: path) ∧ rest.AlwaysReadable P path
  | .optional num t rest, path => t.AlwaysReadable P (num :: path) ∧ rest.AlwaysReadable P path
  | .repeated num _ t rest, path => t.AlwaysReadable P (num :: path) ∧ rest.AlwaysReadable P path
def Alts.AlwaysReadable (P : Printer) : Alts → List Nat → Prop
  | .nil, _ => True
  | .cons num t rest, path => t.AlwaysReadable P (num :: path) ∧ rest.AlwaysReadable P path
def Oneofs.AlwaysReadable (P : Printer) : Oneofs → List Nat → Prop
  | .nil, _ => True
  | .cons a rest, path => a.AlwaysReadable P path ∧ rest.AlwaysReadable P path
end

/-- Some oneof has a member. -/
def Oneofs.Settable : Oneofs → Prop
  | .nil => False
  | .cons a rest => a.numbers ≠ [] ∨ rest.Settable

/-- No oneof but the first has a member. -/
def Oneofs.OnlyFirst : Oneofs → Prop
  | .nil => True
  | .cons _ rest => ¬ rest.Settable

mutual
/-- No `string`, `float` or `double` in any place where there can be a value, and in every message a field outside the oneofs,
or only one oneof. -/
def ElemTy.Safe (P : Printer) : ElemTy → List Nat → Prop
  | .scalar s, _ => s ≠ .floatfixed ∧ s ≠ .doublefixed
  | .str cap, path => P.isBytes path = true ∨ cap = 0
  | .msg fs os, path => fs.Safe P path ∧ os.Safe P path ∧ (fs.numbers = [] → os.OnlyFirst)
def Fields.Safe (P : Printer) : Fields → List Nat → Prop
  | .nil, _ => True
  | .plain num t rest, path => t.Safe P (num :: path) ∧ rest.Safe P path
  | .optional num t rest, path => t.Safe P (num :: path) ∧ rest.Safe P path
  | .repeated num cap t rest, path => (cap = 0 ∨ t.Safe P (num :: path)) ∧ rest.Safe P path
def Alts.Safe (P : Printer) : Alts → List Nat → Prop
  | .nil, _ => True
  | .cons num t rest, path => t.Safe P (num :: path) ∧ rest.Safe P path
def Oneofs.Safe (P : Printer) : Oneofs → List Nat → Prop
  | .nil, _ => True
  | .cons a rest, path => a.Safe P path ∧ rest.Safe P path
end

/-- The first oneof is not set and another one is. -/
def Oneofs.Trailing : (os : Oneofs) → os.Val → Prop
  | .nil, _ => False
  | .cons _ rest, v => v.1.isSome = false ∧ ¬ rest.NoneSet v.2

end EP
