import Verif.Model.Fields
import Verif.Spec.Number

/-!
# Comparison operators of scalar fields — /repo/src/Fields.h:203-223

`a == b`, … for two scalar fields compare `value_` with `rhs.get()` by the built-in operator, after the usual
arithmetic conversions.  Modelled for all integral types (`bool` included), `float` and `double` in all combinations,
and for two fields of the same enum type; an enum with any other type does not compile.  An integer that is no
`float` or `double` is rounded to the nearest, to even in the middle, as in the default rounding mode of IEEE 754.
-/

namespace EP

/-! ## Integers -/

/-- The types the usual arithmetic conversions can lead to. -/
inductive CInt where
  | int32 | uint32 | int64 | uint64
  deriving DecidableEq, Repr

/-- `VARIABLE_TYPE` (Fields.h:441-453) after integral promotion: `bool` becomes `int`. -/
def ScalarTy.cInt : ScalarTy → Option CInt
  | .int32 | .sint32 | .sfixed32 | .boolean => some .int32
  | .uint32 | .fixed32 => some .uint32
  | .int64 | .sint64 | .sfixed64 => some .int64
  | .uint64 | .fixed64 => some .uint64
  | .enumeration | .floatfixed | .doublefixed => none

/-- The common type of the usual arithmetic conversions: an unsigned type wins over a signed type that is
not wider. -/
def CInt.common : CInt → CInt → CInt
  | .uint64, _ => .uint64
  | _, .uint64 => .uint64
  | .int64, _ => .int64
  | _, .int64 => .int64
  | .uint32, _ => .uint32
  | _, .uint32 => .uint32
  | .int32, .int32 => .int32

/-- The value, in 64 bits. -/
def ScalarTy.wide : (s : ScalarTy) → s.Val → BitVec 64
  | .boolean, v => if v then 1 else 0
  | .int64, v => v
  | .uint64, v => v
  | .sint64, v => v
  | .fixed64, v => v
  | .sfixed64, v => v
  | .doublefixed, v => v
  | .int32, v => BitVec.signExtend 64 (w := 32) v
  | .sint32, v => BitVec.signExtend 64 (w := 32) v
  | .sfixed32, v => BitVec.signExtend 64 (w := 32) v
  | .uint32, v => BitVec.setWidth 64 (w := 32) v
  | .enumeration, v => BitVec.setWidth 64 (w := 32) v
  | .fixed32, v => BitVec.setWidth 64 (w := 32) v
  | .floatfixed, v => BitVec.setWidth 64 (w := 32) v

/-- Conversion of a value to an integer type: modulo the width. -/
def CInt.convert : CInt → BitVec 64 → BitVec 64
  | .int32, v => (v.setWidth 32).signExtend 64
  | .uint32, v => (v.setWidth 32).setWidth 64
  | .int64, v => v
  | .uint64, v => v

/-- The built-in comparison at the common type. -/
def CInt.compare (c : CInt) (op : CmpOp) (a b : BitVec 64) : Bool :=
  match c, op with
  | _, .eq => a == b
  | _, .ne => !(a == b)
  | .int32, .lt => a.slt b
  | .int32, .gt => b.slt a
  | .int32, .le => a.sle b
  | .int32, .ge => b.sle a
  | .int64, .lt => a.slt b
  | .int64, .gt => b.slt a
  | .int64, .le => a.sle b
  | .int64, .ge => b.sle a
  | .uint32, .lt => a.ult b
  | .uint32, .gt => b.ult a
  | .uint32, .le => a.ule b
  | .uint32, .ge => b.ule a
  | .uint64, .lt => a.ult b
  | .uint64, .gt => b.ult a
  | .uint64, .le => a.ule b
  | .uint64, .ge => b.ule a

/-! ## IEEE 754 numbers with `p` bits of fraction, as sign and magnitude -/

structure FBits where
  p : Nat
  neg : Bool
  mag : Nat

def FBits.float (v : BitVec 32) : FBits := ⟨23, v.msb, (v.setWidth 31).toNat⟩
def FBits.double (v : BitVec 64) : FBits := ⟨52, v.msb, (v.setWidth 63).toNat⟩

/-- The magnitude of infinity; greater ones are not a number. -/
def FBits.inf (p : Nat) : Nat := if p = 23 then 255 * 2 ^ 23 else 2047 * 2 ^ 52

def FBits.isNaN (a : FBits) : Bool := decide (FBits.inf a.p < a.mag)

def FBits.eq (a b : FBits) : Bool :=
  !a.isNaN && !b.isNaN && ((a.neg == b.neg && a.mag == b.mag) || (a.mag == 0 && b.mag == 0))

def FBits.lt (a b : FBits) : Bool :=
  !a.isNaN && !b.isNaN &&
    match a.neg, b.neg with
    | false, false => decide (a.mag < b.mag)
    | true, true => decide (b.mag < a.mag)
    | true, false => !(a.mag == 0 && b.mag == 0)
    | false, true => false

def FBits.compare (op : CmpOp) (a b : FBits) : Bool :=
  match op with
  | .eq => a.eq b
  | .ne => !a.eq b
  | .lt => a.lt b
  | .gt => b.lt a
  | .le => a.lt b || a.eq b
  | .ge => b.lt a || a.eq b

/-! ## Conversions to floating point -/

def FBits.bias (p : Nat) : Nat := if p = 23 then 127 else 1023

/-- The magnitude of the natural number `n`: the leading `p + 1` bits, rounded.  A carry out of the fraction goes into
the exponent. -/
def roundMag (p n : Nat) : Nat :=
  if n = 0 then 0 else
    let k := n.log2
    let q := n * 2 ^ p / 2 ^ k
    let r := n * 2 ^ p % 2 ^ k
    let up := if 2 * r > 2 ^ k ∨ (2 * r = 2 ^ k ∧ q % 2 = 1) then 1 else 0
    (k + FBits.bias p) * 2 ^ p + (q - 2 ^ p) + up

/-- An integer as floating point number. -/
def CInt.toFBits (p : Nat) : CInt → BitVec 64 → FBits
  | .int32, v => ⟨p, v.msb, roundMag p v.toInt.natAbs⟩
  | .int64, v => ⟨p, v.msb, roundMag p v.toInt.natAbs⟩
  | .uint32, v => ⟨p, false, roundMag p v.toNat⟩
  | .uint64, v => ⟨p, false, roundMag p v.toNat⟩

/-- A `float` as `double`: the exponent has another bias, denormal numbers become normal ones. -/
def FBits.toDouble (a : FBits) : FBits :=
  let e := a.mag / 2 ^ 23
  let f := a.mag % 2 ^ 23
  ⟨52, a.neg,
    if e = 255 then 2047 * 2 ^ 52 + f * 2 ^ 29
    else if e ≠ 0 then (e + 896) * 2 ^ 52 + f * 2 ^ 29
    else if f = 0 then 0
    else (f.log2 + 874) * 2 ^ 52 + (f * 2 ^ (52 - f.log2) - 2 ^ 52)⟩

/-! ## The operators -/

/-- The types for which a comparison compiles. -/
def ScalarTy.comparable : ScalarTy → ScalarTy → Bool
  | .enumeration, .enumeration => true
  | .enumeration, _ => false
  | _, .enumeration => false
  | _, _ => true

/-- `value_ op rhs.get()` — Fields.h:203-223. -/
def ScalarTy.compare (op : CmpOp) (s t : ScalarTy) (a : s.Val) (b : t.Val) : Bool :=
  let x := s.wide a
  let y := t.wide b
  match s.cInt, t.cInt with
  | some c, some d => (c.common d).compare op ((c.common d).convert x) ((c.common d).convert y)
  | some c, none =>
    match t with
    | .floatfixed => FBits.compare op (c.toFBits 23 x) (.float (y.setWidth 32))
    | _ => FBits.compare op (c.toFBits 52 x) (.double y)
  | none, some d =>
    match s with
    | .floatfixed => FBits.compare op (.float (x.setWidth 32)) (d.toFBits 23 y)
    | _ => FBits.compare op (.double x) (d.toFBits 52 y)
  | none, none =>
    match s, t with
    | .floatfixed, .floatfixed => FBits.compare op (.float (x.setWidth 32)) (.float (y.setWidth 32))
    | .floatfixed, .doublefixed => FBits.compare op (FBits.float (x.setWidth 32)).toDouble (.double y)
    | .doublefixed, .floatfixed => FBits.compare op (.double x) (FBits.float (y.setWidth 32)).toDouble
    | .doublefixed, .doublefixed => FBits.compare op (.double x) (.double y)
    -- the same scoped enum, underlying type `uint32_t` (TypeDefEnum.h:30)
    | _, _ => CInt.uint32.compare op x y

end EP
