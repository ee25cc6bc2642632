import Verif.Model.Fields

/-!
# The functions of `WireFormatter` that write a field with its tag — /repo/src/WireFormatter.h

These functions are not called by the generated code: they are for programs that write or read
messages by hand.  As in `Verif.Model.WireFormatter` an integer is its bits, and a `float` or `double`
its bit pattern.
-/

namespace EP

variable {ω β : Type}

/-- `SerializeInt<INT_TYPE>` — WireFormatter.h:195-207; `w` is 32 for `int32_t`, 64 for `int64_t`. -/
def serializeInt [WriteBuffer ω] {w : Nat} (fieldNumber : Nat) (value : BitVec w) (buf : ω) :
    Res (Error × ω) := do
  let (returnValue, buf) ← serializeVarint (makeTag fieldNumber .varint) buf
  if returnValue = .noErrors then serializeVarint value buf else pure (returnValue, buf)

/-- `SerializeUInt<UINT_TYPE>` — WireFormatter.h:209-219. -/
def serializeUInt [WriteBuffer ω] {w : Nat} (fieldNumber : Nat) (value : BitVec w) (buf : ω) :
    Res (Error × ω) := do
  let (returnValue, buf) ← serializeVarint (makeTag fieldNumber .varint) buf
  if returnValue = .noErrors then serializeVarint value buf else pure (returnValue, buf)

/-- `SerializeSInt<INT_TYPE>` — WireFormatter.h:221-231. -/
def serializeSInt [WriteBuffer ω] {w : Nat} (fieldNumber : Nat) (value : BitVec w) (buf : ω) :
    Res (Error × ω) := do
  let (returnValue, buf) ← serializeVarint (makeTag fieldNumber .varint) buf
  if returnValue = .noErrors then serializeVarint (zigZagEncode value) buf
  else pure (returnValue, buf)

/-- `SerializeFixed(uint32_t, uint32_t, …)` — WireFormatter.h:233-242. -/
def serializeFixed32 [WriteBuffer ω] (fieldNumber : Nat) (value : BitVec 32) (buf : ω) :
    Res (Error × ω) := do
  let (returnValue, buf) ← serializeVarint (makeTag fieldNumber .fixed32) buf
  if returnValue = .noErrors then serializeFixed value buf else pure (returnValue, buf)

/-- `SerializeFixed(uint32_t, uint64_t, …)` — WireFormatter.h:244-253. -/
def serializeFixed64 [WriteBuffer ω] (fieldNumber : Nat) (value : BitVec 64) (buf : ω) :
    Res (Error × ω) := do
  let (returnValue, buf) ← serializeVarint (makeTag fieldNumber .fixed64) buf
  if returnValue = .noErrors then serializeFixed value buf else pure (returnValue, buf)

/-- `SerializeSFixed(uint32_t, int32_t, …)` — WireFormatter.h:255-264. -/
def serializeSFixed32 [WriteBuffer ω] (fieldNumber : Nat) (value : BitVec 32) (buf : ω) :
    Res (Error × ω) := do
  let (returnValue, buf) ← serializeVarint (makeTag fieldNumber .fixed32) buf
  if returnValue = .noErrors then serializeFixed value buf else pure (returnValue, buf)

/-- `SerializeSFixed(uint32_t, int64_t, …)` — WireFormatter.h:266-275. -/
def serializeSFixed64 [WriteBuffer ω] (fieldNumber : Nat) (value : BitVec 64) (buf : ω) :
    Res (Error × ω) := do
  let (returnValue, buf) ← serializeVarint (makeTag fieldNumber .fixed64) buf
  if returnValue = .noErrors then serializeFixed value buf else pure (returnValue, buf)

/-- `SerializeFloat` — WireFormatter.h:277-286. -/
def serializeFloat [WriteBuffer ω] (fieldNumber : Nat) (value : BitVec 32) (buf : ω) :
    Res (Error × ω) := do
  let (returnValue, buf) ← serializeVarint (makeTag fieldNumber .fixed32) buf
  if returnValue = .noErrors then serializeFixed value buf else pure (returnValue, buf)

/-- `SerializeDouble` — WireFormatter.h:288-297. -/
def serializeDouble [WriteBuffer ω] (fieldNumber : Nat) (value : BitVec 64) (buf : ω) :
    Res (Error × ω) := do
  let (returnValue, buf) ← serializeVarint (makeTag fieldNumber .fixed64) buf
  if returnValue = .noErrors then serializeFixed value buf else pure (returnValue, buf)

/-- `SerializeBool` — WireFormatter.h:299-309. -/
def serializeBool [WriteBuffer ω] (fieldNumber : Nat) (value : Bool) (buf : ω) :
    Res (Error × ω) := do
  let (returnValue, buf) ← serializeVarint (makeTag fieldNumber .varint) buf
  if returnValue = .noErrors then do
    let byte : Byte := if value then 0x01 else 0x00
    let (r, buf) ← WriteBuffer.push buf byte
    pure (if r then .noErrors else .bufferFull, buf)
  else pure (returnValue, buf)

/-- `SerializeEnum` — WireFormatter.h:311-320; the parameter is a `uint32_t`. -/
def serializeEnum [WriteBuffer ω] (fieldNumber : Nat) (value : BitVec 32) (buf : ω) :
    Res (Error × ω) := do
  let (returnValue, buf) ← serializeVarint (makeTag fieldNumber .varint) buf
  if returnValue = .noErrors then serializeVarint value buf else pure (returnValue, buf)

/-- `DeserializeEnum<ENUM_TYPE>` — WireFormatter.h:499-510: a 64 bit varint, cast to the enum, whose
underlying type (`uint32_t` in generated code, TypeDefEnum.h) has 32 bits. -/
def deserializeEnum [ReadBuffer β] (buf : β) : Res (Except Error (BitVec 32) × β) := do
  let (result, buf) ← deserializeVarint 64 buf
  pure (result.map (fun tempValue => tempValue.setWidth 32), buf)

/-! ## Programs that write and read by hand -/

/-- The call by which a program writes a field of a protobuf type. -/
def ScalarTy.put [WriteBuffer ω] (num : Nat) : (s : ScalarTy) → s.Val → ω → Res (Error × ω)
  | .int32, v, w => serializeInt (w := 32) num v w
  | .int64, v, w => serializeInt (w := 64) num v w
  | .uint32, v, w => serializeUInt (w := 32) num v w
  | .uint64, v, w => serializeUInt (w := 64) num v w
  | .sint32, v, w => serializeSInt (w := 32) num v w
  | .sint64, v, w => serializeSInt (w := 64) num v w
  | .boolean, v, w => serializeBool num v w
  | .enumeration, v, w => serializeEnum num v w
  | .fixed32, v, w => serializeFixed32 num v w
  | .fixed64, v, w => serializeFixed64 num v w
  | .sfixed32, v, w => serializeSFixed32 num v w
  | .sfixed64, v, w => serializeSFixed64 num v w
  | .floatfixed, v, w => serializeFloat num v w
  | .doublefixed, v, w => serializeDouble num v w

/-- The call by which a program reads the value of a field of a protobuf type, after its tag. -/
def ScalarTy.get [ReadBuffer β] : (s : ScalarTy) → β → Res (Except Error s.Val × β)
  | .int32, b => deserializeInt 32 b
  | .int64, b => deserializeInt 64 b
  | .uint32, b => deserializeVarint 32 b
  | .uint64, b => deserializeVarint 64 b
  | .sint32, b => deserializeSInt 32 b
  | .sint64, b => deserializeSInt 64 b
  | .boolean, b => deserializeBool b
  | .enumeration, b => deserializeEnum b
  | .fixed32, b => deserializeFixed 32 b
  | .fixed64, b => deserializeFixed 64 b
  | .sfixed32, b => deserializeFixed 32 b
  | .sfixed64, b => deserializeFixed 64 b
  | .floatfixed, b => deserializeFixed 32 b
  | .doublefixed, b => deserializeFixed 64 b

/-- A field that a program writes or has read: its number, its type and its value. -/
structure HandField where
  num : Nat
  ty : ScalarTy
  val : ty.Val

/-- Write these fields one after the other, up to the first error. -/
def putAll [WriteBuffer ω] : List HandField → ω → Res (Error × ω)
  | [], w => pure (.noErrors, w)
  | f :: fs, w => do
    let (e, w) ← f.ty.put f.num f.val w
    if e = .noErrors then putAll fs w else pure (e, w)

/-- Read a tag and, as `dispatch` says for its number and wire type, a value; `none` is a field the
program does not know, at which it stops with an error of its own. -/
def getOne [ReadBuffer β] (dispatch : Nat → WireType → Option ScalarTy) (b : β) :
    Res (Except Error HandField × β) := do
  let (r, b) ← deserializeTag b
  match r with
  | .error e => pure (.error e, b)
  | .ok (wt, num) =>
    match dispatch num wt with
    | none => pure (.error .invalidFieldId, b)
    | some s => do
      let (r, b) ← s.get b
      pure (r.map (fun v => ⟨num, s, v⟩), b)

/-- Read `n` fields one after the other, up to the first error. -/
def getAll [ReadBuffer β] (dispatch : Nat → WireType → Option ScalarTy) :
    Nat → β → Res (Except Error (List HandField) × β)
  | 0, b => pure (.ok [], b)
  | n + 1, b => do
    let (r, b) ← getOne dispatch b
    match r with
    | .error e => pure (.error e, b)
    | .ok f => do
      let (r, b) ← getAll dispatch n b
      pure (r.map (f :: ·), b)

/-! ## `N_BYTES_IN_VARINT` -/

/-- A positive `float` `mantissa * 2 ^ (-scale)`, with `2 ^ 23 ≤ mantissa < 2 ^ 24`. -/
structure PosFloat where
  mantissa : Nat
  scale : Nat

/-- The division of two positive integers as `float`s, correctly rounded (ties to even), for a quotient
from `1` up to `2 ^ 23`: the scale is the one that gives 24 bits. -/
def floatQuotient (a b : Nat) : PosFloat :=
  let scale := 23 - Nat.log2 (a / b)
  let q := a * 2 ^ scale / b
  let r := a * 2 ^ scale % b
  ⟨if b < 2 * r ∨ (2 * r = b ∧ q % 2 = 1) then q + 1 else q, scale⟩

/-- `constexpr_ceil` of a positive `float` — WireFormatter.h:65-70: the truncated value, compared as a
`float` with the argument, and one more if it differs. -/
def constexprCeil (x : PosFloat) : Nat :=
  let truncated := x.mantissa / 2 ^ x.scale
  if truncated * 2 ^ x.scale = x.mantissa then truncated else truncated + 1

/-- `N_DIGITS / N_BITS_FLOAT`, rounded up by `constexpr_ceil`, is what the model uses in
`DeserializeVarint` — WireFormatter.h:556-560. -/
theorem nBytesInVarint_eq (w : Nat) (h : w = 32 ∨ w = 64) :
    nBytesInVarint w = constexprCeil (floatQuotient w 7) := by
  rcases h with rfl | rfl <;> decide +kernel

end EP
