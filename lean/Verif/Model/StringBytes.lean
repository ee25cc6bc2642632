import Verif.Model.Fields

/-!
# `FieldStringBytes`, `FieldString`, `FieldBytes` — /repo/src/FieldStringBytes.h

A `char` is its byte.  `cap` is the template parameter `MAX_LENGTH`.
-/

namespace EP

variable {ω β : Type}

/-- The data members `current_length_` and `data_` — FieldStringBytes.h:282-286. -/
structure StrObj where
  len : Nat
  data : List Byte
  deriving DecidableEq, Repr

namespace StrObj

/-- FieldStringBytes.h:282-286: member initialisers. -/
def init (cap : Nat) : StrObj := ⟨0, List.replicate cap 0⟩

/-- `get(index)` used as an assignment target (`str[i] = v`, `get(i) = v`) —
FieldStringBytes.h:81-89, 131. -/
def setAt (cap : Nat) (x : StrObj) (index : Nat) (v : Byte) : Res StrObj := do
  let limited := min index (u32sub cap 1)
  let len := if limited ≥ x.len then u32 (limited + 1) else x.len
  let d ← arraySet x.data limited v
  pure ⟨len, d⟩

/-- `get(index)` used as a value: it grows the string too — FieldStringBytes.h:81-89. -/
def getAt (cap : Nat) (x : StrObj) (index : Nat) : Res (Byte × StrObj) := do
  let limited := min index (u32sub cap 1)
  let len := if limited ≥ x.len then u32 (limited + 1) else x.len
  let v ← arrayGet x.data limited
  pure (v, ⟨len, x.data⟩)

/-- `get_const(index)` — FieldStringBytes.h:97-101. -/
def getConst (cap : Nat) (x : StrObj) (index : Nat) : Res Byte :=
  arrayGet x.data (min index (u32sub cap 1))

/-- `get_const(index, value)` — FieldStringBytes.h:109-121. -/
def getConstChecked (x : StrObj) (index : Nat) : Res (Except Error Byte) :=
  if index < x.len then do
    let v ← arrayGet x.data index
    pure (.ok v)
  else pure (.error .indexOutOfBound)

/-- `set(data, length)` — FieldStringBytes.h:159-172.  Only `length` bytes are overwritten. -/
def setData (cap : Nat) (x : StrObj) (bytes : List Byte) : Res (Error × StrObj) :=
  if cap ≥ bytes.length then do
    let d ← arrayCopy x.data 0 bytes
    pure (.noErrors, ⟨bytes.length, d⟩)
  else pure (.arrayFull, x)

/-- `set(rhs)` — FieldStringBytes.h:148-152: `set(rhs.get_const(), rhs.get_length())`. -/
def setFrom (cap : Nat) (x rhs : StrObj) : Res (Error × StrObj) :=
  if rhs.len ≤ rhs.data.length then setData cap x (rhs.data.take rhs.len) else .ub

/-- `operator=` from a field with another maximum length — FieldStringBytes.h:310-315, 441-446:
`set(rhs.get_const(), rhs.get_length())`, without a look at the returned error. -/
def assignOther (cap : Nat) (x rhs : StrObj) : Res StrObj := do
  let (_, x) ← setFrom cap x rhs
  pure x

/-- `clear()` — FieldStringBytes.h:263-267. -/
def clear (cap : Nat) (_ : StrObj) : StrObj := ⟨0, List.replicate cap 0⟩

/-- `set_length(length)` — FieldStringBytes.h:275. -/
def setLength (cap : Nat) (x : StrObj) (n : Nat) : StrObj := { x with len := min n cap }

/-- `strnlen(s, len)` on the characters of a C string (`s` excludes the terminator) —
FieldStringBytes.h:399-407. -/
def strnlen (s : List Byte) (n : Nat) : Nat := min n s.length

/-- `strncpy(dst, s, n)`: copy up to `n` characters, padding with NUL after the terminator. -/
def strncpySrc (s : List Byte) (n : Nat) : List Byte := s.take n ++ List.replicate (n - s.length) 0

/-- `FieldString::set(const char*)` with a non-null pointer to the NUL terminated characters `s` —
FieldStringBytes.h:335-350.  (`nullptr` is `clear`.)  Longer strings are silently truncated. -/
def setCStr (cap : Nat) (x : StrObj) (s : List Byte) : Res StrObj := do
  let x := x.setLength cap (strnlen s (u32 (cap + 1)))
  let n := if cap > x.len then u32 (x.len + 1) else x.len
  let d ← arrayCopy x.data 0 (strncpySrc s n)
  pure { x with data := d }

/-- The text a C function reads through the `const char*` returned by `x()` (FieldString_GetSet.h:86) or
`get_const()` (FieldStringBytes.h:94): up to the first NUL.  Without one in the array it reads on behind
it. -/
def cText (x : StrObj) : Res (List Byte) :=
  if 0 ∈ x.data then .ok (x.data.takeWhile (· ≠ 0)) else .ub

/-- `serialize(buffer)` — FieldStringBytes.h:206-216.  `&(data_[0])` needs a non-empty array. -/
def serialize [WriteBuffer ω] (x : StrObj) (w : ω) : Res (Error × ω) :=
  if x.data.length = 0 ∨ x.data.length < x.len then .ub
  else do
    let (r, w) ← WriteBuffer.pushBytes w (x.data.take x.len)
    pure (pushError r, w)

/-- `serialize_with_id` — FieldStringBytes.h:175-204. -/
def serializeWithId [WriteBuffer ω] (num : Nat) (x : StrObj) (w : ω) (optional : Bool) :
    Res (Error × ω) :=
  if 0 < x.len ∨ optional then
    if x.len ≤ WriteBuffer.getAvailableSize w then do
      let (e, w) ← serializeVarint (makeTag num .lengthDelimited) w
      let (e, w) ← (if e = .noErrors then serializeVarint (BitVec.ofNat 32 x.len) w
                    else pure (e, w) : Res (Error × ω))
      if e = .noErrors ∧ 0 < x.len then serialize x w else pure (e, w)
    else pure (.bufferFull, w)
  else pure (.noErrors, w)

/-- The `while` loop of `deserialize` — FieldStringBytes.h:229-233.  `n` is
`availiable - current_length_`. -/
def readLoop [ReadBuffer β] : Nat → β → StrObj → Res (β × StrObj)
  | 0, b, x => pure (b, x)
  | n + 1, b, x => do
    let (r, b) ← ReadBuffer.pop b
    match r with
    | none => pure (b, x)
    | some byte => do
      let d ← arraySet x.data x.len byte
      readLoop n b ⟨u32 (x.len + 1), d⟩

/-- `deserialize(buffer)` — FieldStringBytes.h:218-248. -/
def deserialize [ReadBuffer β] (cap : Nat) (b : β) (x : StrObj) : Res (Error × β × StrObj) := do
  let (r, b) ← deserializeVarint 32 b
  match r with
  | .error e => pure (e, b, x)
  | .ok v =>
    let available := v.toNat
    if cap ≥ available then do
      let (b, x) ← readLoop available b (clear cap x)
      if x.len ≠ available then pure (.endOfBuffer, b, x) else pure (.noErrors, b, x)
    else pure (.arrayFull, b, x)

end StrObj

/-- `FieldString<MAX_LENGTH>` / `FieldBytes<MAX_LENGTH>`; the two classes behave identically on
the wire — FieldStringBytes.h:50-470. -/
def strClass (cap : Nat) : FieldClass where
  State := StrObj
  kind := .stringBytes
  init := StrObj.init cap
  serialize x w := x.serialize w
  serializeWithId num x w opt := x.serializeWithId num w opt
  deserialize _ b x := StrObj.deserialize cap b x
  deserializeCheckType _ b wt x :=                          -- FieldStringBytes.h:250-260
    if wt = .lengthDelimited then StrObj.deserialize cap b x else pure (.invalidWiretype, b, x)
  clear x := pure (x.clear cap)
  -- implicit copy assignment: all members (the template operator= at :310 is not a copy
  -- assignment operator and loses against the implicit one for equal types)
  assign _ rhs := pure rhs
  -- set_x(rhs) { x_.set(rhs); } — FieldString_GetSet.h:83; the error code is dropped
  set x rhs := do
    let (_, x) ← x.setFrom cap rhs
    pure x
  plainGuard _ := true                                      -- FieldStringBytes_Serialize.h:33

end EP
