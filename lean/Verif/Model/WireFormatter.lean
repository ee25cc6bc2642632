import Verif.Model.Buffers

/-!
# `class WireFormatter` — /repo/src/WireFormatter.h

`UINT_TYPE` (`uint32_t` or `uint64_t`) is `BitVec w`, `INT_TYPE` is the same bits read as two's
complement.  A C++ function `Error f(buffer, T& value)` that writes `value` only when it returns
`NO_ERRORS` is modelled as returning `Except Error T`.
-/

namespace EP

variable {ω β : Type}

/-- The `bool` of a `push` turned into an error code, as every caller does. -/
def pushError (ok : Bool) : Error := if ok then .noErrors else .bufferFull

/-! ## Encoding helpers -/

/-- `ZigZagEncode` — WireFormatter.h:94-104: `(u(n) << 1) ^ u(n >> (digits - 1))`, arithmetic
right shift. -/
def zigZagEncode {w : Nat} (n : BitVec w) : BitVec w := (n <<< 1) ^^^ (n.sshiftRight (w - 1))

/-- `ZigZagDecode` — WireFormatter.h:113-122: `(n >> 1) ^ (~(n & 1) + 1)`. -/
def zigZagDecode {w : Nat} (n : BitVec w) : BitVec w := (n >>> 1) ^^^ (~~~(n &&& 1) + 1)

/-- `MakeTag` — WireFormatter.h:130-133. -/
def makeTag (fieldNumber : Nat) (t : WireType) : BitVec 32 :=
  (BitVec.ofNat 32 fieldNumber <<< 3) ||| BitVec.ofNat 32 t.toNat

/-! ## Serialization -/

/-- The `while` loop of `SerializeVarint` — WireFormatter.h:530-534.  Returns the remaining value. -/
def serializeVarintLoop [WriteBuffer ω] {w : Nat} :
    Nat → BitVec w → ω → Res (BitVec w × ω)
  | 0, _, _ => .diverge
  | fuel + 1, value, buf =>
    if value.toNat ≥ 0x80 then do
      let (memoryFree, buf) ← WriteBuffer.push buf ((value ||| BitVec.ofNat w 0x80).setWidth 8)
      let value := value >>> 7
      if memoryFree then serializeVarintLoop fuel value buf else pure (value, buf)
    else pure (value, buf)

/-- `SerializeVarint` — WireFormatter.h:522-539.  The result of the loop's last `push` is
overwritten by the final `push`.  The loop fuel `w + 1` is never exhausted. -/
def serializeVarint [WriteBuffer ω] {w : Nat} (value : BitVec w) (buf : ω) : Res (Error × ω) := do
  let (value, buf) ← serializeVarintLoop (w + 1) value buf
  let (memoryFree, buf) ← WriteBuffer.push buf (value.setWidth 8)
  pure (pushError memoryFree, buf)

/-- The `for` loop of `SerializeFixedNoTag` — WireFormatter.h:153-156.  `n` is the number of
iterations left and `i` the bit position. -/
def serializeFixedLoop [WriteBuffer ω] {w : Nat} (value : BitVec w) :
    Nat → Nat → ω → Res (Bool × ω)
  | 0, _, buf => pure (true, buf)
  | n + 1, i, buf => do
    let (result, buf) ← WriteBuffer.push buf (((value >>> i) &&& BitVec.ofNat w 0xFF).setWidth 8)
    if result then serializeFixedLoop value n (i + 8) buf else pure (false, buf)

/-- `SerializeFixedNoTag` (and `SerialzieSFixedNoTag`, `SerialzieFloatNoTag`,
`SerialzieDoubleNoTag`, which reinterpret the bits and call it) — WireFormatter.h:141-188. -/
def serializeFixed [WriteBuffer ω] {w : Nat} (value : BitVec w) (buf : ω) : Res (Error × ω) := do
  let (result, buf) ← serializeFixedLoop value (w / 8) 0 buf
  pure (pushError result, buf)

/-! ## Deserialization -/

/-- `N_BYTES_IN_VARINT` — WireFormatter.h:555-560: `ceil(digits / 7)`, 5 for 32 bit and 10 for
64 bit. -/
def nBytesInVarint (w : Nat) : Nat := (w + 6) / 7

/-- The `do … while` loop of `DeserializeVarint` — WireFormatter.h:566-574.  `n` is the number of
iterations left (`N_BYTES_IN_VARINT - i`).  Returns `none` when the last `pop` failed, otherwise
the last byte and the accumulated value. -/
def deserializeVarintLoop [ReadBuffer β] {w : Nat} :
    Nat → Nat → BitVec w → β → Res (Option (Byte × BitVec w) × β)
  | 0, _, _, _ => .diverge
  | n + 1, i, temp, buf => do
    let (r, buf) ← ReadBuffer.pop buf
    match r with
    | none => pure (none, buf)
    | some byte =>
      let temp := temp ||| ((byte &&& ~~~(0x80 : Byte)).setWidth w <<< (i * 7))
      if (byte &&& 0x80) ≠ 0 ∧ 0 < n then deserializeVarintLoop n (i + 1) temp buf
      else pure (some (byte, temp), buf)

/-- `DeserializeVarint` (and `DeserializeUInt`) — WireFormatter.h:547-596, 359-366. -/
def deserializeVarint [ReadBuffer β] (w : Nat) (buf : β) : Res (Except Error (BitVec w) × β) := do
  let (r, buf) ← deserializeVarintLoop (nBytesInVarint w) 0 (0 : BitVec w) buf
  match r with
  | none => pure (.error .endOfBuffer, buf)
  | some (byte, temp) =>
    if (byte &&& 0x80) ≠ 0 then pure (.error .overlongVarint, buf) else pure (.ok temp, buf)

/-- `DeserializeTag` — WireFormatter.h:336-357.  Returns wire type and field id. -/
def deserializeTag [ReadBuffer β] (buf : β) : Res (Except Error (WireType × Nat) × β) := do
  let (r, buf) ← deserializeVarint 32 buf
  match r with
  | .error e => pure (.error e, buf)
  | .ok v =>
    match WireType.ofNat? (v &&& 7).toNat with
    | some t => pure (.ok (t, (v >>> 3).toNat), buf)
    | none => pure (.error .invalidWiretype, buf)

/-- `DeserializeInt` — WireFormatter.h:368-383: read 64 bits, truncate. -/
def deserializeInt [ReadBuffer β] (w : Nat) (buf : β) : Res (Except Error (BitVec w) × β) := do
  let (r, buf) ← deserializeVarint 64 buf
  pure (r.map (fun v => v.setWidth w), buf)

/-- `DeserializeSInt` — WireFormatter.h:385-402: read 64 bits, truncate, zigzag-decode. -/
def deserializeSInt [ReadBuffer β] (w : Nat) (buf : β) : Res (Except Error (BitVec w) × β) := do
  let (r, buf) ← deserializeVarint 64 buf
  pure (r.map (fun v => zigZagDecode (v.setWidth w)), buf)

/-- The `for` loop of `DeserializeFixed` — WireFormatter.h:416-424. -/
def deserializeFixedLoop [ReadBuffer β] {w : Nat} :
    Nat → Nat → BitVec w → β → Res (Option (BitVec w) × β)
  | 0, _, temp, buf => pure (some temp, buf)
  | n + 1, i, temp, buf => do
    let (r, buf) ← ReadBuffer.pop buf
    match r with
    | none => pure (none, buf)
    | some byte => deserializeFixedLoop n (i + 8) (temp ||| (byte.setWidth w <<< i)) buf

/-- `DeserializeFixed` (and `DeserializeSFixed`, `DeserializeFloat`, `DeserializeDouble`, which
reinterpret the bits) — WireFormatter.h:404-482. -/
def deserializeFixed [ReadBuffer β] (w : Nat) (buf : β) : Res (Except Error (BitVec w) × β) := do
  let (r, buf) ← deserializeFixedLoop (w / 8) 0 (0 : BitVec w) buf
  match r with
  | none => pure (.error .endOfBuffer, buf)
  | some v => pure (.ok v, buf)

/-- `DeserializeBool` — WireFormatter.h:484-497: pops exactly one byte. -/
def deserializeBool [ReadBuffer β] (buf : β) : Res (Except Error Bool × β) := do
  let (r, buf) ← ReadBuffer.pop buf
  match r with
  | none => pure (.error .endOfBuffer, buf)
  | some byte => pure (.ok (byte != 0), buf)

end EP
