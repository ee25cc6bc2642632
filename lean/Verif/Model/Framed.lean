import Verif.Model.Schema

/-!
# Messages in one buffer, each preceded by its size

What a program does that keeps several messages in one buffer or sends them over a stream of bytes, written with the
functions of the library: `serialized_size()`, `WireFormatter::SerializeVarint` (WireFormatter.h:522-539), `serialize`;
`WireFormatter::DeserializeVarint` (WireFormatter.h:547-597), `ReadBufferSection` (ReadBufferSection.h:51-60), `clear`,
`deserialize`.
-/

namespace EP

/-- `SerializeVarint(x.serialized_size(), buffer)`, then `x.serialize(buffer)`. -/
def putFramed {ω : Type} [WriteBuffer ω] (t : ElemTy) (x : t.cls.State) (w : ω) : Res (Error × ω) := do
  let size ← t.cls.serializedSize x
  let (e, w) ← serializeVarint (BitVec.ofNat 32 size) w
  if e = .noErrors then t.cls.serialize x w else pure (e, w)

/-- Several messages, up to the first error. -/
def putFrames {ω : Type} [WriteBuffer ω] (t : ElemTy) : List t.cls.State → ω → Res (Error × ω)
  | [], w => pure (.noErrors, w)
  | x :: xs, w => do
    let (e, w) ← putFramed t x w
    if e = .noErrors then putFrames t xs w else pure (e, w)

/-- `DeserializeVarint(buffer, size)`; `ReadBufferSection section(buffer, size)`; `x.clear()`; `x.deserialize(section)`;
and then, whatever that returned, `section.advance(section.get_size())`. -/
def getFramed {β : Type} [ReadBuffer β] (t : ElemTy) (fuel : Nat) (b : β) (x : t.cls.State) : Res (Error × β × t.cls.State) := do
  let (r, b) ← deserializeVarint 32 b
  match r with
  | .error e => pure (e, b, x)
  | .ok n => do
    let x ← t.cls.clear x
    let (e, s, x) ← t.cls.deserialize fuel (Section.new b n.toNat) x
    let (_, s) ← ReadBuffer.advanceN s (ReadBuffer.getSize s)
    pure (e, s.buffer, x)

/-- Read `k` messages into one object, and note the return values and the objects. -/
def getFrames {β : Type} [ReadBuffer β] (t : ElemTy) (fuel : Nat) : Nat → β → t.cls.State → Res (List (Error × t.cls.State) × β × t.cls.State)
  | 0, b, x => pure ([], b, x)
  | k + 1, b, x => do
    let (e, b, x) ← getFramed t fuel b x
    let (l, b, z) ← getFrames t fuel k b x
    pure ((e, x) :: l, b, z)

end EP
