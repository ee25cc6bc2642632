import Verif.Model.Buffers
import Verif.Spec.Outcome

/-!
# Contracts of the buffer interfaces

`ReadModel β`/`WriteModel ω` state what the documentation of `ReadBufferInterface` and
`WriteBufferInterface` promises, in terms of the unread bytes and of the bytes written.
-/

namespace EP

/-- The contract of a read buffer: `view b` are the bytes not yet read. -/
structure ReadModel (β : Type) [ReadBuffer β] where
  Inv : β → Prop
  view : β → List Byte
  /-- for which `n` an `advance(n)` beyond the end is known to only move forward -/
  fwd : Nat → Prop
  /-- whether this is known for all `n` up to `get_size()` -/
  strict : Prop
  view_lt : ∀ b, Inv b → (view b).length < 4294967296
  getSize_ge : ∀ b, Inv b → (view b).length ≤ ReadBuffer.getSize b
  getSize_lt : ∀ b, Inv b → ReadBuffer.getSize b < 4294967296
  getSize_fwd : strict → ∀ b n, Inv b → n ≤ ReadBuffer.getSize b → fwd n
  pop_nil : ∀ b, Inv b → view b = [] →
    ∃ b', ReadBuffer.pop b = .ok (none, b') ∧ Inv b' ∧ view b' = []
  pop_cons : ∀ b x xs, Inv b → view b = x :: xs →
    ∃ b', ReadBuffer.pop b = .ok (some x, b') ∧ Inv b' ∧ view b' = xs
  advanceN_le : ∀ b n, Inv b → n ≤ (view b).length →
    ∃ r b', ReadBuffer.advanceN b n = .ok (r, b') ∧ Inv b' ∧ view b' = (view b).drop n
  advanceN_gt : ∀ b n, Inv b → (view b).length < n → n < 4294967296 →
    ∃ r b', ReadBuffer.advanceN b n = .ok (r, b') ∧ Inv b' ∧ (fwd n → view b' <:+: view b)

/-- The contract of a write buffer.  `Rep w c room`: the bytes written so far are `c` and at least
`room` more bytes can be pushed one by one.  `slack` is how much more room than `n` a bulk push of
`n` bytes may insist on. -/
structure WriteModel (ω : Type) [WriteBuffer ω] where
  Rep : ω → List Byte → Nat → Prop
  full : ω → Prop
  slack : Nat
  avail : ∀ w c room, Rep w c room → room ≤ WriteBuffer.getAvailableSize w
  push_ok : ∀ w c room x, Rep w c room → ¬ full w →
    ∃ w', WriteBuffer.push w x = .ok (true, w') ∧ Rep w' (c ++ [x]) (room - 1)
  push_full : ∀ w c room x, Rep w c room → full w →
    WriteBuffer.push w x = .ok (false, w) ∧ room = 0
  pushBytes : ∀ w c room bs, Rep w c room → bs.length < 2147483648 →
    (∃ w', WriteBuffer.pushBytes w bs = .ok (true, w') ∧ Rep w' (c ++ bs) (room - bs.length)) ∨
    (WriteBuffer.pushBytes w bs = .ok (false, w) ∧ room < bs.length + slack)

/-- `r` is the result of serializing `bs` to a buffer that held `c` and had `room`: either all of
`bs` was appended, or there was not enough room, `BUFFER_FULL` is reported and a proper prefix was
appended. -/
def Appends {ω : Type} [WriteBuffer ω] (M : WriteModel ω) (c : List Byte) (room : Nat) (bs : List Byte)
    (r : Res (Error × ω)) : Prop :=
  r.Post fun p =>
    (p.1 = .noErrors ∧ M.Rep p.2 (c ++ bs) (room - bs.length)) ∨
    (p.1 = .bufferFull ∧ room < bs.length + M.slack ∧
      ∃ k room', k < bs.length ∧ M.Rep p.2 (c ++ bs.take k) room')

/-- The contract is exact: a single push succeeds only if there is room, and a bulk push of `n` bytes
only if there is room for `n + slack`. -/
structure WriteModel.Sharp {ω : Type} [WriteBuffer ω] (M : WriteModel ω) : Prop where
  slack : M.slack ≤ 1
  push : ∀ w c, M.Rep w c 0 → M.full w
  pushBytes : ∀ w c room bs w', M.Rep w c room → WriteBuffer.pushBytes w bs = .ok (true, w') →
    bs.length + M.slack ≤ room

/-- The room needed in addition to the number of bytes, if the last of them are `bulk` pushed, or
not. -/
def WriteModel.extra {ω : Type} [WriteBuffer ω] (M : WriteModel ω) (bulk : Bool) : Nat :=
  if bulk then M.slack else M.slack - 1

/-- As `Appends`, knowing whether the last of the bytes are pushed in bulk. -/
def AppendsT {ω : Type} [WriteBuffer ω] (M : WriteModel ω) (bulk : Bool) (c : List Byte) (room : Nat)
    (bs : List Byte) (r : Res (Error × ω)) : Prop :=
  r.Post fun p =>
    (p.1 = .noErrors ∧ M.Rep p.2 (c ++ bs) (room - bs.length) ∧
      (M.Sharp → bs ≠ [] → bs.length + M.extra bulk ≤ room)) ∨
    (p.1 = .bufferFull ∧ room < bs.length + M.extra bulk ∧
      ∃ k room', k < bs.length ∧ M.Rep p.2 (c ++ bs.take k) room')

end EP
