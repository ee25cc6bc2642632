import Verif.Model.Buffers

/-!
# The reference read buffer

Not part of the code: the simplest read buffer, a list of bytes.  Its size is reported as unlimited
(allowed, as `get_size()` of `ReadBufferFixedSize` is not the number of unread bytes either) and
advancing past the end, after which implementations differ, counts as undefined.
-/

namespace EP

structure Canon where
  bytes : List Byte
  deriving DecidableEq, Repr

instance : ReadBuffer Canon where
  getSize _ := two32 - 1
  getMaxSize _ := two32 - 1
  peek b := pure b.bytes.head?
  advance b := pure (!b.bytes.isEmpty, ⟨b.bytes.tail⟩)
  advanceN b n := if n ≤ b.bytes.length then pure (true, ⟨b.bytes.drop n⟩) else .ub
  pop b :=
    match b.bytes with
    | [] => pure (none, b)
    | x :: xs => pure (some x, ⟨xs⟩)

end EP
