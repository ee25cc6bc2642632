import Verif.Model.Basic

/-!
# Buffers

The two abstract interfaces as type classes and the four implementations in `/repo/src`.
-/

namespace EP

/-- `class ReadBufferInterface` — /repo/src/ReadBufferInterface.h:40-92.
`bool f(uint8_t& byte)` is modelled as returning `Option Byte`: the out-parameter is only written
when the call returns true. -/
class ReadBuffer (β : Type) where
  getSize : β → Nat
  getMaxSize : β → Nat
  peek : β → Res (Option Byte)
  advance : β → Res (Bool × β)
  advanceN : β → Nat → Res (Bool × β)
  pop : β → Res (Option Byte × β)

/-- `class WriteBufferInterface` — /repo/src/WriteBufferInterface.h:40-82.
`push(const uint8_t* bytes, const uint32_t length)` takes the `length` bytes as a list. -/
class WriteBuffer (ω : Type) where
  clear : ω → ω
  getSize : ω → Nat
  getMaxSize : ω → Nat
  getAvailableSize : ω → Nat
  push : ω → Byte → Res (Bool × ω)
  pushBytes : ω → List Byte → Res (Bool × ω)

/-! ## ReadBufferFixedSize -/

/-- `template<uint32_t BUFFER_SIZE> class ReadBufferFixedSize` —
/repo/src/ReadBufferFixedSize.h:43-158.  `cap` is `BUFFER_SIZE`. -/
structure ReadFixed where
  cap : Nat
  data : List Byte
  write : Nat
  read : Nat
  deriving DecidableEq, Repr

namespace ReadFixed

/-- Default constructor and member initialisers — ReadBufferFixedSize.h:48, 150-157. -/
def new (cap : Nat) : ReadFixed := ⟨cap, List.replicate cap 0, 0, 0⟩

/-- ReadBufferFixedSize.h:55-58.  Note that this is the number of bytes *stored*, not the number
of bytes left to read. -/
def getSize (b : ReadFixed) : Nat := b.write

/-- ReadBufferFixedSize.h:61-64. -/
def getMaxSize (b : ReadFixed) : Nat := b.cap

/-- ReadBufferFixedSize.h:67-75. -/
def peek (b : ReadFixed) : Res (Option Byte) :=
  if b.write > b.read then do
    let x ← arrayGet b.data b.read
    pure (some x)
  else pure none

/-- ReadBufferFixedSize.h:78-86. -/
def advance (b : ReadFixed) : Res (Bool × ReadFixed) :=
  if b.write > b.read then pure (true, { b with read := u32 (b.read + 1) })
  else pure (false, b)

/-- ReadBufferFixedSize.h:89-98.  `read_index_ + N` is `uint32_t` arithmetic and can wrap. -/
def advanceN (b : ReadFixed) (n : Nat) : Res (Bool × ReadFixed) :=
  let newRead := u32 (b.read + n)
  if b.write ≥ newRead then pure (true, { b with read := newRead })
  else pure (false, b)

/-- ReadBufferFixedSize.h:101-110. -/
def pop (b : ReadFixed) : Res (Option Byte × ReadFixed) :=
  if b.write > b.read then do
    let x ← arrayGet b.data b.read
    pure (some x, { b with read := u32 (b.read + 1) })
  else pure (none, b)

/-- Writing bytes through the pointer returned by `get_data()` — ReadBufferFixedSize.h:113-116. -/
def writeData (b : ReadFixed) (bytes : List Byte) : Res ReadFixed := do
  let d ← arrayCopy b.data 0 bytes
  pure { b with data := d }

/-- ReadBufferFixedSize.h:119-122. -/
def setBytesWritten (b : ReadFixed) (n : Nat) : ReadFixed := { b with write := min n b.cap }

/-- ReadBufferFixedSize.h:125-129. -/
def clear (b : ReadFixed) : ReadFixed := { b with read := 0, write := 0 }

/-- ReadBufferFixedSize.h:136-145. -/
def push (b : ReadFixed) (x : Byte) : Res (Bool × ReadFixed) :=
  if b.cap > b.write then do
    let d ← arraySet b.data b.write x
    pure (true, { b with data := d, write := u32 (b.write + 1) })
  else pure (false, b)

instance : ReadBuffer ReadFixed where
  getSize := getSize
  getMaxSize := getMaxSize
  peek := peek
  advance := advance
  advanceN := advanceN
  pop := pop

end ReadFixed

/-! ## ReadBufferSection -/

/-- `class ReadBufferSection` — /repo/src/ReadBufferSection.h:40-120.  The C++ object holds a
reference to the underlying buffer; here the section carries it and hands it back afterwards. -/
structure Section (β : Type) where
  buffer : β
  size : Nat
  maxSize : Nat
  deriving DecidableEq, Repr

namespace Section
variable {β : Type} [ReadBuffer β]

/-- ReadBufferSection.cpp:39-45. -/
def new (b : β) (size : Nat) : Section β :=
  ⟨b, min size (ReadBuffer.getSize b), min size (ReadBuffer.getSize b)⟩

/-- ReadBufferSection.cpp:57-65. -/
def peek (s : Section β) : Res (Option Byte) :=
  if 0 < s.size then ReadBuffer.peek s.buffer else pure none

/-- ReadBufferSection.cpp:67-76. -/
def advance (s : Section β) : Res (Bool × Section β) :=
  if 0 < s.size then do
    let (r, b) ← ReadBuffer.advance s.buffer
    pure (r, { s with buffer := b, size := u32sub s.size 1 })
  else pure (false, s)

/-- ReadBufferSection.cpp:78-88. -/
def advanceN (s : Section β) (nBytes : Nat) : Res (Bool × Section β) :=
  if 0 < s.size then do
    let n := if nBytes ≤ s.size then nBytes else s.size
    let (r, b) ← ReadBuffer.advanceN s.buffer n
    pure (r, { s with buffer := b, size := u32sub s.size n })
  else pure (false, s)

/-- ReadBufferSection.cpp:90-99.  The size is decremented even when the underlying buffer is
exhausted. -/
def pop (s : Section β) : Res (Option Byte × Section β) :=
  if 0 < s.size then do
    let (x, b) ← ReadBuffer.pop s.buffer
    pure (x, { s with buffer := b, size := u32sub s.size 1 })
  else pure (none, s)

instance : ReadBuffer (Section β) where
  getSize s := s.size            -- ReadBufferSection.cpp:47-50
  getMaxSize s := s.maxSize      -- ReadBufferSection.cpp:52-55
  peek := peek
  advance := advance
  advanceN := advanceN
  pop := pop

end Section

/-! ## WriteBufferFixedSize -/

/-- `template<uint32_t BUFFER_SIZE> class WriteBufferFixedSize` —
/repo/src/WriteBufferFixedSize.h:40-112.  `cap` is `BUFFER_SIZE`. -/
structure WriteFixed where
  cap : Nat
  data : List Byte
  write : Nat
  deriving DecidableEq, Repr

namespace WriteFixed

/-- Default constructor and member initialisers — WriteBufferFixedSize.h:44, 103-109. -/
def new (cap : Nat) : WriteFixed := ⟨cap, List.replicate cap 0, 0⟩

/-- WriteBufferFixedSize.h:48-51. -/
def clear (w : WriteFixed) : WriteFixed := { w with write := 0 }

/-- WriteBufferFixedSize.h:68-71. -/
def getAvailableSize (w : WriteFixed) : Nat := u32sub w.cap w.write

/-- WriteBufferFixedSize.h:74-83. -/
def push (w : WriteFixed) (x : Byte) : Res (Bool × WriteFixed) :=
  if w.cap > w.write then do
    let d ← arraySet w.data w.write x
    pure (true, { w with data := d, write := u32 (w.write + 1) })
  else pure (false, w)

/-- WriteBufferFixedSize.h:86-95.  The comparison is strict and `write_index_ + length` is
`uint32_t` arithmetic. -/
def pushBytes (w : WriteFixed) (bytes : List Byte) : Res (Bool × WriteFixed) :=
  if w.cap > u32 (w.write + bytes.length) then do
    let d ← arrayCopy w.data w.write bytes
    pure (true, { w with data := d, write := u32 (w.write + bytes.length) })
  else pure (false, w)

instance : WriteBuffer WriteFixed where
  clear := clear
  getSize w := w.write           -- WriteBufferFixedSize.h:55-58
  getMaxSize w := w.cap          -- WriteBufferFixedSize.h:62-65
  getAvailableSize := getAvailableSize
  push := push
  pushBytes := pushBytes

/-- The bytes a user transmits: `get_size()` bytes starting at `get_data()` —
WriteBufferFixedSize.h:98-101. -/
def bytes (w : WriteFixed) : List Byte := w.data.take w.write

end WriteFixed

/-! ## MessageSizeCalculator -/

/-- `class MessageSizeCalculator` — /repo/src/MessageSizeCalculator.h:50-104. -/
structure SizeCalc where
  size : Nat
  deriving DecidableEq, Repr

namespace SizeCalc

instance : WriteBuffer SizeCalc where
  clear _ := ⟨0⟩                                        -- MessageSizeCalculator.h:57-60
  getSize c := c.size                                   -- :63-66
  getMaxSize _ := two32 - 1                             -- :69-72
  getAvailableSize _ := two32 - 1                       -- :75-78
  push c _ := pure (true, ⟨u32 (c.size + 1)⟩)           -- :81-87
  pushBytes c bs := pure (true, ⟨u32 (c.size + bs.length)⟩)  -- :90-96

end SizeCalc

end EP
