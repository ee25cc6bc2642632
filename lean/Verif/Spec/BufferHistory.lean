import Verif.Model.Buffers

/-!
# Histories of buffer operations and reference machines

The reference machines are what a user thinks a buffer is: a log of bytes, a queue of bytes.
-/

namespace EP

/-! ## Write buffer -/

/-- Operations on a write buffer. -/
inductive WOp where
  | clear
  | push (x : Byte)
  | bulk (bs : List Byte)

/-- Run a history on a `WriteBufferFixedSize`; collects what the pushes returned (`clear` counts as
`true`). -/
def WriteFixed.run : List WOp → WriteFixed → Res (List Bool × WriteFixed)
  | [], w => .ok ([], w)
  | .clear :: ops, w => do
    let (rs, w) ← run ops w.clear
    pure (true :: rs, w)
  | .push x :: ops, w => do
    let (r, w) ← w.push x
    let (rs, w) ← run ops w
    pure (r :: rs, w)
  | .bulk bs :: ops, w => do
    let (r, w) ← w.pushBytes bs
    let (rs, w) ← run ops w
    pure (r :: rs, w)

/-- The log a user has in mind, given which operations succeeded: the concatenation of the successful
pushes since the last `clear`. -/
def logOf : List Byte → List WOp → List Bool → List Byte
  | _, .clear :: ops, _ :: rs => logOf [] ops rs
  | log, .push x :: ops, r :: rs => logOf (if r then log ++ [x] else log) ops rs
  | log, .bulk bs :: ops, r :: rs => logOf (if r then log ++ bs else log) ops rs
  | log, _, _ => log

/-- Which operations are to succeed: a byte when the log is shorter than `cap`; a block only when it
fits and always when at least one byte stays free (whether an exact fit is accepted is C09). -/
def logAccepts (cap : Nat) : List Byte → List WOp → List Bool → Prop
  | _, [], rs => rs = []
  | _, .clear :: ops, rs => ∃ rs', rs = true :: rs' ∧ logAccepts cap [] ops rs'
  | log, .push x :: ops, rs => ∃ r rs', rs = r :: rs' ∧ r = decide (log.length < cap) ∧
      logAccepts cap (if r then log ++ [x] else log) ops rs'
  | log, .bulk bs :: ops, rs => ∃ r rs', rs = r :: rs' ∧
      (log.length + bs.length < cap → r = true) ∧ (r = true → log.length + bs.length ≤ cap) ∧
      logAccepts cap (if r then log ++ bs else log) ops rs'

/-! ## Read buffer -/

/-- Operations of a user of a `ReadBufferFixedSize` who fills it and reads from it. -/
inductive QOp where
  /-- `clear()`, copy `bs` to `get_data()`, `set_bytes_written(bs.length)` -/
  | load (bs : List Byte)
  | clear
  | push (x : Byte)
  | peek
  | pop
  | advance

/-- What an operation returned. -/
inductive QOut where
  | flag (r : Bool)
  | byte (r : Option Byte)
  | none
  deriving DecidableEq

/-- The implementation. -/
def ReadFixed.qstep (b : ReadFixed) : QOp → Res (QOut × ReadFixed)
  | .load bs => do
    let b ← b.clear.writeData bs
    pure (.none, b.setBytesWritten bs.length)
  | .clear => .ok (.none, b.clear)
  | .push x => do
    let (r, b) ← b.push x
    pure (.flag r, b)
  | .peek => do
    let r ← b.peek
    pure (.byte r, b)
  | .pop => do
    let (r, b) ← b.pop
    pure (.byte r, b)
  | .advance => do
    let (r, b) ← b.advance
    pure (.flag r, b)

def ReadFixed.qrun : List QOp → ReadFixed → Res (List QOut × ReadFixed)
  | [], b => .ok ([], b)
  | op :: ops, b => do
    let (r, b) ← b.qstep op
    let (rs, b) ← qrun ops b
    pure (r :: rs, b)

/-- Reference: the bytes stored since the last `clear` and the bytes among them not yet read. -/
structure Queue where
  stored : List Byte
  unread : List Byte

def Queue.step (cap : Nat) (q : Queue) : QOp → QOut × Queue
  | .load bs => (.none, ⟨bs, bs⟩)
  | .clear => (.none, ⟨[], []⟩)
  | .push x => if q.stored.length < cap then (.flag true, ⟨q.stored ++ [x], q.unread ++ [x]⟩)
      else (.flag false, q)
  | .peek => (.byte q.unread.head?, q)
  | .pop => (.byte q.unread.head?, ⟨q.stored, q.unread.tail⟩)
  | .advance => (.flag (!q.unread.isEmpty), ⟨q.stored, q.unread.tail⟩)

def Queue.run (cap : Nat) : List QOp → Queue → List QOut × Queue
  | [], q => ([], q)
  | op :: ops, q =>
    let (r, q) := q.step cap op
    let (rs, q) := Queue.run cap ops q
    (r :: rs, q)

/-- Operations of any user of a `ReadBufferFixedSize`, in any order, with any arguments. -/
inductive ROp where
  | q (op : QOp)
  | write (bs : List Byte)
  | setWritten (n : Nat)
  | advanceN (n : Nat)

def ReadFixed.rstep (b : ReadFixed) : ROp → Res (QOut × ReadFixed)
  | .q op => b.qstep op
  | .write bs => do
    let b ← b.writeData bs
    pure (.none, b)
  | .setWritten n => .ok (.none, b.setBytesWritten n)
  | .advanceN n => do
    let (r, b) ← b.advanceN n
    pure (.flag r, b)

def ReadFixed.rrun : List ROp → ReadFixed → Res (List QOut × ReadFixed)
  | [], b => .ok ([], b)
  | op :: ops, b => do
    let (r, b) ← b.rstep op
    let (rs, b) ← rrun ops b
    pure (r :: rs, b)

/-- The user copies no more than the buffer holds to `get_data()`. -/
def ROp.Legal (cap : Nat) : ROp → Prop
  | .q (.load bs) => bs.length ≤ cap
  | .write bs => bs.length ≤ cap
  | _ => True

/-! ## Reads through any buffer -/

/-- Reading operations of the interface. -/
inductive RdOp where
  | peek
  | pop
  | advance
  | advanceN (n : Nat)

variable {β : Type}

/-- One read; `some x` when `pop` delivered `x`. -/
def rdStep [ReadBuffer β] (b : β) : RdOp → Res (Option Byte × β)
  | .peek => do
    let _ ← ReadBuffer.peek b
    pure (none, b)
  | .pop => ReadBuffer.pop b
  | .advance => do
    let (_, b) ← ReadBuffer.advance b
    pure (none, b)
  | .advanceN n => do
    let (_, b) ← ReadBuffer.advanceN b n
    pure (none, b)

/-- A history of reads; the bytes delivered by `pop`. -/
def rdRun [ReadBuffer β] : List RdOp → β → Res (List Byte × β)
  | [], b => .ok ([], b)
  | op :: ops, b => do
    let (x, b) ← rdStep b op
    let (xs, b) ← rdRun ops b
    pure (x.toList ++ xs, b)

/-- A buffer below sections with the given declared sizes (innermost, i.e. most recent, first). -/
def Nest (β : Type) : List Nat → Type
  | [] => β
  | _ :: ns => Section (Nest β ns)

instance Nest.inst (β : Type) [ReadBuffer β] : (ns : List Nat) → ReadBuffer (Nest β ns)
  | [] => inferInstanceAs (ReadBuffer β)
  | _ :: ns => letI := Nest.inst β ns; inferInstanceAs (ReadBuffer (Section (Nest β ns)))

/-- Open nested sections. -/
def Nest.enter [ReadBuffer β] (b : β) : (ns : List Nat) → Nest β ns
  | [] => b
  | n :: ns => Section.new (Nest.enter b ns) n

/-- The buffer below all sections. -/
def Nest.base : (ns : List Nat) → Nest β ns → β
  | [], b => b
  | _ :: ns, s => Nest.base ns (Section.buffer s)

end EP
