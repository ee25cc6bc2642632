import Verif.Model.Api
import Verif.Spec.Observe
import Verif.Spec.BufferHistory

/-!
# Two programs that exchange messages

One has an object it changes and sends, the other an object it receives into and uses; their classes are made from the same
declaration, or from two.  Between them is a network that can lose, repeat, reorder, corrupt and invent frames: nothing is
said about which frames are received.
-/

namespace EP

/-- What the two programs have: an object and a buffer each.  `fs`, `os` is the declaration of the sender, `gs`, `ps` that
of the receiver. -/
structure Link (fs : Fields) (os : Oneofs) (gs : Fields) (ps : Oneofs) where
  sender : (ElemTy.msg fs os).Obj
  out : WriteFixed
  inp : ReadFixed
  receiver : (ElemTy.msg gs ps).Obj

/-- What can be seen of it: a message with value `v` was sent as the bytes `frame`; `frame` was received, with the return
value `e` of `deserialize` and the value `v` of the object. -/
inductive LinkEvent (V U : Type) where
  | sent (v : V) (frame : List Byte)
  | received (frame : List Byte) (e : Error) (v : U)

/-- The two ways to put a received frame into the read buffer: `clear()`, copy to `get_data()`, `set_bytes_written`; or
`clear()` and `push` byte by byte. -/
def ReadFixed.Fill (b : ReadFixed) (frame : List Byte) (b' : ReadFixed) : Prop :=
  (∃ o, b.qstep (.load frame) = .ok (o, b')) ∨
  ∃ o, ReadFixed.qrun (.clear :: frame.map .push) b = .ok (o, b')

namespace Link
variable {fs : Fields} {os : Oneofs} {gs : Fields} {ps : Oneofs}
local notation "T" => ElemTy.msg fs os
local notation "S" => ElemTy.msg gs ps

/-- What one of the programs does. -/
inductive Step : Link fs os gs ps → List (LinkEvent (T).Val (S).Val) → Link fs os gs ps → Prop where
  /-- any call on the object to be sent -/
  | edit {s : Link fs os gs ps} {R : (T).Obj → Prop} {f : (T).Obj → Res (T).Obj} {x : (T).Obj} : (∀ z, R z → (T).Reach z) →
      (T).Api R f → f s.sender = .ok x → Step s [] { s with sender := x }
  /-- any use of the write buffer for something else -/
  | scribble {s : Link fs os gs ps} {op : WOp} {r : List Bool} {w : WriteFixed} : (∀ bs, op = .bulk bs → bs.length < 2 ^ 31) →
      WriteFixed.run [op] s.out = .ok (r, w) → Step s [] { s with out := w }
  /-- `out.clear()`, `sender.serialize(out)`; it returns `NO_ERRORS` and what the buffer holds is sent -/
  | send {s : Link fs os gs ps} {w : WriteFixed} : (T).cls.serialize s.sender s.out.clear = .ok (.noErrors, w) →
      Step s [.sent ((T).abs s.sender) w.bytes] { s with out := w }
  /-- the same; it returns an error and nothing is sent -/
  | fail {s : Link fs os gs ps} {e : Error} {w : WriteFixed} : e ≠ .noErrors →
      (T).cls.serialize s.sender s.out.clear = .ok (e, w) → Step s [] { s with out := w }
  /-- any call on the object received into -/
  | use {s : Link fs os gs ps} {R : (S).Obj → Prop} {f : (S).Obj → Res (S).Obj} {x : (S).Obj} : (∀ z, R z → (S).Reach z) →
      (S).Api R f → f s.receiver = .ok x → Step s [] { s with receiver := x }
  /-- any use of the read buffer for something else -/
  | fiddle {s : Link fs os gs ps} {op : ROp} {r : QOut} {b : ReadFixed} : op.Legal s.inp.cap → s.inp.rstep op = .ok (r, b) →
      Step s [] { s with inp := b }
  /-- some bytes that fit into the buffer arrive: `receiver.clear()`, `receiver.deserialize(inp)`, and it returns -/
  | receive {s : Link fs os gs ps} {frame : List Byte} {b b' : ReadFixed} {y z : (S).Obj} {fuel : Nat} {e : Error} :
      frame.length ≤ s.inp.cap → s.inp.Fill frame b → (S).cls.clear s.receiver = .ok y →
      (S).cls.deserialize fuel b y = .ok (e, b', z) →
      Step s [.received frame e ((S).abs z)] { s with inp := b', receiver := z }

/-- Any history, starting with new objects and buffers of `N` and `K` bytes. -/
inductive Run (N K : Nat) : List (LinkEvent (T).Val (S).Val) → Link fs os gs ps → Prop where
  | start : Run N K [] ⟨(T).cls.init, WriteFixed.new N, ReadFixed.new K, (S).cls.init⟩
  | step {log es : List (LinkEvent (T).Val (S).Val)} {s s' : Link fs os gs ps} : Run N K log s → Step s es s' → Run N K (log ++ es) s'

end Link

/-- The frames and values sent, in order. -/
def sentOf {V U : Type} : List (LinkEvent V U) → List (List Byte × V)
  | [] => []
  | .sent v f :: l => (f, v) :: sentOf l
  | .received _ _ _ :: l => sentOf l

/-- The frames, return values and values received, in order. -/
def receivedOf {V U : Type} : List (LinkEvent V U) → List (List Byte × Error × U)
  | [] => []
  | .sent _ _ :: l => receivedOf l
  | .received f e v :: l => (f, e, v) :: receivedOf l

end EP
