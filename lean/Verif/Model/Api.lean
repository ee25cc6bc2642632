import Verif.Model.Schema
import Verif.Spec.Contracts

/-!
# The public interface of the generated classes

Which member functions a program can call on an object, as functions `State → Res State` (returned
error codes are dropped), and which object states a program can reach with them.

Sources: /repo/src/Fields.h:168-225, /repo/src/FieldStringBytes.h:81-172, 263-267, 300-362,
/repo/src/RepeatedFieldFixedSize.h:85-191, and the templates Field*_GetSet.h, TypeDefMsg.h.

A reference returned by `mutable_x()`, `get(i)` or `operator[]` is taken to be used for one call
straight away.  Arguments that are objects are objects a program can have.  Passing a part of the
object itself as an argument is in Model/Alias.lean.
-/

namespace EP

/-- States of an object created by the default constructor and changed by calls.  `Api R f`: `f` is
a call that takes arguments satisfying `R` of the same class. -/
inductive ReachGen {S : Type} (init : S) (Api : (S → Prop) → (S → Res S) → Prop) : S → Prop where
  | init : ReachGen init Api init
  | step {R : S → Prop} {f : S → Res S} {x y : S} : (∀ z, R z → ReachGen init Api z) → Api R f →
      ReachGen init Api x → f x = .ok y → ReachGen init Api y

/-- A read buffer that keeps the promises of the interface (`ReadBufferFixedSize`,
`ReadBufferSection`, or one written by the user). -/
structure Source where
  β : Type
  [inst : ReadBuffer β]
  M : ReadModel β
  buf : β
  inv : M.Inv buf

attribute [instance] Source.inst

/-- The object after a call that returns error code, buffer and object. -/
def Res.object {α β γ : Type} : Res (α × β × γ) → Res γ
  | .ok r => .ok r.2.2
  | .ub => .ub
  | .diverge => .diverge

/-- Calls every class has: `clear()`, `operator=(y)`, `set_x(y)` of the owner, `deserialize` and
`deserialize_check_type` from any buffer. -/
def CommonApi (C : FieldClass) (R : C.State → Prop) (f : C.State → Res C.State) : Prop :=
  f = C.clear ∨
  (∃ y, R y ∧ f = fun x => C.assign x y) ∨
  (∃ y, R y ∧ f = fun x => C.set x y) ∨
  (∃ (src : Source) (fuel : Nat), f = fun x => (C.deserialize fuel src.buf x).object) ∨
  (∃ (src : Source) (fuel : Nat) (wt : WireType), f = fun x =>
    (C.deserializeCheckType fuel src.buf wt x).object)

/-- Calls on a string or bytes field of maximum length `cap`:
`set(data, length)` (also `set(rhs)` and `operator=` with a field of another maximum length,
FieldStringBytes.h:148-172, 310-330), `set(const char*)` (:335-362), `str[i] = v`, `get(i)`. -/
def StrApi (cap : Nat) (f : StrObj → Res StrObj) : Prop :=
  (∃ bs, f = fun x => (x.setData cap bs) >>= fun r => pure r.2) ∨
  (∃ s, f = fun x => x.setCStr cap s) ∨
  (∃ i v, f = fun x => x.setAt cap i v) ∨
  (∃ i, f = fun x => (x.getAt cap i) >>= fun r => pure r.2)

/-- Calls on a repeated field: `add(v)`, `set(i, v)`, `set_data(vs)`, a call on `get(i)` or
`operator[](i)` — RepeatedFieldFixedSize.h:109-182.  A field of maximum length 0 has no elements to
refer to by an index: there the functions with an index are not called (see `C87_index`). -/
def RepApi (E : FieldClass) (cap : Nat) (Reach : E.State → Prop)
    (Api : (E.State → Prop) → (E.State → Res E.State) → Prop)
    (f : RepObj E.State → Res (RepObj E.State)) : Prop :=
  (∃ v, Reach v ∧ f = fun x => (x.add cap v) >>= fun r => pure r.2) ∨
  (∃ i v, 0 < cap ∧ Reach v ∧ f = fun x => x.setAt cap i v) ∨
  (∃ vs, (∀ v ∈ vs, Reach v) ∧ f = fun x => (x.setData cap vs) >>= fun r => pure r.2) ∨
  (∃ i, 0 < cap ∧ f = fun x => x.modifyAt cap i pure) ∨
  (∃ i R g, 0 < cap ∧ (∀ z, R z → Reach z) ∧ Api R g ∧ f = fun x => x.modifyAt cap i g)

/-- Apply a call to the first member. -/
def onFst {P A B : Type} (g : A → Res A) (s : P × A × B) : Res (P × A × B) := do
  let x ← g s.2.1
  pure (s.1, x, s.2.2)

/-- Apply a call to the other members. -/
def onRest {P A B : Type} (g : P × B → Res (P × B)) (s : P × A × B) : Res (P × A × B) := do
  let (p, t) ← g (s.1, s.2.2)
  pure (p, s.2.1, t)

/-- `mutable_x()` of an optional field, then `g` on the result; `set_x` is the case where `g` is
the assignment — Field*_GetSet.h (middle branch). -/
def touchOptional {A B : Type} (idx : Nat) (g : A → Res A) (s : Presence × A × B) :
    Res (Presence × A × B) := do
  let p ← Presence.setBit s.1 idx
  let x ← g s.2.1
  pure (p, x, s.2.2)

/-- `clear_x()` of an optional field — Field*_GetSet.h (middle branch). -/
def clearOptional {A B : Type} (idx : Nat) (clear : A → Res A) (s : Presence × A × B) :
    Res (Presence × A × B) := do
  let p ← Presence.clearBit s.1 idx
  let x ← clear s.2.1
  pure (p, x, s.2.2)

/-- Apply a call to the first union member, which must be the live one. -/
def onLeft {A B : Type} (g : A → Res A) (u : Option (A ⊕ B)) : Res (Option (A ⊕ B)) := do
  let x ← AltsClass.access (AltsClass.left? u)
  let x ← g x
  pure (some (.inl x))

/-- Apply a call to one of the other union members. -/
def onRight {A B : Type} (g : Option B → Res (Option B)) (u : Option (A ⊕ B)) :
    Res (Option (A ⊕ B)) := do
  let v ← g (AltsClass.right? u)
  pure (AltsClass.inr? v)

/-- `mutable_x()` of a oneof member `id`, then `g` on the result; `set_x` is the case where `g` is
the assignment — Field*_GetSet.h (first branch). -/
def touchMember (A : AltsClass) (id : Nat) (g : Option A.U → Res (Option A.U)) (o : OneofObj A.U) :
    Res (OneofObj A.U) := do
  let o ← A.activate o id
  let u ← g o.live
  pure ⟨o.which, u⟩

/-- `clear_x()` of a oneof member — Field*_GetSet.h (first branch): destroys the member if it is
the live one. -/
def clearMember (A : AltsClass) (id : Nat) (o : OneofObj A.U) : Res (OneofObj A.U) :=
  if id = o.which then A.clearObj o else pure o

/-- Apply a call to the members of a message outside oneofs. -/
def onFields {F O : Type} (g : Presence × F → Res (Presence × F)) (m : MsgObj F O) :
    Res (MsgObj F O) := do
  let (p, s) ← g (m.presence, m.fields)
  pure { m with presence := p, fields := s }

/-- Apply a call to the oneofs of a message. -/
def onOneofs {F O : Type} (g : O → Res O) (m : MsgObj F O) : Res (MsgObj F O) := do
  let o ← g m.oneofs
  pure { m with oneofs := o }

/-- Apply a call to the first oneof. -/
def onFirstOneof {A B : Type} (g : A → Res A) (s : A × B) : Res (A × B) := do
  let o ← g s.1
  pure (o, s.2)

/-- Apply a call to the other oneofs. -/
def onRestOneofs {A B : Type} (g : B → Res B) (s : A × B) : Res (A × B) := do
  let t ← g s.2
  pure (s.1, t)

/-- A call on a member: one of its own class, with arguments a program can have, or nothing
(`mutable_x()` alone). -/
def MemberApi {S : Type} (init : S) (Api : (S → Prop) → (S → Res S) → Prop) (g : S → Res S) : Prop :=
  g = pure ∨ ∃ R, (∀ z, R z → ReachGen init Api z) ∧ Api R g

mutual
/-- The calls on an object of a declared type. -/
def ElemTy.Api : (t : ElemTy) → (t.cls.State → Prop) → (t.cls.State → Res t.cls.State) → Prop
  | .scalar s, R, f => CommonApi (scalarClass s) R f ∨ ∃ v, f = fun _ => .ok v
  | .str cap, R, f => CommonApi (strClass cap) R f ∨ StrApi cap f
  | .msg fs os, R, f =>
    CommonApi (messageClass fs.nOptional (fs.cls 0) os.cls) R f ∨
    (∃ g, fs.Api 0 g ∧ f = onFields g) ∨
    (∃ g, os.Api g ∧ f = onOneofs g)
/-- The accessors of the fields of a message. -/
def Fields.Api : (fs : Fields) → (idx : Nat) →
    (Presence × (fs.cls idx).State → Res (Presence × (fs.cls idx).State)) → Prop
  | .nil, _, _ => False
  | .plain _ t rest, idx, f =>
    (∃ g, MemberApi t.cls.init t.Api g ∧ f = onFst g) ∨
    (∃ g, rest.Api idx g ∧ f = onRest g)
  | .optional _ t rest, idx, f =>
    (∃ g, MemberApi t.cls.init t.Api g ∧ f = touchOptional idx g) ∨
    f = clearOptional idx t.cls.clear ∨
    (∃ g, rest.Api (idx + 1) g ∧ f = onRest g)
  | .repeated _ cap t rest, idx, f =>
    (∃ g, MemberApi (repeatedClass t.cls cap).init
        (fun R g => CommonApi (repeatedClass t.cls cap) R g ∨
          RepApi t.cls cap (ReachGen t.cls.init t.Api) t.Api g) g ∧ f = onFst g) ∨
    (∃ g, rest.Api idx g ∧ f = onRest g)
/-- The calls on member `id` of a oneof. -/
def Alts.Api : (a : Alts) → (id : Nat) → (Option a.cls.U → Res (Option a.cls.U)) → Prop
  | .nil, _, _ => False
  | .cons num t rest, id, f =>
    (id = num ∧ ∃ g, MemberApi t.cls.init t.Api g ∧ f = onLeft g) ∨
    (∃ g, rest.Api id g ∧ f = onRight g)
/-- The accessors of the oneofs of a message. -/
def Oneofs.Api : (os : Oneofs) → (os.cls.State → Res os.cls.State) → Prop
  | .nil, _ => False
  | .cons a rest, f =>
    (∃ id g, a.Api id g ∧ f = onFirstOneof (touchMember a.cls id g)) ∨
    (∃ id, id ∈ a.numbers ∧ f = onFirstOneof (clearMember a.cls id)) ∨
    (∃ g, rest.Api g ∧ f = onRestOneofs g)
end

/-- The object states a program can reach. -/
abbrev ElemTy.Reach (t : ElemTy) : t.cls.State → Prop := ReachGen t.cls.init t.Api

/-- The calls on a repeated field. -/
abbrev ElemTy.RepApi (t : ElemTy) (cap : Nat) (R : RepObj t.cls.State → Prop)
    (g : RepObj t.cls.State → Res (RepObj t.cls.State)) : Prop :=
  CommonApi (repeatedClass t.cls cap) R g ∨ EP.RepApi t.cls cap t.Reach t.Api g

/-- The states of a repeated field a program can reach. -/
abbrev ElemTy.RepReach (t : ElemTy) (cap : Nat) : RepObj t.cls.State → Prop :=
  ReachGen (repeatedClass t.cls cap).init (t.RepApi cap)

/-- The states of an object that is only used to receive: `clear()` and `deserialize()` from any
buffer, in any order, whether they succeed or not. -/
abbrev ElemTy.Received (t : ElemTy) : t.cls.State → Prop :=
  ReachGen t.cls.init fun _ f => f = t.cls.clear ∨
    ∃ (src : Source) (fuel : Nat), f = fun x => (t.cls.deserialize fuel src.buf x).object

/-! ## Calls that do not shorten an array of messages

`operator=`, `set_x` and `set_data` with fewer elements than there are leave the elements above the new
length as they were (RepeatedFieldFixedSize.h:85-95, 149-167).  The calls below are the others. -/

/-- Calls on a repeated field with message elements: `clear()`, `deserialize` from any buffer, `add(v)`
with any element, and the calls `G` on an element. -/
def RepGentle (E : FieldClass) (cap : Nat) (Reach : E.State → Prop) (G : (E.State → Res E.State) → Prop)
    (f : RepObj E.State → Res (RepObj E.State)) : Prop :=
  f = (repeatedClass E cap).clear ∨
  (∃ (src : Source) (fuel : Nat), f = fun x =>
    ((repeatedClass E cap).deserialize fuel src.buf x).object) ∨
  (∃ (src : Source) (fuel : Nat) (wt : WireType), f = fun x =>
    ((repeatedClass E cap).deserializeCheckType fuel src.buf wt x).object) ∨
  (∃ v, Reach v ∧ f = fun x => (x.add cap v) >>= fun r => pure r.2) ∨
  (∃ i g, 0 < cap ∧ G g ∧ f = fun x => x.modifyAt cap i g)

mutual
/-- Calls on an object that do not shorten an array of messages.  Assignment is one of them when the
type has no such array, and when it follows `clear()`. -/
def ElemTy.Gentle : (t : ElemTy) → (t.cls.State → Res t.cls.State) → Prop
  | .scalar s, f => MemberApi (ElemTy.scalar s).cls.init (ElemTy.scalar s).Api f
  | .str cap, f => MemberApi (ElemTy.str cap).cls.init (ElemTy.str cap).Api f
  | .msg fs os, f =>
    f = pure ∨ f = (ElemTy.msg fs os).cls.clear ∨
    (∃ (src : Source) (fuel : Nat), f = fun x =>
      ((ElemTy.msg fs os).cls.deserialize fuel src.buf x).object) ∨
    (∃ (src : Source) (fuel : Nat) (wt : WireType), f = fun x =>
      ((ElemTy.msg fs os).cls.deserializeCheckType fuel src.buf wt x).object) ∨
    (∃ y, (ElemTy.msg fs os).Reach y ∧ f = fun x => (ElemTy.msg fs os).cls.clear x >>= fun x =>
      (ElemTy.msg fs os).cls.assign x y) ∨
    ((ElemTy.msg fs os).hasRepMsg = false ∧
      MemberApi (ElemTy.msg fs os).cls.init (ElemTy.msg fs os).Api f) ∨
    (∃ g, fs.Gentle 0 g ∧ f = onFields g) ∨
    (∃ g, os.Gentle g ∧ f = onOneofs g)
def Fields.Gentle : (fs : Fields) → (idx : Nat) →
    (Presence × (fs.cls idx).State → Res (Presence × (fs.cls idx).State)) → Prop
  | .nil, _, _ => False
  | .plain _ t rest, idx, f =>
    (∃ g, t.Gentle g ∧ f = onFst g) ∨
    (∃ g, rest.Gentle idx g ∧ f = onRest g)
  | .optional _ t rest, idx, f =>
    (∃ g, t.Gentle g ∧ f = touchOptional idx g) ∨
    f = clearOptional idx t.cls.clear ∨
    (∃ g, rest.Gentle (idx + 1) g ∧ f = onRest g)
  | .repeated _ cap t rest, idx, f =>
    (t.isMsg = true ∧ ∃ g, RepGentle t.cls cap t.Reach t.Gentle g ∧ f = onFst g) ∨
    (t.isMsg = false ∧
      ∃ g, MemberApi (repeatedClass t.cls cap).init (t.RepApi cap) g ∧ f = onFst g) ∨
    (∃ g, rest.Gentle idx g ∧ f = onRest g)
def Alts.Gentle : (a : Alts) → (id : Nat) → (Option a.cls.U → Res (Option a.cls.U)) → Prop
  | .nil, _, _ => False
  | .cons num t rest, id, f =>
    (id = num ∧ ∃ g, t.Gentle g ∧ f = onLeft g) ∨
    (∃ g, rest.Gentle id g ∧ f = onRight g)
def Oneofs.Gentle : (os : Oneofs) → (os.cls.State → Res os.cls.State) → Prop
  | .nil, _ => False
  | .cons a rest, f =>
    (∃ id g, a.Gentle id g ∧ f = onFirstOneof (touchMember a.cls id g)) ∨
    (∃ id, id ∈ a.numbers ∧ f = onFirstOneof (clearMember a.cls id)) ∨
    (∃ g, rest.Gentle g ∧ f = onRestOneofs g)
end

/-- Objects of which it is known that decoding into them appends to repeated messages exactly what is
received: any reachable object of a type without repeated message fields, and any object that never
had an array of messages shortened other than by `clear()`. -/
def ElemTy.Tidy (t : ElemTy) (x : t.cls.State) : Prop :=
  (t.Reach x ∧ t.hasRepMsg = false) ∨ ReachGen t.cls.init (fun _ f => t.Gentle f) x

end EP
