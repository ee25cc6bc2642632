import Verif.Model.Api
import Verif.Spec.Slot

/-!
# The accessors of one field

The calls a generated class offers for the field or oneof member of a given number, as functions on the
message object.  Proof/Accessors.lean shows that these are, with the calls every class has, all the
calls of `ElemTy.Api`.
-/

namespace EP

/-- A call on the data member of a field: `mutable_x()` (or `set_x`, `add_x`, …) with `g` done to the
member — Field*_GetSet.h (middle and last branches), FieldRepeated_GetSet.h:82-93. -/
def Slot.access : {fs : Fields} → {num : Nat} → {c : Card} → {t : ElemTy} → Slot fs num c t → (idx : Nat) →
    ((c.cls t).State → Res (c.cls t).State) →
    Presence × (fs.cls idx).State → Res (Presence × (fs.cls idx).State)
  | _, _, _, _, .plain _ _ _, _, g => onFst g
  | _, _, _, _, .optional _ _ _, idx, g => touchOptional idx g
  | _, _, _, _, .repeated _ _ _ _, _, g => onFst g
  | _, _, _, _, .afterPlain _ _ s, idx, g => onRest (s.access idx g)
  | _, _, _, _, .afterOptional _ _ s, idx, g => onRest (s.access (idx + 1) g)
  | _, _, _, _, .afterRepeated _ _ _ s, idx, g => onRest (s.access idx g)

/-- `clear_x()` of an optional field — Field*_GetSet.h (middle branch).  (Of another field it is `access`
with `clear`.) -/
def Slot.clearAccess : {fs : Fields} → {num : Nat} → {c : Card} → {t : ElemTy} → Slot fs num c t → (idx : Nat) →
    Presence × (fs.cls idx).State → Res (Presence × (fs.cls idx).State)
  | _, _, _, t, .plain _ _ _, _ => onFst t.cls.clear
  | _, _, _, t, .optional _ _ _, idx => clearOptional idx t.cls.clear
  | _, _, .rep cap, t, .repeated _ _ _ _, _ => onFst (repeatedClass t.cls cap).clear
  | _, _, _, _, .afterPlain _ _ s, idx => onRest (s.clearAccess idx)
  | _, _, _, _, .afterOptional _ _ s, idx => onRest (s.clearAccess (idx + 1))
  | _, _, _, _, .afterRepeated _ _ _ s, idx => onRest (s.clearAccess idx)

section
variable {fs : Fields} {os : Oneofs} {num : Nat} {c : Card} {t : ElemTy} {a : Alts}

/-- The call on the message object. -/
def Slot.call (s : Slot fs num c t) (g : (c.cls t).State → Res (c.cls t).State) :
    (ElemTy.msg fs os).cls.State → Res (ElemTy.msg fs os).cls.State := onFields (s.access 0 g)

/-- `clear_x()` on the message object. -/
def Slot.clearCall (s : Slot fs num c t) :
    (ElemTy.msg fs os).cls.State → Res (ElemTy.msg fs os).cls.State := onFields (s.clearAccess 0)

/-- `has_x()` of an optional field — Field*_GetSet.h (middle branch). -/
def Slot.has (s : Slot fs num .opt t) (x : (ElemTy.msg fs os).cls.State) : Res Bool :=
  Presence.has x.presence (s.bit 0)

/-- A call on the members of one of the oneofs. -/
def OneofSlot.access : {os : Oneofs} → {a : Alts} → OneofSlot os a →
    (OneofObj a.cls.U → Res (OneofObj a.cls.U)) → os.cls.State → Res os.cls.State
  | _, _, .here _ _, g => onFirstOneof g
  | _, _, .after _ s, g => onRestOneofs (s.access g)

/-- A call on the live member of the union. -/
def Member.access : {a : Alts} → {num : Nat} → {t : ElemTy} → Member a num t →
    (t.cls.State → Res t.cls.State) → Option a.cls.U → Res (Option a.cls.U)
  | _, _, _, .here _ _ _, g => onLeft g
  | _, _, _, .after _ _ m, g => onRight (m.access g)

/-- `mutable_x()` (or `set_x`) of a oneof member with `g` done to the member — Field*_GetSet.h (first
branch). -/
def Member.call (s : OneofSlot os a) (m : Member a num t) (g : t.cls.State → Res t.cls.State) :
    (ElemTy.msg fs os).cls.State → Res (ElemTy.msg fs os).cls.State :=
  onOneofs (s.access (touchMember a.cls num (m.access g)))

/-- `clear_x()` of a oneof member — Field*_GetSet.h (first branch). -/
def Member.clearCall (s : OneofSlot os a) (_ : Member a num t) :
    (ElemTy.msg fs os).cls.State → Res (ElemTy.msg fs os).cls.State :=
  onOneofs (s.access (clearMember a.cls num))

/-- `get_which_x()` — TypeDefMsg.h:151. -/
def OneofSlot.which (s : OneofSlot os a) (x : (ElemTy.msg fs os).cls.State) : Nat := (s.state x.oneofs).which

/-- `has_x()` of a oneof member — Field*_GetSet.h (first branch). -/
def Member.has (s : OneofSlot os a) (_ : Member a num t) (x : (ElemTy.msg fs os).cls.State) : Bool :=
  num == s.which x

/-- Reading a member of the union: undefined unless it is the live one. -/
def Member.readUnion : {a : Alts} → {num : Nat} → {t : ElemTy} → Member a num t → Option a.cls.U →
    Res t.cls.State
  | _, _, _, .here _ _ _, some (.inl x) => .ok x
  | _, _, _, .here _ _ _, _ => .ub
  | _, _, _, .after _ _ m, some (.inr u) => m.readUnion (some u)
  | _, _, _, .after _ _ _, _ => .ub

/-- `get_x()` and `x()` of a oneof member, which read the union whatever the selector says —
FieldBasic_GetSet.h:91-92, FieldMsg_GetSet.h:99-100, FieldString_GetSet.h:85-86. -/
def Member.get (s : OneofSlot os a) (m : Member a num t) (x : (ElemTy.msg fs os).cls.State) : Res t.cls.State :=
  m.readUnion (s.state x.oneofs).live

/-- The calls on the data member of a field. -/
def Card.Api (c : Card) (t : ElemTy) (g : (c.cls t).State → Res (c.cls t).State) : Prop :=
  match c with
  | .single => MemberApi t.cls.init t.Api g
  | .opt => MemberApi t.cls.init t.Api g
  | .rep cap => MemberApi (repeatedClass t.cls cap).init (t.RepApi cap) g

end

/-! ## The field numbers a decoder meets -/

section
variable {β : Type} [ReadBuffer β]

/-- The field numbers of the tags read by the loop of `deserialize`, in order: `tagLoop` with a note of
every tag.  The run ends at a tag that cannot be read or after a record with an error. -/
def tagNumbers {σ : Type} (step : Nat → WireType → β → σ → Res (Error × β × σ)) : Nat → β → σ → List Nat
  | 0, _, _ => []
  | fuel + 1, b, s =>
    match deserializeTag b with
    | .ok (.ok (wt, id), b) => id ::
      match step id wt b s with
      | .ok (.noErrors, b, s) => tagNumbers step fuel b s
      | _ => []
    | _ => []

variable (fs : Fields) (os : Oneofs)

/-- The field numbers met by `deserialize(buffer)`. -/
def met (fuel : Nat) (b : β) (x : (ElemTy.msg fs os).cls.State) : List Nat :=
  tagNumbers (MsgObj.step (fs.cls 0) os.cls fuel) fuel b x

/-- The field numbers met by `deserialize_check_type(buffer, wire_type)` in the nested data. -/
def metNested (fuel : Nat) (b : β) (wt : WireType) (x : (ElemTy.msg fs os).cls.State) : List Nat :=
  if wt = .lengthDelimited then
    match deserializeVarint 32 b with
    | .ok (.ok v, b) => met fs os fuel (Section.new b v.toNat) x
    | _ => []
  else []

end

/-! ## Calls with labels -/

/-- A call on an object of a generated class, with the field it is for. -/
inductive Call (fs : Fields) (os : Oneofs) : Type 1 where
  /-- `clear()` -/
  | clear
  /-- `operator=(y)`, and `set_x(y)` of the owner -/
  | assign (y : (ElemTy.msg fs os).cls.State)
  /-- `deserialize(buffer)` -/
  | receive (src : Source) (fuel : Nat)
  /-- `deserialize_check_type(buffer, wire_type)` -/
  | receiveAs (src : Source) (fuel : Nat) (wt : WireType)
  /-- `set_x(…)`, `mutable_x()…`, `add_x(…)`, … -/
  | field {num : Nat} {c : Card} {t : ElemTy} (s : Slot fs num c t) (g : (c.cls t).State → Res (c.cls t).State)
  /-- `clear_x()` of an optional field -/
  | clearField {num : Nat} {t : ElemTy} (s : Slot fs num .opt t)
  /-- `set_x(…)`, `mutable_x()…` of a oneof member -/
  | member {a : Alts} {num : Nat} {t : ElemTy} (s : OneofSlot os a) (m : Member a num t)
      (g : t.cls.State → Res t.cls.State)
  /-- `clear_x()` of a oneof member -/
  | clearMember {a : Alts} {num : Nat} {t : ElemTy} (s : OneofSlot os a) (m : Member a num t)

namespace Call
variable {fs : Fields} {os : Oneofs}

/-- What the call does. -/
def run : Call fs os → (ElemTy.msg fs os).cls.State → Res (ElemTy.msg fs os).cls.State
  | .clear, x => (ElemTy.msg fs os).cls.clear x
  | .assign y, x => (ElemTy.msg fs os).cls.assign x y
  | .receive src fuel, x => ((ElemTy.msg fs os).cls.deserialize fuel src.buf x).object
  | .receiveAs src fuel wt, x => ((ElemTy.msg fs os).cls.deserializeCheckType fuel src.buf wt x).object
  | .field s g, x => s.call g x
  | .clearField s, x => s.clearCall x
  | .member s m g, x => m.call s g x
  | .clearMember s m, x => m.clearCall s x

/-- The arguments are ones a program can have. -/
def Legal : Call fs os → Prop
  | .assign y => (ElemTy.msg fs os).Reach y
  | .field (c := c) (t := t) _ g => c.Api t g
  | .member (t := t) _ _ g => MemberApi t.cls.init t.Api g
  | _ => True

end Call

/-- A program made these calls, in this order, on a new object, which is now in state `x`. -/
inductive History {fs : Fields} {os : Oneofs} : List (Call fs os) → (ElemTy.msg fs os).cls.State → Prop where
  | new : History [] (ElemTy.msg fs os).cls.init
  | call {cs : List (Call fs os)} {x y : (ElemTy.msg fs os).cls.State} (c : Call fs os) :
      History cs x → c.Legal → c.run x = .ok y → History (cs ++ [c]) y

end EP
