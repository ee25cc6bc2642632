import Verif.Model.Repeated

/-!
# `MessageInterface` and the generated message classes

/repo/src/MessageInterface.cpp and the Jinja templates
/repo/generator/EmbeddedProto/templates/{TypeDefMsg,TypeOneof,Field*}.h.
The templates' loops over fields are list-like combinators.
-/

namespace EP

variable {ω β : Type}

/-! ## Unknown fields -/

/-- `skip_length_delimited` — MessageInterface.cpp:145-155.  The result of `advance` is ignored. -/
def skipLengthDelimited [ReadBuffer β] (b : β) : Res (Error × β) := do
  let (r, b) ← deserializeVarint 32 b
  match r with
  | .error e => pure (e, b)
  | .ok n => do
    let (_, b) ← ReadBuffer.advanceN b n.toNat
    pure (.noErrors, b)

/-- Error code of a decode whose value is dropped. -/
def errOf {α : Type} : Except Error α → Error
  | .ok _ => .noErrors
  | .error e => e

/-- `skip_unknown_field` — MessageInterface.cpp:93-143. -/
def skipUnknownField [ReadBuffer β] (b : β) (wt : WireType) : Res (Error × β) :=
  match wt with
  | .varint => do                                           -- skip_varint :125-131
    let (r, b) ← deserializeVarint 64 b
    pure (errOf r, b)
  | .fixed64 => do                                          -- skip_fixed64 :139-143
    let (r, b) ← deserializeFixed 64 b
    pure (errOf r, b)
  | .lengthDelimited => skipLengthDelimited b
  | .fixed32 => do                                          -- skip_fixed32 :133-137
    let (r, b) ← deserializeFixed 32 b
    pure (errOf r, b)
  | _ => pure (.noErrors, b)                                -- default: nothing is consumed

/-! ## Presence flags -/

/-- `presence_[presence::SIZE]` — TypeDefMsg.h:356-393. -/
abbrev Presence := List (BitVec 32)

namespace Presence

/-- `presence::SIZE` — TypeDefMsg.h:379. -/
def size (nFields : Nat) : Nat := nFields / 32 + (if nFields % 32 > 0 then 1 else 0)

/-- Member initialiser `= {0}` — TypeDefMsg.h:392. -/
def init (nFields : Nat) : Presence := List.replicate (size nFields) 0

/-- `presence::index` — TypeDefMsg.h:382. -/
def index (field : Nat) : Nat := field / 32

/-- `presence::mask` — TypeDefMsg.h:385-388. -/
def mask (field : Nat) : BitVec 32 := (1 : BitVec 32) <<< (field % 32)

/-- `has_x()` — FieldBasic_GetSet.h:61-64. -/
def has (p : Presence) (field : Nat) : Res Bool := do
  let w ← arrayGet p (index field)
  pure ((mask field &&& w) != 0)

/-- `presence_[index] |= mask` — FieldBasic_GetSet.h:72, FieldBasic_Deserialize.h:31. -/
def setBit (p : Presence) (field : Nat) : Res Presence := do
  let w ← arrayGet p (index field)
  arraySet p (index field) (w ||| mask field)

/-- `presence_[index] &= ~mask` — FieldBasic_GetSet.h:67. -/
def clearBit (p : Presence) (field : Nat) : Res Presence := do
  let w ← arrayGet p (index field)
  arraySet p (index field) (w &&& ~~~(mask field))

end Presence

/-! ## The fields of a message outside oneofs -/

/-- The code the template emits for `typedef.fields`. -/
structure FieldsClass where
  State : Type
  init : State
  /-- the `{% for field in typedef.fields %} render_serialize` block, TypeDefMsg.h:163-166; takes
  the running `return_value` -/
  serialize : {ω : Type} → [WriteBuffer ω] → Presence → State → Error → ω → Res (Error × ω)
  /-- the `case` labels for these fields, TypeDefMsg.h:197-202; `none` when no label matches -/
  dispatch : {β : Type} → [ReadBuffer β] → (fuel id : Nat) → WireType → β → Presence → State →
    Option (Res (Error × β × Presence × State))
  /-- the calls `clear_x()`, TypeDefMsg.h:240-242 -/
  clear : Presence → State → Res (Presence × State)
  /-- the member-wise copy in constructors and `operator=`, TypeDefMsg.h:102-116 -/
  assign : Presence × State → Presence × State → Res (Presence × State)

namespace FieldsClass

/-- No more fields. -/
def nil : FieldsClass where
  State := Unit
  init := ()
  serialize _ _ e w := pure (e, w)
  dispatch _ _ _ _ _ _ := none
  clear p s := pure (p, s)
  assign l _ := pure l

/-- A singular field without presence, or a repeated field: Field*_Serialize.h:33-37,
Field*_Deserialize.h:33, Field*_GetSet.h (last branch). -/
def plain (num : Nat) (C : FieldClass) (rest : FieldsClass) : FieldsClass where
  State := C.State × rest.State
  init := (C.init, rest.init)
  serialize p s e w := do
    let (e, w) ← (if C.plainGuard s.1 = true ∧ e = .noErrors then C.serializeWithId num s.1 w false
                  else pure (e, w) : Res (Error × _))
    rest.serialize p s.2 e w
  dispatch fuel id wt b p s :=
    if id = num then some do
      let (e, b, x) ← C.deserializeCheckType fuel b wt s.1
      pure (e, b, p, (x, s.2))
    else
      match rest.dispatch fuel id wt b p s.2 with
      | none => none
      | some r => some do
        let (e, b, p, t) ← r
        pure (e, b, p, (s.1, t))
  clear p s := do
    let x ← C.clear s.1
    let (p, t) ← rest.clear p s.2
    pure (p, (x, t))
  assign l r := do
    let x ← C.set l.2.1 r.2.1
    let (p, t) ← rest.assign (l.1, l.2.2) (r.1, r.2.2)
    pure (p, (x, t))

/-- A field with presence bit `idx`: Field*_Serialize.h:31, Field*_Deserialize.h:30-33,
Field*_GetSet.h (middle branch), TypeDefMsg.h:103-111. -/
def optional (num idx : Nat) (C : FieldClass) (rest : FieldsClass) : FieldsClass where
  State := C.State × rest.State
  init := (C.init, rest.init)
  serialize p s e w := do
    let has ← Presence.has p idx
    let (e, w) ← (if has = true ∧ e = .noErrors then C.serializeWithId num s.1 w true
                  else pure (e, w) : Res (Error × _))
    rest.serialize p s.2 e w
  dispatch fuel id wt b p s :=
    if id = num then some do
      let p ← Presence.setBit p idx
      let (e, b, x) ← C.deserializeCheckType fuel b wt s.1
      pure (e, b, p, (x, s.2))
    else
      match rest.dispatch fuel id wt b p s.2 with
      | none => none
      | some r => some do
        let (e, b, p, t) ← r
        pure (e, b, p, (s.1, t))
  clear p s := do
    let p ← Presence.clearBit p idx
    let x ← C.clear s.1
    let (p, t) ← rest.clear p s.2
    pure (p, (x, t))
  assign l r := do
    let has ← Presence.has r.1 idx
    let (p, x) ← (if has then do
        let p ← Presence.setBit l.1 idx
        let x ← C.set l.2.1 r.2.1
        pure (p, x)
      else do
        let p ← Presence.clearBit l.1 idx
        let x ← C.clear l.2.1
        pure (p, x) : Res (Presence × C.State))
    let (p, t) ← rest.assign (p, l.2.2) (r.1, r.2.2)
    pure (p, (x, t))

end FieldsClass

/-! ## Oneofs -/

/-- `which_x_` and the union — TypeDefMsg.h:403-415.  `live` is the union member whose lifetime
has started, if any. -/
structure OneofObj (U : Type) where
  which : Nat
  live : Option U
  deriving DecidableEq, Repr

/-- The code the template emits for the members of one oneof (the `switch` bodies). -/
structure AltsClass where
  /-- union of the member types -/
  U : Type
  /-- is there a `case` label for this field number? -/
  hasCase : Nat → Bool
  /-- `new(&member) T` — TypeOneof.h:62-76 -/
  construct : Nat → Option U → Option U
  /-- `switch(which) … serialize_with_id(…, true)` — TypeDefMsg.h:167-178 -/
  serialize : {ω : Type} → [WriteBuffer ω] → Nat → Option U → Error → ω → Res (Error × ω)
  /-- `switch(which) … deserialize_check_type` — TypeOneof.h:121-129 -/
  deserialize : {β : Type} → [ReadBuffer β] → (fuel which : Nat) → β → WireType → Option U →
    Res (Error × β × Option U)
  /-- `switch(which) … destroy_at` — TypeOneof.h:87-103 -/
  destroy : Nat → Option U → Res (Option U)
  /-- the assignment inside `set_x(rhs.get_x())` for the member `which`, once it is live here;
  reading an inactive member of `rhs` is undefined — TypeOneof.h:37-46 -/
  setFrom : Nat → Option U → Option U → Res (Option U)

namespace AltsClass

/-- The first member of the union if it is live. -/
def left? {A B : Type} : Option (A ⊕ B) → Option A
  | some (.inl a) => some a
  | _ => none

/-- The other members. -/
def right? {A B : Type} : Option (A ⊕ B) → Option B
  | some (.inr b) => some b
  | _ => none

/-- Embed the live member of the remaining alternatives. -/
def inr? {A B : Type} : Option B → Option (A ⊕ B)
  | some b => some (.inr b)
  | none => none

/-- Access the member named in the source; undefined unless it is the live one. -/
def access {A : Type} : Option A → Res A
  | some a => .ok a
  | none => .ub

def nil : AltsClass where
  U := Empty
  hasCase _ := false
  construct _ u := u
  serialize _ _ e w := pure (e, w)
  deserialize _ _ b _ u := pure (.noErrors, b, u)
  destroy _ u := pure u
  setFrom _ u _ := pure u

/-- One member. -/
def cons (num : Nat) (C : FieldClass) (rest : AltsClass) : AltsClass where
  U := C.State ⊕ rest.U
  hasCase id := id == num || rest.hasCase id
  construct id u :=
    if id = num then some (.inl C.init) else inr? (rest.construct id (right? u))
  serialize which u e w :=
    if which = num then do
      -- if(has_x() && NO_ERRORS == return_value): has_x() holds in this case branch
      if e = .noErrors then do
        let x ← access (left? u)
        C.serializeWithId num x w true
      else pure (e, w)
    else rest.serialize which (right? u) e w
  deserialize fuel which b wt u :=
    if which = num then do
      let x ← access (left? u)
      let (e, b, x) ← C.deserializeCheckType fuel b wt x
      pure (e, b, some (.inl x))
    else do
      let (e, b, v) ← rest.deserialize fuel which b wt (right? u)
      pure (e, b, inr? v)
  destroy which u :=
    if which = num then do
      let _ ← access (left? u)
      pure none
    else do
      let v ← rest.destroy which (right? u)
      pure (inr? v)
  setFrom which u rhs :=
    if which = num then do
      let x ← access (left? u)
      let y ← access (left? rhs)
      let x ← C.set x y
      pure (some (.inl x))
    else do
      let v ← rest.setFrom which (right? u) (right? rhs)
      pure (inr? v)

variable (A : AltsClass)

/-- `which_x_ = NOT_SET` and an empty union — TypeDefMsg.h:404-415. -/
def initObj : OneofObj A.U := ⟨0, none⟩

/-- `clear_x()` of the oneof — TypeOneof.h:84-105. -/
def clearObj (o : OneofObj A.U) : Res (OneofObj A.U) := do
  let u ← A.destroy o.which o.live
  pure ⟨0, u⟩

/-- `init_x(field_id)` — TypeOneof.h:52-80. -/
def initTo (o : OneofObj A.U) (id : Nat) : Res (OneofObj A.U) := do
  let o ← (if o.which ≠ 0 then A.clearObj o else pure o : Res (OneofObj A.U))
  pure ⟨id, A.construct id o.live⟩

/-- Make `id` the live member unless it is already — the first statement of `set_x`, `mutable_x`
(FieldBasic_GetSet.h:46-49, FieldMsg_GetSet.h) and of `deserialize_x` (TypeOneof.h:116-119). -/
def activate (o : OneofObj A.U) (id : Nat) : Res (OneofObj A.U) :=
  if id ≠ o.which then A.initTo o id else pure o

/-- `deserialize_x(field_id, buffer, wire_type)` — TypeOneof.h:109-138. -/
def deserializeObj [ReadBuffer β] (fuel id : Nat) (b : β) (wt : WireType) (o : OneofObj A.U) :
    Res (Error × β × OneofObj A.U) := do
  let o ← A.activate o id
  let (e, b, u) ← A.deserialize fuel o.which b wt o.live
  let o : OneofObj A.U := ⟨o.which, u⟩
  if e ≠ .noErrors then do
    let o ← A.clearObj o
    pure (e, b, o)
  else pure (e, b, o)

/-- The `assign` macro — TypeOneof.h:30-48, with `set_x` activating the member first. -/
def assignObj (o rhs : OneofObj A.U) : Res (OneofObj A.U) := do
  let o ← (if rhs.which ≠ o.which then A.clearObj o else pure o : Res (OneofObj A.U))
  if A.hasCase rhs.which then do
    let o ← A.activate o rhs.which
    let u ← A.setFrom rhs.which o.live rhs.live
    pure ⟨o.which, u⟩
  else pure o

end AltsClass

/-- The code the template emits for `typedef.oneofs`. -/
structure OneofsClass where
  State : Type
  init : State
  serialize : {ω : Type} → [WriteBuffer ω] → State → Error → ω → Res (Error × ω)
  dispatch : {β : Type} → [ReadBuffer β] → (fuel id : Nat) → WireType → β → State →
    Option (Res (Error × β × State))
  clear : State → Res State
  assign : State → State → Res State

namespace OneofsClass

def nil : OneofsClass where
  State := Unit
  init := ()
  serialize _ e w := pure (e, w)
  dispatch _ _ _ _ _ := none
  clear s := pure s
  assign l _ := pure l

def cons (A : AltsClass) (rest : OneofsClass) : OneofsClass where
  State := OneofObj A.U × rest.State
  init := (A.initObj, rest.init)
  serialize s e w := do                                     -- TypeDefMsg.h:167-178
    let (e, w) ← A.serialize s.1.which s.1.live e w
    rest.serialize s.2 e w
  dispatch fuel id wt b s :=                                -- TypeDefMsg.h:203-210
    if A.hasCase id then some do
      let (e, b, o) ← A.deserializeObj fuel id b wt s.1
      pure (e, b, (o, s.2))
    else
      match rest.dispatch fuel id wt b s.2 with
      | none => none
      | some r => some do
        let (e, b, t) ← r
        pure (e, b, (s.1, t))
  clear s := do                                             -- TypeDefMsg.h:243-245
    let o ← A.clearObj s.1
    let t ← rest.clear s.2
    pure (o, t)
  assign l r := do                                          -- TypeDefMsg.h:117-119
    let o ← A.assignObj l.1 r.1
    let t ← rest.assign l.2 r.2
    pure (o, t)

end OneofsClass

/-! ## The message class -/

/-- The data members of a generated message — TypeDefMsg.h:352-423. -/
structure MsgObj (F O : Type) where
  presence : Presence
  fields : F
  oneofs : O
  deriving DecidableEq, Repr

/-- The `while` loop of the generated `deserialize` — TypeDefMsg.h:191-233, rotated so that the tag
read at the end of an iteration is the first action of the next one.  `step` is the `switch`. -/
def tagLoop [ReadBuffer β] {σ : Type}
    (step : Nat → WireType → β → σ → Res (Error × β × σ)) :
    Nat → β → σ → Res (Error × β × σ)
  | 0, _, _ => .diverge
  | fuel + 1, b, s => do
    let (t, b) ← deserializeTag b
    match t with
    | .error e => pure (if e = .endOfBuffer then .noErrors else e, b, s)
    | .ok (wt, id) => do
      let (e, b, s) ← step id wt b s
      if e = .noErrors then tagLoop step fuel b s else pure (e, b, s)

namespace MsgObj
variable (F : FieldsClass) (O : OneofsClass)

/-- The `switch(id_tag)` of the generated `deserialize` — TypeDefMsg.h:195-219. -/
def step [ReadBuffer β] (fuel id : Nat) (wt : WireType) (b : β) (m : MsgObj F.State O.State) :
    Res (Error × β × MsgObj F.State O.State) :=
  match F.dispatch fuel id wt b m.presence m.fields with
  | some r => do
    let (e, b, p, s) ← r
    pure (e, b, { m with presence := p, fields := s })
  | none =>
    match O.dispatch fuel id wt b m.oneofs with
    | some r => do
      let (e, b, s) ← r
      pure (e, b, { m with oneofs := s })
    | none =>
      if id = 0 then pure (.invalidFieldId, b, m)
      else do
        let (e, b) ← skipUnknownField b wt
        pure (e, b, m)

/-- `deserialize(buffer)` — TypeDefMsg.h:184-236. -/
def deserialize [ReadBuffer β] (fuel : Nat) (b : β) (m : MsgObj F.State O.State) :
    Res (Error × β × MsgObj F.State O.State) :=
  tagLoop (step F O fuel) fuel b m

/-- `serialize(buffer)` — TypeDefMsg.h:159-182. -/
def serialize [WriteBuffer ω] (m : MsgObj F.State O.State) (w : ω) : Res (Error × ω) := do
  let (e, w) ← F.serialize m.presence m.fields .noErrors w
  O.serialize m.oneofs e w

/-- `serialized_size()` — /repo/src/Fields.cpp:36-41. -/
def serializedSize (m : MsgObj F.State O.State) : Res Nat := do
  let (_, c) ← serialize F O m (⟨0⟩ : SizeCalc)
  pure c.size

/-- `MessageInterface::serialize_with_id` — MessageInterface.cpp:38-71. -/
def serializeWithId [WriteBuffer ω] (num : Nat) (m : MsgObj F.State O.State) (w : ω)
    (optional : Bool) : Res (Error × ω) := do
  let size ← serializedSize F O m
  if 0 < size ∨ optional then do
    let (e, w) ← serializeVarint (makeTag num .lengthDelimited) w
    if e = .noErrors then do
      let (e, w) ← serializeVarint (BitVec.ofNat 32 size) w
      if e = .noErrors then
        if size ≤ WriteBuffer.getAvailableSize w then serialize F O m w
        else pure (.bufferFull, w)
      else pure (e, w)
    else pure (e, w)
  else pure (.noErrors, w)

/-- `MessageInterface::deserialize_check_type` — MessageInterface.cpp:74-90. -/
def deserializeCheckType [ReadBuffer β] (fuel : Nat) (b : β) (wt : WireType)
    (m : MsgObj F.State O.State) : Res (Error × β × MsgObj F.State O.State) :=
  if wt = .lengthDelimited then do
    let (r, b) ← deserializeVarint 32 b
    match r with
    | .error e => pure (e, b, m)
    | .ok v => do
      let (e, s, m) ← deserialize F O fuel (Section.new b v.toNat) m
      pure (e, s.buffer, m)
  else pure (.invalidWiretype, b, m)

/-- `clear()` — TypeDefMsg.h:238-247. -/
def clear (m : MsgObj F.State O.State) : Res (MsgObj F.State O.State) := do
  let (p, s) ← F.clear m.presence m.fields
  let o ← O.clear m.oneofs
  pure ⟨p, s, o⟩

/-- `operator=` — TypeDefMsg.h:100-121.  (The copy and move constructors, :38-80, run the same
statements on a default-initialised object.) -/
def assign (m rhs : MsgObj F.State O.State) : Res (MsgObj F.State O.State) := do
  let (p, s) ← F.assign (m.presence, m.fields) (rhs.presence, rhs.fields)
  let o ← O.assign m.oneofs rhs.oneofs
  pure ⟨p, s, o⟩

end MsgObj

/-- A generated message class with `nOpt` fields that track presence. -/
def messageClass (nOpt : Nat) (F : FieldsClass) (O : OneofsClass) : FieldClass where
  State := MsgObj F.State O.State
  kind := .message
  init := ⟨Presence.init nOpt, F.init, O.init⟩
  serialize m w := m.serialize F O w
  serializeWithId num m w opt := m.serializeWithId F O num w opt
  deserialize fuel b m := m.deserialize F O fuel b
  deserializeCheckType fuel b wt m := m.deserializeCheckType F O fuel b wt
  clear m := m.clear F O
  assign m rhs := m.assign F O rhs
  set m rhs := m.assign F O rhs                             -- FieldMsg_GetSet.h:95
  plainGuard _ := true                                      -- FieldMsg_Serialize.h:33

end EP
