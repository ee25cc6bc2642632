import Verif.Model.StringBytes

/-!
# `RepeatedField<T>` and `RepeatedFieldFixedSize<T, MAX>` —
/repo/src/RepeatedField.h, /repo/src/RepeatedFieldFixedSize.h

`E` is the class `DATA_TYPE`, `cap` the template parameter `MAX_LENGTH`.
-/

namespace EP

variable {ω β : Type}

/-- Data members `current_length_` and `data_` — RepeatedFieldFixedSize.h:199-203. -/
structure RepObj (α : Type) where
  len : Nat
  data : List α
  deriving DecidableEq, Repr

namespace RepObj
variable (E : FieldClass) (cap : Nat)

/-- Member initialisers — RepeatedFieldFixedSize.h:199-203. -/
def init : RepObj E.State := ⟨0, List.replicate cap E.init⟩

variable {E}

/-- `std::min(index, MAX_LENGTH-1)` — RepeatedFieldFixedSize.h:111. -/
def limit (index : Nat) : Nat := min index (u32sub cap 1)

/-- `get_const(index)` — RepeatedFieldFixedSize.h:119-123. -/
def getConst {α : Type} (cap : Nat) (x : RepObj α) (index : Nat) : Res α :=
  arrayGet x.data (limit cap index)

/-- `get_const(index, value)` — RepeatedFieldFixedSize.h:125-137. -/
def getConstChecked {α : Type} (x : RepObj α) (index : Nat) : Res (Except Error α) :=
  if index < x.len then do
    let v ← arrayGet x.data index
    pure (.ok v)
  else pure (.error .indexOutOfBound)

/-- The length update of `get`/`set` — RepeatedFieldFixedSize.h:112-115, 142-145. -/
def grow {α : Type} (cap : Nat) (x : RepObj α) (index : Nat) : RepObj α :=
  let limited := limit cap index
  { x with len := if limited ≥ x.len then u32 (limited + 1) else x.len }

/-- `get(index)`: the returned reference is used to change the element by `f` —
RepeatedFieldFixedSize.h:109-117. -/
def modifyAt {α : Type} (cap : Nat) (x : RepObj α) (index : Nat) (f : α → Res α) :
    Res (RepObj α) := do
  let y := x.grow cap index
  let v ← arrayGet y.data (limit cap index)
  let v ← f v
  let d ← arraySet y.data (limit cap index) v
  pure { y with data := d }

/-- `set(index, value)` — RepeatedFieldFixedSize.h:139-147. -/
def setAt (x : RepObj E.State) (index : Nat) (value : E.State) : Res (RepObj E.State) :=
  x.modifyAt cap index (fun old => E.assign old value)

/-- Element-wise `data_[i] = rhs[i]` for `i = start, start+1, …` —
RepeatedFieldFixedSize.h:88-91 and 155-159. -/
def copyElems : List E.State → Nat → List E.State → Res (List E.State)
  | data, _, [] => pure data
  | data, i, r :: rs => do
    let old ← arrayGet data i
    let v ← E.assign old r
    let data ← arraySet data i v
    copyElems data (i + 1) rs

/-- `set_data(data, length)` — RepeatedFieldFixedSize.h:149-167. -/
def setData (x : RepObj E.State) (values : List E.State) : Res (Error × RepObj E.State) :=
  if cap ≥ values.length then do
    let d ← copyElems x.data 0 values
    pure (.noErrors, ⟨values.length, d⟩)
  else pure (.arrayFull, x)

/-- `operator=` — RepeatedFieldFixedSize.h:85-95.  Elements above the new length keep their old
contents. -/
def assign (x rhs : RepObj E.State) : Res (RepObj E.State) :=
  if rhs.len ≤ rhs.data.length then do
    let d ← copyElems x.data 0 (rhs.data.take rhs.len)
    pure ⟨rhs.len, d⟩
  else .ub

/-- The constructors from a repeated field of the same (RepeatedFieldFixedSize.h:61-66) or a smaller
(:68-82) maximum length: the length and the whole array, unused elements included, are copied into new
elements.  The copy constructor of an element is taken to be an assignment to a new one. -/
def copyOf (rhs : RepObj E.State) : Res (RepObj E.State) := do
  let d ← copyElems (List.replicate cap E.init) 0 rhs.data
  pure ⟨rhs.len, d⟩

/-- `add(value)` — RepeatedFieldFixedSize.h:169-182. -/
def add (x : RepObj E.State) (value : E.State) : Res (Error × RepObj E.State) :=
  if cap > x.len then do
    let old ← arrayGet x.data x.len
    let v ← E.assign old value
    let d ← arraySet x.data x.len v
    pure (.noErrors, ⟨u32 (x.len + 1), d⟩)
  else pure (.arrayFull, x)

/-- `for(auto& d : data_) d.clear();` — RepeatedFieldFixedSize.h:186-189. -/
def clearElems : List E.State → Res (List E.State)
  | [] => pure []
  | d :: ds => do
    let d ← E.clear d
    let ds ← clearElems ds
    pure (d :: ds)

/-- `clear()` — RepeatedFieldFixedSize.h:184-191. -/
def clear (x : RepObj E.State) : Res (RepObj E.State) := do
  let d ← clearElems x.data
  pure ⟨0, d⟩

/-- `serialize_packed` — RepeatedField.h:307-315.  `n` is `get_length() - i`. -/
def serializePackedLoop [WriteBuffer ω] (x : RepObj E.State) : Nat → Nat → ω → Res (Error × ω)
  | 0, _, w => pure (.noErrors, w)
  | n + 1, i, w => do
    let v ← x.getConst cap i
    let (e, w) ← E.serialize v w
    if e = .noErrors then serializePackedLoop x n (i + 1) w else pure (e, w)

def serializePacked [WriteBuffer ω] (x : RepObj E.State) (w : ω) : Res (Error × ω) :=
  serializePackedLoop cap x x.len 0 w

/-- `serialize_unpacked` — RepeatedField.h:317-336.  `n` is `get_length() - i`. -/
def serializeUnpackedLoop [WriteBuffer ω] (num : Nat) (x : RepObj E.State) :
    Nat → Nat → ω → Res (Error × ω)
  | 0, _, w => pure (.noErrors, w)
  | n + 1, i, w => do
    let v ← x.getConst cap i
    let size ← E.serializedSize v
    let (e, w) ← serializeVarint (makeTag num .lengthDelimited) w
    let (e, w) ← (if e = .noErrors then do
        let (e, w) ← serializeVarint (BitVec.ofNat 32 size) w
        if e = .noErrors ∧ 0 < size then E.serialize v w else pure (e, w)
      else pure (e, w) : Res (Error × ω))
    if e = .noErrors then serializeUnpackedLoop num x n (i + 1) w else pure (e, w)

def serializeUnpacked [WriteBuffer ω] (num : Nat) (x : RepObj E.State) (w : ω) : Res (Error × ω) :=
  serializeUnpackedLoop cap num x x.len 0 w

/-- `REPEATED_FIELD_IS_PACKED` — RepeatedField.h:66-68. -/
def _root_.EP.FieldClass.isPacked (E : FieldClass) : Bool :=
  match E.kind with
  | .message => false
  | .stringBytes => false
  | _ => true

/-- `serialized_size_packed` — RepeatedField.h:241-246. -/
def serializedSizePacked (x : RepObj E.State) : Res Nat := do
  let (_, c) ← serializePacked cap x (⟨0⟩ : SizeCalc)
  pure c.size

/-- `serialized_size_unpacked` — RepeatedField.h:252-257. -/
def serializedSizeUnpacked (num : Nat) (x : RepObj E.State) : Res Nat := do
  let (_, c) ← serializeUnpacked cap num x (⟨0⟩ : SizeCalc)
  pure c.size

/-- `serialize_with_id` — RepeatedField.h:155-201. -/
def serializeWithId [WriteBuffer ω] (num : Nat) (x : RepObj E.State) (w : ω) (optional : Bool) :
    Res (Error × ω) :=
  if E.isPacked then do
    let size ← x.serializedSizePacked cap
    if 0 < size ∨ optional then do
      let (e, w) ← serializeVarint (makeTag num .lengthDelimited) w
      if e = .noErrors then do
        let (e, w) ← serializeVarint (BitVec.ofNat 32 size) w
        if e = .noErrors then
          if size ≤ WriteBuffer.getAvailableSize w then x.serializePacked cap w
          else pure (.bufferFull, w)
        else pure (e, w)
      else pure (e, w)
    else pure (.noErrors, w)
  else do
    let size ← x.serializedSizeUnpacked cap num
    if size ≤ WriteBuffer.getAvailableSize w then x.serializeUnpacked cap num w
    else pure (.bufferFull, w)

/-- The loop of `deserialize_packed` — RepeatedField.h:345-352, from the point where `x` has just
been deserialized with result `e`.  Each iteration is one `add` plus one `deserialize`. -/
def deserializePackedLoop [ReadBuffer β] (fuel : Nat) :
    Nat → Error → E.State → β → RepObj E.State → Res (Error × β × RepObj E.State)
  | 0, _, _, _, _ => .diverge
  | k + 1, e, v, b, x =>
    if e = .noErrors then do
      let (e, x) ← x.add cap v
      if e = .noErrors then do
        let (e, b, v) ← E.deserialize fuel b v
        deserializePackedLoop fuel k e v b x
      else pure (e, b, x)
    else pure (e, b, x)

/-- `deserialize_packed` — RepeatedField.h:338-362.  The error of reading the length is
overwritten (the length is then 0), and `END_OF_BUFFER` of any element means success. -/
def deserializePacked [ReadBuffer β] (fuel : Nat) (b : β) (x : RepObj E.State) :
    Res (Error × β × RepObj E.State) := do
  let (r, b) ← deserializeVarint 32 b
  let size := match r with
    | .ok v => v.toNat
    | .error _ => 0
  let s := Section.new b size
  let (e, s, v) ← E.deserialize fuel s E.init
  let (e, s, x) ← deserializePackedLoop cap fuel fuel e v s x
  if e = .endOfBuffer then pure (.noErrors, s.buffer, x) else pure (e, s.buffer, x)

/-- `get(index).deserialize(buffer)`: the element is deserialized in place; the length grows
first — RepeatedField.h:383, 389 with RepeatedFieldFixedSize.h:109-117. -/
def deserializeElem [ReadBuffer β] (fuel : Nat) (index : Nat) (b : β) (x : RepObj E.State) :
    Res (Error × β × RepObj E.State) := do
  let y := x.grow cap index
  let v ← arrayGet y.data (limit cap index)
  let (e, b, v) ← E.deserialize fuel b v
  let d ← arraySet y.data (limit cap index) v
  pure (e, b, { y with data := d })

/-- `deserialize_unpacked` — RepeatedField.h:364-396. -/
def deserializeUnpacked [ReadBuffer β] (fuel : Nat) (b : β) (x : RepObj E.State) :
    Res (Error × β × RepObj E.State) :=
  let index := x.len
  if cap > index then
    if E.kind = .message then do
      let (r, b) ← deserializeVarint 32 b
      match r with
      | .error e => pure (e, b, x)
      | .ok v => do
        let (e, s, x) ← deserializeElem cap fuel index (Section.new b v.toNat) x
        pure (e, s.buffer, x)
    else deserializeElem cap fuel index b x
  else pure (.arrayFull, b, x)

/-- `deserialize` — RepeatedField.h:209-221. -/
def deserialize [ReadBuffer β] (fuel : Nat) (b : β) (x : RepObj E.State) :
    Res (Error × β × RepObj E.State) :=
  if E.isPacked then deserializePacked cap fuel b x else deserializeUnpacked cap fuel b x

end RepObj

/-- `RepeatedFieldFixedSize<DATA_TYPE, MAX_LENGTH>`. -/
def repeatedClass (E : FieldClass) (cap : Nat) : FieldClass where
  State := RepObj E.State
  kind := .repeated
  init := RepObj.init E cap
  serialize _ w := pure (.bufferFull, w)                    -- RepeatedField.h:148-152
  serializeWithId num x w opt := x.serializeWithId cap num w opt
  deserialize fuel b x := x.deserialize cap fuel b
  deserializeCheckType fuel b wt x :=                       -- RepeatedField.h:223-233
    if wt = .lengthDelimited then x.deserialize cap fuel b else pure (.invalidWiretype, b, x)
  clear x := x.clear
  assign x rhs := x.assign rhs
  set x rhs := x.assign rhs                                 -- FieldRepeated_GetSet.h:89
  plainGuard _ := true                                      -- FieldRepeated_Serialize.h:30

end EP
