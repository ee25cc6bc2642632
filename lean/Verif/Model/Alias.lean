import Verif.Model.Accessors

/-!
# Arguments that are a part of the object itself

The calls of Model/Api.lean take their arguments from other objects.  Here the argument is the object itself
(`x = x`), an element of the array that is changed (`a.add(a.get_const(j))`), characters of the string that is
changed (`s.set(s.get_const() + k, n)`) or a member of the oneof that is changed (`x.set_b(x.get_a())`).  The
argument is then read while the object changes.

`memcpy` and `strncpy` between overlapping places are undefined.
-/

namespace EP

namespace StrObj

/-- `set(get_const() + k, n)`: the source of `memcpy` is in the array it writes —
FieldStringBytes.h:94, 159-172. -/
def setOwn (cap : Nat) (x : StrObj) (k n : Nat) : Res (Error × StrObj) :=
  if cap ≥ n then
    if x.data.length < k + n ∨ k < n then .ub
    else do
      let d ← arrayCopy x.data 0 ((x.data.drop k).take n)
      pure (.noErrors, ⟨n, d⟩)
  else pure (.arrayFull, x)

/-- `set(rhs)` with the object itself as `rhs` — FieldStringBytes.h:148-152; `set_s(get_s())` and the copy of a
string field in `operator=` of its message, FieldString_GetSet.h:83. -/
def setSelf (cap : Nat) (x : StrObj) : Res StrObj := do
  let (_, x) ← x.setOwn cap 0 x.len
  pure x

/-- `FieldString::set(get_const() + k)`: `strnlen` and `strncpy` read the array that `strncpy` writes —
FieldStringBytes.h:335-350, 399-407.  Without a NUL from `k` on, `strnlen` reads on behind the array (it would stop after
`MAX_LENGTH + 1` characters only). -/
def setCStrOwn (cap : Nat) (x : StrObj) (k : Nat) : Res StrObj :=
  if 0 ∈ x.data.drop k then
    let s := (x.data.drop k).takeWhile (· ≠ 0)
    let y := x.setLength cap (strnlen s (u32 (cap + 1)))
    let n := if cap > y.len then u32 (y.len + 1) else y.len
    if k < n then .ub else x.setCStr cap s
  else .ub

end StrObj

namespace RepObj
variable {E : FieldClass} (self : E.State → Res E.State) (cap : Nat)

/-- `data_[i] = data_[j]`; `self` is the assignment of an element to itself. -/
def assignElem (data : List E.State) (i j : Nat) : Res (List E.State) :=
  if i = j then do
    let v ← arrayGet data i
    let v ← self v
    arraySet data i v
  else do
    let v ← arrayGet data j
    let old ← arrayGet data i
    let v ← E.assign old v
    arraySet data i v

/-- `data_[i] = data_[k + i]` for `n` values of `i` — RepeatedFieldFixedSize.h:88-91 and 155-159. -/
def copyOwn (k : Nat) : List E.State → Nat → Nat → Res (List E.State)
  | data, _, 0 => pure data
  | data, i, n + 1 => do
    let data ← assignElem self data i (k + i)
    copyOwn k data (i + 1) n

/-- `set_data(&get_const(k), n)` (also `set_data(get_data_const().data() + k, n)`) —
RepeatedFieldFixedSize.h:149-167. -/
def setDataOwn (x : RepObj E.State) (k n : Nat) : Res (Error × RepObj E.State) :=
  if cap ≥ n then do
    let d ← copyOwn self k x.data 0 n
    pure (.noErrors, ⟨n, d⟩)
  else pure (.arrayFull, x)

/-- `operator=` with the object itself — RepeatedFieldFixedSize.h:85-95. -/
def assignSelf (x : RepObj E.State) : Res (RepObj E.State) := do
  let d ← copyOwn self 0 x.data 0 x.len
  pure ⟨x.len, d⟩

/-- `add(get_const(j))` — RepeatedFieldFixedSize.h:119-123, 169-182. -/
def addOwn (x : RepObj E.State) (j : Nat) : Res (Error × RepObj E.State) :=
  if cap > x.len then do
    let d ← assignElem self x.data x.len (limit cap j)
    pure (.noErrors, ⟨u32 (x.len + 1), d⟩)
  else pure (.arrayFull, x)

/-- `set(i, get_const(j))` — RepeatedFieldFixedSize.h:119-123, 139-147. -/
def setAtOwn (x : RepObj E.State) (i j : Nat) : Res (RepObj E.State) := do
  let y := x.grow cap i
  let d ← assignElem self y.data (limit cap i) (limit cap j)
  pure { y with data := d }

end RepObj

/-- `set_x(get_x())`, given the assignment `self` of the type to itself — Field*_GetSet.h: a string is copied with
`memcpy`, everything else is assigned. -/
def ElemTy.selfSet (t : ElemTy) (self : t.cls.State → Res t.cls.State) : t.cls.State → Res t.cls.State :=
  match t with
  | .str cap => StrObj.setSelf cap
  | .scalar _ => self
  | .msg _ _ => self

mutual
/-- `x = x`.  Scalars and strings have a copy assignment that copies all members; a message assigns member by member,
TypeDefMsg.h:100-121. -/
def ElemTy.selfAssign : (t : ElemTy) → t.cls.State → Res t.cls.State
  | .scalar _, x => pure x
  | .str _, x => pure x
  | .msg fs os, m => do
    let (p, s) ← fs.selfAssign 0 (MsgObj.presence m, MsgObj.fields m)
    let o ← os.selfAssign (MsgObj.oneofs m)
    pure (⟨p, s, o⟩ : MsgObj (fs.cls 0).State os.cls.State)
/-- The fields outside oneofs — TypeDefMsg.h:102-116: `set_x(rhs.get_x())`, for an optional field that is not set
`clear_x()`. -/
def Fields.selfAssign : (fs : Fields) → (idx : Nat) → Presence × (fs.cls idx).State →
    Res (Presence × (fs.cls idx).State)
  | .nil, _, s => pure s
  | .plain _ t rest, idx, s => do
    let x ← t.selfSet t.selfAssign s.2.1
    let (p, r) ← rest.selfAssign idx (s.1, s.2.2)
    pure (p, x, r)
  | .optional _ t rest, idx, s => do
    let has ← Presence.has s.1 idx
    let (p, x) ← (if has then do
        let p ← Presence.setBit s.1 idx
        let x ← t.selfSet t.selfAssign s.2.1
        pure (p, x)
      else do
        let p ← Presence.clearBit s.1 idx
        let x ← t.cls.clear s.2.1
        pure (p, x) : Res (Presence × t.cls.State))
    let (p, r) ← rest.selfAssign (idx + 1) (p, s.2.2)
    pure (p, x, r)
  | .repeated _ _ t rest, idx, s => do
    let x ← RepObj.assignSelf t.selfAssign s.2.1
    let (p, r) ← rest.selfAssign idx (s.1, s.2.2)
    pure (p, x, r)
/-- `set_x(get_x())` of the member `which` — TypeOneof.h:37-46. -/
def Alts.selfSet : (a : Alts) → Nat → Option a.cls.U → Res (Option a.cls.U)
  | .nil, _, u => pure u
  | .cons num t rest, which, u =>
    if which = num then onLeft (t.selfSet t.selfAssign) u else onRight (rest.selfSet which) u
/-- The oneofs — TypeDefMsg.h:117-119, TypeOneof.h:30-48. -/
def Oneofs.selfAssign : (os : Oneofs) → os.cls.State → Res os.cls.State
  | .nil, s => pure s
  | .cons a rest, s => do
    let o ← (if a.cls.hasCase s.1.which then do
        let o ← a.cls.activate s.1 s.1.which
        let u ← a.selfSet o.which o.live
        pure ⟨o.which, u⟩
      else pure s.1 : Res (OneofObj a.cls.U))
    let r ← rest.selfAssign s.2
    pure (o, r)
end

section
variable {fs : Fields} {os : Oneofs} {a : Alts} {num num' : Nat} {t t' : ElemTy}

/-- `x.set_b(part(x.get_a()))` for two members of one oneof: the argument is a reference to (a part of) the member `a`,
which is read after `set_b` has made `b` the live member — Field*_GetSet.h (first branch).  In practice the storage of
`a` then holds the new `b`, so `b` gets its default value. -/
def Member.setFromMember (s : OneofSlot os a) (m : Member a num t) (m' : Member a num' t')
    (part : t'.cls.State → Res t.cls.State) (x : (ElemTy.msg fs os).cls.State) :
    Res (ElemTy.msg fs os).cls.State :=
  onOneofs (s.access fun o => do
    let o ← a.cls.activate o num
    let old ← m'.readUnion o.live
    let v ← part old
    let u ← m.access (fun y => t.cls.set y v) o.live
    pure ⟨o.which, u⟩) x

/-- The same with a copy of the argument: `auto v = part(x.get_a()); x.set_b(v);`. -/
def Member.setFromCopy (s : OneofSlot os a) (m : Member a num t) (m' : Member a num' t')
    (part : t'.cls.State → Res t.cls.State) (x : (ElemTy.msg fs os).cls.State) :
    Res (ElemTy.msg fs os).cls.State := do
  let old ← m'.get s x
  let v ← part old
  m.call s (fun y => t.cls.set y v) x

end

end EP
