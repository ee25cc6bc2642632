import Verif.Model.GenClass
import Verif.Model.Accessors

/-!
# What the functions of a generated class are to do

In terms of the declaration: the members `K.fs` and `K.os` and the classes of `Verif.Model` made from them.
-/

namespace EP.Gen

/-- The functions for the field `f`, which is on its own in the class. -/
structure FieldServed (K : Class) (f : FieldDesc) {c : Card} {t : ElemTy} (s : Slot K.fs f.number c t) : Prop where
  /-- `x.set_f(y.get_f())` -/
  set : ∀ x y : K.Obj, K.runSet f.name x y =
    s.call (os := K.os) (fun v => (c.cls t).set v (s.state 0 y.fields)) x
  /-- `x.clear_f()` -/
  clear : ∀ x : K.Obj, K.runCall (clearName f.name) x = s.clearCall (os := K.os) x
  /-- `x.get_f()` -/
  get : ∀ {α : Type} (G : (C : FieldClass) → C.State → Res α) (x : K.Obj),
    K.runGet (getName f.name) .const G x = G (c.cls t) (s.state 0 x.fields)
  /-- `x.f()` -/
  name : ∀ {α : Type} (G : (C : FieldClass) → C.State → Res α) (x : K.Obj),
    K.runGet f.name .const G x = G (c.cls t) (s.state 0 x.fields)
  /-- something done to `x.mutable_f()`; there is no such function for an enum -/
  mutable : f.type ≠ .enum ∨ f.repeated = true → ∀ (G : (C : FieldClass) → C.State → Res C.State) (x : K.Obj),
    K.runOn (mutableName f.name) .mutable G x = s.call (os := K.os) (G (c.cls t)) x
  /-- `x.f(index)` -/
  nameAt : f.repeated = true → ∀ {α : Type} (G : (C : FieldClass) → C.State → Res α) (x : K.Obj),
    K.runGet f.name .constAt G x = G (c.cls t) (s.state 0 x.fields)
  /-- something done to `x.mutable_f(index)` -/
  mutableAt : f.repeated = true → ∀ (G : (C : FieldClass) → C.State → Res C.State) (x : K.Obj),
    K.runOn (mutableName f.name) .mutableAt G x = s.call (os := K.os) (G (c.cls t)) x
  /-- `x.set_f(index, value)` -/
  setAt : f.repeated = true → ∀ (G : (C : FieldClass) → C.State → Res C.State) (x : K.Obj),
    K.runOn (setName f.name) .setAt G x = s.call (os := K.os) (G (c.cls t)) x
  /-- `x.add_f(value)` -/
  add : f.repeated = true → ∀ (G : (C : FieldClass) → C.State → Res C.State) (x : K.Obj),
    K.runOn (addName f.name) .value G x = s.call (os := K.os) (G (c.cls t)) x
  /-- `x.has_f()` -/
  has : f.proto3Optional = true → ∀ x : K.Obj, K.callTest (hasName f.name) x = Presence.has x.presence (s.bit 0)

/-- The functions for the field `f`, which is a member of a oneof with the name `o`. -/
structure MemberServed (K : Class) (o : Str) (f : FieldDesc) {a : Alts} {t : ElemTy} (s : OneofSlot K.os a)
    (m : Member a f.number t) : Prop where
  /-- `x.set_f(y.get_f())` -/
  set : ∀ (x y : K.Obj) (z : t.cls.State), (ElemTy.msg K.fs K.os).Reach x → (ElemTy.msg K.fs K.os).Reach y →
    m.get (fs := K.fs) s y = .ok z →
    K.runSet f.name x y = m.call (fs := K.fs) s (fun v => t.cls.set v z) x
  /-- `x.clear_f()` -/
  clear : ∀ x : K.Obj, (ElemTy.msg K.fs K.os).Reach x →
    K.runCall (clearName f.name) x = m.clearCall (fs := K.fs) s x
  /-- `x.get_f()` -/
  get : ∀ {α : Type} (G : (C : FieldClass) → C.State → Res α) (x : K.Obj),
    K.runGet (getName f.name) .const G x = m.get (fs := K.fs) s x >>= G t.cls
  /-- `x.f()` -/
  name : ∀ {α : Type} (G : (C : FieldClass) → C.State → Res α) (x : K.Obj),
    K.runGet f.name .const G x = m.get (fs := K.fs) s x >>= G t.cls
  /-- something done to `x.mutable_f()` -/
  mutable : f.type = .string ∨ f.type = .bytes ∨ f.type = .message →
    ∀ (G : (C : FieldClass) → C.State → Res C.State) (x : K.Obj), (ElemTy.msg K.fs K.os).Reach x →
    K.runOn (mutableName f.name) .mutable G x = m.call (fs := K.fs) s (G t.cls) x
  /-- `x.has_f()` -/
  has : ∀ x : K.Obj, K.callTest (hasName f.name) x = .ok (m.has (fs := K.fs) s x)
  /-- `x.get_which_o()` -/
  which : ∀ x : K.Obj, K.callWhich (getWhichName o) x = .ok (s.which (fs := K.fs) x)
  /-- `x.clear_o()` -/
  clearAll : ∀ x : K.Obj, (ElemTy.msg K.fs K.os).Reach x →
    K.runCall (clearName o) x = onOneofs (s.access a.cls.clearObj) x

/-- The member that stands for the field `f`, as in `Placed`, and its functions. -/
def Served (E : Types) (K : Class) (fields : List FieldDesc) (oneofs : List Str) (f : FieldDesc) : Prop :=
  if f.proto3Optional then ∃ s : Slot K.fs f.number .opt (E.elem f), FieldServed K f s
  else match f.oneofIndex with
    | none =>
      if f.repeated then
        ∃ s : Slot K.fs f.number (.rep (if f.maxLength = 0 then E.repLength f else f.maxLength)) (E.elem f),
          FieldServed K f s
      else ∃ s : Slot K.fs f.number .single (E.elem f), FieldServed K f s
    | some i => ∃ a, a.numbers = (fields.filter fun g => g.oneofIndex == some i).map (·.number) ∧
      ∃ (s : OneofSlot K.os a) (m : Member a f.number (E.elem f)) (o : Str), oneofs[i]? = some o ∧
        MemberServed K o f s m

/-- The functions all classes have do what those of the declaration do; by name there is nothing else in the
class than what the declaration says. -/
structure Implements (E : Types) (K : Class) (fields : List FieldDesc) (oneofs : List Str) : Prop where
  /-- the members are such as `ElemTy.WF` asks for -/
  wf : (ElemTy.msg K.fs K.os).WF
  /-- the members are those of the fields -/
  numbers : (K.fs.numbers ++ K.os.numbers).Perm (fields.map (·.number))
  /-- the default constructor -/
  new : K.new = (ElemTy.msg K.fs K.os).cls.init
  /-- `x.clear()` -/
  clear : ∀ x : K.Obj, (ElemTy.msg K.fs K.os).Reach x → K.runClear x = (ElemTy.msg K.fs K.os).cls.clear x
  /-- `x = y` -/
  assign : ∀ x y : K.Obj, (ElemTy.msg K.fs K.os).Reach x → (ElemTy.msg K.fs K.os).Reach y →
    K.runAssign x y = (ElemTy.msg K.fs K.os).cls.assign x y
  /-- `x.serialize(buffer)` -/
  serialize : ∀ {ω : Type} [WriteBuffer ω] (x : K.Obj) (w : ω), (ElemTy.msg K.fs K.os).Reach x →
    K.runSerialize x w = (ElemTy.msg K.fs K.os).cls.serialize x w
  /-- `x.deserialize(buffer)` -/
  deserialize : ∀ (src : Source) (fuel : Nat) (x : K.Obj), (ElemTy.msg K.fs K.os).Reach x →
    K.runDeserialize fuel src.buf x = (ElemTy.msg K.fs K.os).cls.deserialize fuel src.buf x
  /-- the functions of the fields -/
  fields : ∀ f ∈ fields, Served E K fields oneofs f

/-- What a program does to a reference to the member for `f`: a call of the class of that member, with arguments a
program can have. -/
def LegalUse (K : Class) (f : FieldDesc) (G : (C : FieldClass) → C.State → Res C.State) : Prop :=
  (∀ (c : Card) (t : ElemTy), Slot K.fs f.number c t → c.Api t (G (c.cls t))) ∧
  ∀ (a : Alts) (t : ElemTy), OneofSlot K.os a → Member a f.number t → Card.Api .single t (G t.cls)

/-- The functions of a field that give a reference that is not constant, or change an array. -/
def changers (f : FieldDesc) : List (Str × Sig) :=
  if f.oneofIndex ≠ none ∧ f.proto3Optional = false then
    if f.type = .string ∨ f.type = .bytes ∨ f.type = .message then [(mutableName f.name, .mutable)] else []
  else if f.repeated then
    [(mutableName f.name, .mutable), (mutableName f.name, .mutableAt), (setName f.name, .setAt), (addName f.name, .value)]
  else if f.type = .enum then [] else [(mutableName f.name, .mutable)]

/-- What a program can do to an object `x` with the functions of the class, and how it ends; other objects it uses
satisfy `P`.  The value given to `set_f` is that of a field of an object: an object with any value there can be made
with `deserialize`.  (That value must be there: `get_f()` of a member of a oneof that is not set is undefined.) -/
inductive Use (K : Class) (fields : List FieldDesc) (oneofs : List Str) (P : K.Obj → Prop) (x : K.Obj) :
    Res K.Obj → Prop where
  | clear : Use K fields oneofs P x (K.runClear x)
  | assign {z : K.Obj} : P z → Use K fields oneofs P x (K.runAssign x z)
  | deserialize (src : Source) (fuel : Nat) : Use K fields oneofs P x (K.runDeserialize fuel src.buf x).object
  | clearField {f : FieldDesc} : f ∈ fields → Use K fields oneofs P x (K.runCall (clearName f.name) x)
  | clearOneof {f : FieldDesc} {i : Nat} {o : Str} : f ∈ fields → f.oneofIndex = some i → f.proto3Optional = false →
      oneofs[i]? = some o → Use K fields oneofs P x (K.runCall (clearName o) x)
  | set {z : K.Obj} {f : FieldDesc} : f ∈ fields → P z →
      K.runGet (getName f.name) .const (fun _ _ => .ok ()) z = .ok () → Use K fields oneofs P x (K.runSet f.name x z)
  | change {f : FieldDesc} {n : Str} {s : Sig} {G : (C : FieldClass) → C.State → Res C.State} :
      f ∈ fields → (n, s) ∈ changers f → LegalUse K f G → Use K fields oneofs P x (K.runOn n s G x)

/-- Objects a program makes with the functions of the class. -/
inductive Made (K : Class) (fields : List FieldDesc) (oneofs : List Str) : K.Obj → Prop where
  | new : Made K fields oneofs K.new
  | use {P : K.Obj → Prop} {x y : K.Obj} {r : Res K.Obj} : (∀ z, P z → Made K fields oneofs z) →
      Made K fields oneofs x → Use K fields oneofs P x r → r = .ok y → Made K fields oneofs y

end EP.Gen
