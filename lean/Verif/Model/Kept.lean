import Verif.Model.Accessors

/-!
# References that are kept

`mutable_x()`, `get(i)` and `operator[]` return references to data members of the object
(/repo/generator/EmbeddedProto/templates/Field*_GetSet.h, /repo/src/RepeatedFieldFixedSize.h:109-117).  A program can keep
such a reference and use it after other calls.  All data members are part of the object, so that a reference stays where it
is; presence flags, lengths and selectors are not looked at when it is used.
-/

namespace EP

/-- The data member of a field, in the message. -/
abbrev Slot.place {fs : Fields} {os : Oneofs} {num : Nat} {c : Card} {t : ElemTy} (s : Slot fs num c t)
    (x : (ElemTy.msg fs os).cls.State) : (c.cls t).State := s.state 0 x.fields

/-- A call on the data member of a field through a reference: `g` is done to the member, and nothing else happens. -/
def Slot.through {fs : Fields} {os : Oneofs} {num : Nat} {c : Card} {t : ElemTy} (s : Slot fs num c t)
    (g : (c.cls t).State → Res (c.cls t).State) (x : (ElemTy.msg fs os).cls.State) : Res (ElemTy.msg fs os).cls.State := do
  let z ← g (s.place x)
  pure { x with fields := s.setState 0 x.fields z }

/-- A call on an element of an array through a reference; `current_length_` is not changed
(RepeatedFieldFixedSize.h:109-117 without the lines 112-115, which were executed when the reference was made). -/
def RepObj.through {α : Type} (i : Nat) (g : α → Res α) (x : RepObj α) : Res (RepObj α) := do
  let v ← arrayGet x.data i
  let v ← g v
  let d ← arraySet x.data i v
  pure { x with data := d }

/-- A call on a member of a union through a reference: undefined unless the member is live (TypeOneof.h:87-103 destroys
it).  A member that was destroyed and created again in the same place is the one the reference is to (C++17,
[basic.life]/8). -/
def Member.through {fs : Fields} {os : Oneofs} {num : Nat} {t : ElemTy} {a : Alts} (s : OneofSlot os a) (m : Member a num t)
    (g : t.cls.State → Res t.cls.State) (x : (ElemTy.msg fs os).cls.State) : Res (ElemTy.msg fs os).cls.State := do
  let z ← m.get s x
  let z ← g z
  pure { x with oneofs := s.setState x.oneofs ⟨(s.state x.oneofs).which, some (m.injState z)⟩ }

/-- Where a reference points inside an object of type `T`: at the whole object, or through the data members of
messages, the elements of arrays and the members of oneofs, to an object of type `t` (`c` is `single`) or to the data member
of a repeated field. -/
inductive Ref : ElemTy → Card → ElemTy → Type where
  | here (t : ElemTy) : Ref t .single t
  | single {fs : Fields} {os : Oneofs} {num : Nat} {u t : ElemTy} {c : Card} (s : Slot fs num .single u) (r : Ref u c t) :
      Ref (.msg fs os) c t
  | optional {fs : Fields} {os : Oneofs} {num : Nat} {u t : ElemTy} {c : Card} (s : Slot fs num .opt u) (r : Ref u c t) :
      Ref (.msg fs os) c t
  | repeated {fs : Fields} {os : Oneofs} {num cap : Nat} {u : ElemTy} (s : Slot fs num (.rep cap) u) :
      Ref (.msg fs os) (.rep cap) u
  | element {fs : Fields} {os : Oneofs} {num cap : Nat} {u t : ElemTy} {c : Card} (s : Slot fs num (.rep cap) u)
      (i : Fin cap) (r : Ref u c t) : Ref (.msg fs os) c t
  | member {fs : Fields} {os : Oneofs} {num : Nat} {u t : ElemTy} {c : Card} {a : Alts} (s : OneofSlot os a)
      (m : Member a num u) (r : Ref u c t) : Ref (.msg fs os) c t

namespace Ref

/-- A call through the reference: `g` is done to what it points at. -/
def through : {T t : ElemTy} → {c : Card} → Ref T c t → ((c.cls t).State → Res (c.cls t).State) → T.cls.State →
    Res T.cls.State
  | _, _, _, .here _, g, x => g x
  | _, _, _, .single s r, g, x => s.through (r.through g) x
  | _, _, _, .optional s r, g, x => s.through (r.through g) x
  | _, _, _, .repeated s, g, x => s.through g x
  | _, _, _, .element s i r, g, x => s.through (RepObj.through i (r.through g)) x
  | _, _, _, .member s m r, g, x => m.through s (r.through g) x

/-- What a program finds when it reads through the reference. -/
def read : {T t : ElemTy} → {c : Card} → Ref T c t → T.cls.State → Res (c.cls t).State
  | _, _, _, .here _, x => .ok x
  | _, _, _, .single s r, x => r.read (s.place x)
  | _, _, _, .optional s r, x => r.read (s.place x)
  | _, _, _, .repeated s, x => .ok (s.place x)
  | _, _, _, .element s i r, x => do
    let z ← arrayGet (RepObj.data (s.place x)) i
    r.read z
  | _, _, _, .member s m r, x => do
    let z ← m.get s x
    r.read z

/-- The calls `mutable_a().get(i).mutable_b()…` along the way, made now, and `g` done to their result. -/
def again : {T t : ElemTy} → {c : Card} → Ref T c t → ((c.cls t).State → Res (c.cls t).State) → T.cls.State →
    Res T.cls.State
  | _, _, _, .here _, g, x => g x
  | _, _, _, .single s r, g, x => s.call (r.again g) x
  | _, _, _, .optional s r, g, x => s.call (r.again g) x
  | _, _, _, .repeated s, g, x => s.call g x
  | _, _, _, .element (cap := cap) s i r, g, x => s.call (fun y => RepObj.modifyAt cap y i (r.again g)) x
  | _, _, _, .member s m r, g, x => m.call s (r.again g) x

/-- What has become of a reference. -/
inductive Status where
  /-- it points at something the accessors of the message return -/
  | alive
  /-- it points at memory of the object that holds no value: an optional field that is not set, or an element behind the
  length of the array -/
  | hidden
  /-- it points at a member of a oneof that does not exist any more -/
  | gone
  deriving DecidableEq

/-- The same for something inside of what holds no value. -/
def Status.hide : Status → Status
  | .gone => .gone
  | _ => .hidden

/-- The status, in terms of `has_x()`, `get_length()` and reading the member of a oneof. -/
def status : {T t : ElemTy} → {c : Card} → Ref T c t → T.cls.State → Status
  | _, _, _, .here _, _ => .alive
  | _, _, _, .single s r, x => r.status (s.place x)
  | _, _, _, .optional s r, x =>
    match s.has x with
    | .ok true => r.status (s.place x)
    | _ => (r.status (s.place x)).hide
  | _, _, _, .repeated _, _ => .alive
  | _, _, _, .element s i r, x =>
    match arrayGet (RepObj.data (s.place x)) i with
    | .ok z => if i < RepObj.len (s.place x) then r.status z else (r.status z).hide
    | _ => .gone
  | _, _, _, .member s m r, x =>
    match m.get s x with
    | .ok z => r.status z
    | _ => .gone

end Ref

/-- The states of an object a program can reach that also keeps references, and uses them while they are alive. -/
inductive ElemTy.KeptReach (T : ElemTy) : T.cls.State → Prop where
  | new : KeptReach T T.cls.init
  | call {f : T.cls.State → Res T.cls.State} {R : T.cls.State → Prop} {x y : T.cls.State} : KeptReach T x →
      (∀ z, R z → T.Reach z) → T.Api R f → f x = .ok y → KeptReach T y
  | through {t : ElemTy} {c : Card} {x y : T.cls.State} (r : Ref T c t) (g : (c.cls t).State → Res (c.cls t).State) :
      KeptReach T x → c.Api t g → r.status x = .alive → r.through g x = .ok y → KeptReach T y

end EP
