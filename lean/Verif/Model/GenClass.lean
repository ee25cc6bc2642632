import Verif.Model.GenMessage
import Verif.Spec.Slot
import Verif.Spec.Names

/-!
# The class the templates emit, with its names

What rendering /repo/generator/EmbeddedProto/templates/{TypeDefMsg,TypeOneof,Field*}.h for a message yields:
the declarations and the statements of the member functions, in which everything is referred to by name, as in
the text of the header.  The second half is an interpreter, which looks the names up.

The text is represented by syntax trees.  A pair of overloads with the same body (`const T&`, `const T&&`) is one
function.  The control flow that does not depend on the message (the loop in `deserialize`) is written in the
interpreter.
-/

namespace EP.Gen

/-! ## Names -/

/-- `variable_name` — Field.py:54; `Oneof.get_variable_name` — Oneof.py:54-55. -/
def under (s : Str) : Str := s ++ ['_']

/-- `get_which_oneof` — Oneof.py:57-58. -/
def whichName (o : Str) : Str := "which_".toList ++ under o

def hasName (x : Str) : Str := "has_".toList ++ x
def clearName (x : Str) : Str := "clear_".toList ++ x
def setName (x : Str) : Str := "set_".toList ++ x
def getName (x : Str) : Str := "get_".toList ++ x
def mutableName (x : Str) : Str := "mutable_".toList ++ x
def addName (x : Str) : Str := "add_".toList ++ x
def getWhichName (o : Str) : Str := "get_which_".toList ++ o
def initName (o : Str) : Str := "init_".toList ++ o
def deserializeName (o : Str) : Str := "deserialize_".toList ++ o
def toStringName (o : Str) : Str := "to_string_".toList ++ o

/-- The constant that holds the name of a field — Field*_GetSet.h:30. -/
def constName (x : Str) : Str := upper x ++ "_NAME".toList

def notSet : Str := "NOT_SET".toList

/-- `Field.get_variable_name` — Field.py:103-108: `x_`, or `o_.x_` in a oneof. -/
inductive Place where
  | var (x : Str)
  | alt (o x : Str)
  deriving DecidableEq, Repr

/-! ## Statements -/

inductive Cond where
  /-- `0 != (presence::mask(presence::fields::f) & presence_[presence::index(presence::fields::f)])` -/
  | bit (f : Str)
  /-- `FieldNumber::id == w` -/
  | whichIs (id w : Str)
  /-- `FieldNumber::id != w` -/
  | whichNot (id w : Str)
  /-- `field_id != w`, with the parameter of the function -/
  | argNot (w : Str)
  /-- `rhs.f()` -/
  | rhsHas (f : Str)
  /-- `rhs.f() != w` -/
  | rhsWhichNot (f w : Str)
  deriving DecidableEq, Repr

inductive Act where
  /-- `presence_[presence::index(presence::fields::f)] |= presence::mask(presence::fields::f);` -/
  | setBit (f : Str)
  /-- `presence_[presence::index(presence::fields::f)] &= ~(presence::mask(presence::fields::f));` -/
  | clearBit (f : Str)
  /-- `x.clear();` -/
  | clear (x : Place)
  /-- `x = value;` or `x.set(rhs);` with the parameter of the function -/
  | assign (x : Place)
  /-- `new(&x) T;` -/
  | new (x : Place)
  /-- `destroy_at(&x);` or `x.~T();` -/
  | destroy (x : Place)
  /-- `w = FieldNumber::id;` -/
  | setWhich (w id : Str)
  /-- `w = field_id;` -/
  | setWhichArg (w : Str)
  /-- `f();` -/
  | call (f : Str)
  /-- `f(FieldNumber::id);` -/
  | callId (f id : Str)
  /-- `f(field_id);` -/
  | callArg (f : Str)
  /-- `f(rhs.g());` -/
  | callSet (f g : Str)
  deriving DecidableEq, Repr

inductive Scrut where
  /-- `w` -/
  | which (w : Str)
  /-- `field_id` -/
  | arg
  /-- `rhs.f()` -/
  | rhsWhich (f : Str)
  deriving DecidableEq, Repr

inductive Stmt where
  | act (a : Act)
  | ite (c : Cond) (yes no : List Act)
  /-- `switch(s) { case FieldNumber::id: acts break; … default: break; }` -/
  | switch (s : Scrut) (cases : List (Str × List Act))
  deriving DecidableEq, Repr

/-- The condition of a statement in `serialize`. -/
inductive Guard where
  /-- `f()` -/
  | has (f : Str)
  /-- `default != x.get()` -/
  | notDefault (x : Place)
  | always
  deriving DecidableEq, Repr

/-- `if(guard && (NO_ERRORS == return_value)) { return_value =
x.serialize_with_id(static_cast<uint32_t>(FieldNumber::id), buffer, flag); }` -/
structure SerField where
  guard : Guard
  place : Place
  id : Str
  flag : Bool
  deriving DecidableEq, Repr

/-- The statements of `serialize`.  Nothing is emitted for a field that is left out. -/
inductive Ser where
  | field (s : Option SerField)
  | switch (w : Str) (cases : List (Str × Option SerField))
  deriving DecidableEq, Repr

/-- The statements after a `case` that decodes a field. -/
inductive Des where
  | setBit (f : Str)
  /-- `return_value = x.deserialize_check_type(buffer, wire_type);` -/
  | field (x : Place)
  deriving DecidableEq, Repr

/-- The names in `deserialize_o` — TypeOneof.h:109-138. -/
structure DesOneof where
  which : Str
  init : Str
  cases : List (Str × List Des)
  clear : Str
  deriving DecidableEq, Repr

/-- A `case` of `deserialize` — TypeDefMsg.h:197-210. -/
inductive Case where
  | field (id : Str) (body : List Des)
  /-- the labels of all members, `return_value = f(id_tag, buffer, wire_type);` -/
  | oneof (ids : List Str) (f : Str)
  deriving DecidableEq, Repr

/-- A member function, by its parameters. -/
inductive Body where
  /-- `bool f() const { return c; }` -/
  | test (c : Cond)
  /-- `const T& f() const { return x; }` (or a part of it: `get_const()`, …) -/
  | get (x : Place)
  /-- `uint8_t f() const { return 0; }` -/
  | zero
  /-- `FieldNumber f() const { return w; }` -/
  | getWhich (w : Str)
  /-- `void f() { … }` -/
  | run (b : List Stmt)
  /-- `T& f() { …; return x; }` -/
  | ref (b : List Stmt) (x : Place)
  /-- `void f(const T& value) { … }` -/
  | value (b : List Stmt)
  /-- `void f(const FieldNumber field_id) { … }` -/
  | id (b : List Stmt)
  /-- `Error f(const FieldNumber field_id, ReadBufferInterface& buffer, const WireType wire_type) { … }` -/
  | des (d : DesOneof)
  /-- `const T& f(uint32_t index) const { return x[index]; }` -/
  | at (x : Place)
  /-- `T& f(uint32_t index) { return x[index]; }` -/
  | refAt (x : Place)
  /-- `void f(uint32_t index, const T& value) { x.set(index, value); }` -/
  | setAt (x : Place)
  /-- `void f(const T& value) { x.add(value); }` -/
  | add (x : Place)
  deriving DecidableEq, Repr

/-- What distinguishes overloads of one name: the parameters, and `const`. -/
inductive Sig where
  | const | mutable | value | id | des | constAt | mutableAt | setAt | buffer | constBuffer | string | string4
  deriving DecidableEq, Repr

def Body.sig : Body → Sig
  | .test _ | .get _ | .zero | .getWhich _ => .const
  | .run _ | .ref _ _ => .mutable
  | .value _ | .add _ => .value
  | .id _ => .id
  | .des _ => .des
  | .at _ => .constAt
  | .refAt _ => .mutableAt
  | .setAt _ => .setAt

/-- The data member a function changes through a reference or a function of its own, after some statements. -/
def Body.target : Body → Option (List Stmt × Place)
  | .ref b x => some (b, x)
  | .refAt x | .setAt x | .add x => some ([], x)
  | _ => none

/-- The data member a function reads. -/
def Body.source : Body → Option Place
  | .get x | .at x => some x
  | _ => none

/-- `union o { … }; o o_;` and `FieldNumber which_o_` — TypeDefMsg.h:403-415.  The types of the members are
in `Class.os`. -/
structure Union where
  type : Str
  which : Str
  var : Str
  members : List Str
  deriving DecidableEq, Repr

structure Class where
  name : Str
  /-- the enumerators of `FieldNumber` — TypeDefMsg.h:92-98 -/
  enumerators : List (Str × Nat)
  /-- the enumerators of `presence::fields` — TypeDefMsg.h:362-367 -/
  presence : List Str
  /-- the names of the variables outside unions; their types are in `fs` -/
  vars : List Str
  fs : Fields
  unions : List Union
  os : Oneofs
  /-- the constants `X_NAME` -/
  consts : List (Str × Str)
  funs : List (Str × Body)
  /-- `operator=` (and the copy constructors, which have the same statements) -/
  assign : List Stmt
  clear : List Stmt
  serialize : List Ser
  /-- the cases of `deserialize` other than `NOT_SET` and `default` -/
  cases : List Case
  /-- the cases of `field_number_to_name` -/
  names : List (Str × Str)

/-! ## The templates -/

/-- `oneof_allocation_required` — Field.py:126-127: of all types but enums. -/
def GField.allocate (g : GField) : Bool := g.desc.type != .enum

/-- Field{Basic,Enum,Msg,String,Bytes,Repeated,ErrorRecursive}_GetSet.h for a field outside oneofs (second and
third branch). -/
def fieldFuns (g : GField) : List (Str × Body) :=
  let x := g.desc.name
  let v := Place.var (under x)
  match g.shape with
  | .recursive =>
    [(clearName x, .run []), (setName x, .value []), (getName x, .zero), (x, .zero)]
  | .repeated =>
    [(x, .at v), (clearName x, .run [.act (.clear v)]), (setName x, .setAt v),
     (setName x, .value [.act (.assign v)]), (addName x, .add v), (mutableName x, .ref [] v),
     (mutableName x, .refAt v), (getName x, .get v), (x, .get v)]
  | .single =>
    if g.desc.proto3Optional then
      [(hasName x, .test (.bit (upper x))),
       (clearName x, .run [.act (.clearBit (upper x)), .act (.clear v)]),
       (setName x, .value [.act (.setBit (upper x)), .act (.assign v)])] ++
      (if g.desc.type = .enum then [] else [(mutableName x, .ref [.act (.setBit (upper x))] v)]) ++
      [(getName x, .get v), (x, .get v)]
    else
      [(clearName x, .run [.act (.clear v)]), (setName x, .value [.act (.assign v)])] ++
      (if g.desc.type = .enum then [] else [(mutableName x, .ref [] v)]) ++
      [(getName x, .get v), (x, .get v)]

/-- `if(FieldNumber::X != which_o_) { init_o(FieldNumber::X); }` -/
def activateStmt (o : Str) (g : GField) : Stmt :=
  .ite (.whichNot (upper g.desc.name) (whichName o)) [.callId (initName o) (upper g.desc.name)] []

/-- Field{Basic,Enum,Msg,String,Bytes,ErrorRecursive}_GetSet.h for a member of the oneof `o` (first branch).
There is no `mutable_x` for scalars and enums.  With `alloc`, an enum is treated as the other types. -/
def altFuns (alloc : Bool) (o : Str) (g : GField) : List (Str × Body) :=
  let x := g.desc.name
  let v := Place.alt (under o) (under x)
  match g.shape with
  | .recursive =>
    [(clearName x, .run []), (setName x, .value []), (getName x, .zero), (x, .zero)]
  | _ =>
    [(hasName x, .test (.whichIs (upper x) (whichName o))),
     (clearName x, .run [.ite (.whichIs (upper x) (whichName o))
       [.setWhich (whichName o) notSet, if alloc || g.allocate then .destroy v else .clear v] []]),
     (setName x, .value [activateStmt o g, .act (.assign v)])] ++
    (match g.desc.type with
      | .scalar _ | .enum => []
      | _ => [(mutableName x, .ref [activateStmt o g] v)]) ++
    [(getName x, .get v), (x, .get v)]

/-- The functions of a oneof — TypeDefMsg.h:147, TypeOneof.h:52-80 (`init`), :84-105 (`clear`), :109-138
(`deserialize`); `to_string_o` is not a statement of this model, its name is in `Class.declared`. -/
def oneofFuns (alloc : Bool) (o : GOneof) : List (Str × Body) :=
  let place := fun (g : GField) => Place.alt (under o.name) (under g.desc.name)
  [(getWhichName o.name, .getWhich (whichName o.name)),
   (initName o.name, .id
     [.ite (.whichNot notSet (whichName o.name)) [.call (clearName o.name)] [],
      .switch .arg ((o.fields.filter fun g => alloc || g.allocate).map fun g =>
        (upper g.desc.name, [.new (place g)])),
      .act (.setWhichArg (whichName o.name))]),
   (clearName o.name, .run
     [.switch (.which (whichName o.name)) (o.fields.map fun g =>
        (upper g.desc.name, [if alloc || g.allocate then .destroy (place g) else .clear (place g)])),
      .act (.setWhich (whichName o.name) notSet)]),
   (deserializeName o.name, .des
     { which := whichName o.name
       init := initName o.name
       cases := o.fields.map fun g =>
         (upper g.desc.name, if g.shape = .recursive then [] else [.field (place g)])
       clear := clearName o.name })]

/-- TypeDefMsg.h:102-116. -/
def assignField (g : GField) : Stmt :=
  let x := g.desc.name
  if g.desc.proto3Optional then
    .ite (.rhsHas (hasName x)) [.callSet (setName x) (getName x)] [.call (clearName x)]
  else .act (.callSet (setName x) (getName x))

/-- The macro `assign` — TypeOneof.h:30-48. -/
def assignOneof (o : GOneof) : List Stmt :=
  [.ite (.rhsWhichNot (getWhichName o.name) (whichName o.name)) [.call (clearName o.name)] [],
   .switch (.rhsWhich (getWhichName o.name)) (o.fields.map fun g =>
     (upper g.desc.name, [.callSet (setName g.desc.name) (getName g.desc.name)]))]

/-- Field{Basic,Enum,Msg,StringBytes,Repeated}_Serialize.h; nothing for a `FieldErrorRecursive`
(Field.py:567-568). -/
def serField (v : Place) (inOneof : Bool) (g : GField) : Option SerField :=
  let flag := g.desc.proto3Optional || inOneof
  match g.shape with
  | .recursive => none
  | .repeated => some ⟨.always, v, upper g.desc.name, flag⟩
  | .single => some
    ⟨if flag then .has (hasName g.desc.name)
     else match g.desc.type with
       | .scalar _ | .enum => .notDefault v
       | _ => .always,
     v, upper g.desc.name, flag⟩

/-- Field{Basic,Enum,Msg}_Deserialize.h; nothing for a `FieldErrorRecursive` (Field.py:570-571). -/
def desField (g : GField) : List Des :=
  match g.shape with
  | .recursive => []
  | _ => (if g.desc.proto3Optional then [.setBit (upper g.desc.name)] else []) ++ [.field (.var (under g.desc.name))]

/-- TypeDefMsg.h. -/
def render (alloc : Bool) (E : Types) (name : Str) (m : GMessage) : Class where
  name := name
  enumerators := (notSet, 0) :: m.fieldIds.map fun p => (p.2, p.1)
  presence := m.optionalFields.map fun g => upper g.desc.name
  vars := (m.fields.filter fun g => g.shape != .recursive).map fun g => under g.desc.name
  fs := classFields E m.fields
  unions := m.oneofs.map fun o =>
    { type := o.name
      which := whichName o.name
      var := under o.name
      members := (o.fields.filter fun g => g.shape != .recursive).map fun g => under g.desc.name }
  os := classOneofs E m.oneofs
  consts := (m.fields ++ m.oneofs.flatMap (·.fields)).map fun g => (constName g.desc.name, g.desc.name)
  funs := m.fields.flatMap fieldFuns ++
    m.oneofs.flatMap fun o => oneofFuns alloc o ++ o.fields.flatMap (altFuns alloc o.name)
  assign := m.fields.map assignField ++ m.oneofs.flatMap assignOneof
  clear := m.fields.map (fun g => .act (.call (clearName g.desc.name))) ++
    m.oneofs.map fun o => .act (.call (clearName o.name))
  serialize := m.fields.map (fun g => .field (serField (.var (under g.desc.name)) false g)) ++
    m.oneofs.map fun o => .switch (whichName o.name) (o.fields.map fun g =>
      (upper g.desc.name, serField (.alt (under o.name) (under g.desc.name)) true g))
  cases := m.fields.map (fun g => .field (upper g.desc.name) (desField g)) ++
    m.oneofs.map fun o => .oneof (o.fields.map fun g => upper g.desc.name) (deserializeName o.name)
  names := (m.fields ++ m.oneofs.flatMap (·.fields)).map fun g => (upper g.desc.name, constName g.desc.name)

/-! ## What a compiler checks -/

/-- A declaration in the scope of the class: functions of one name need different parameters, any other name
can be declared once. -/
inductive Decl where
  | fn (name : Str) (sig : Sig)
  | other (name : Str)
  deriving DecidableEq, Repr

def Decl.name : Decl → Str
  | .fn n _ => n
  | .other n => n

def Decl.clashes : Decl → Decl → Bool
  | .fn n s, .fn n' s' => n == n' && s == s'
  | a, b => a.name == b.name

/-- The declarations in the scope of the class.  `nested` are the names of nested types. -/
def Class.declared (K : Class) (nested : List Str) : List Decl :=
  (K.name :: nested).map .other ++ [.other "FieldNumber".toList] ++
  (if K.presence = [] then [] else [.other "presence".toList, .other "presence_".toList]) ++
  K.vars.map .other ++
  K.unions.flatMap (fun u => [.other u.type, .other u.which, .other u.var, .fn (toStringName u.type) .string4]) ++
  K.consts.map (.other ·.1) ++
  K.funs.map (fun f => .fn f.1 f.2.sig) ++
  [.fn "serialize".toList .constBuffer, .fn "deserialize".toList .buffer, .fn "clear".toList .mutable,
   .fn "field_number_to_name".toList .id, .fn "to_string".toList .string, .fn "to_string".toList .string4]

/-- Nothing is declared twice: in the class, in the two enums, in a union. -/
structure Class.Distinct (K : Class) (nested : List Str) : Prop where
  scope : (K.declared nested).Pairwise fun a b => a.clashes b = false
  enumerators : (K.enumerators.map (·.1)).Nodup
  presence : K.presence.Nodup
  members : ∀ u ∈ K.unions, u.members.Nodup

/-- Moreover no name is a keyword, and no function that is inherited gets hidden. -/
structure Class.Compiles (K : Class) (nested : List Str) : Prop where
  distinct : K.Distinct nested
  keyword : ∀ d ∈ K.declared nested, d.name ∉ keywords
  enumerators : ∀ e ∈ K.enumerators, e.1 ∉ keywords
  hidden : ∀ d ∈ K.declared nested, d.name ∉ nameInherited

/-! ## The interpreter

A name that is not declared is treated like undefined behaviour; such a class does not compile. -/

/-- Something that must be declared, or must be alive. -/
def need {α : Type} : Option α → Res α
  | some a => .ok a
  | none => .ub

/-- A data member, of whatever class. -/
structure Ref (Obj : Type) where
  C : FieldClass
  get : Obj → Res C.State
  put : Obj → C.State → Obj
  kill : Obj → Res Obj

/-- A data member outside unions. -/
structure ASlot (fs : Fields) where
  {num : Nat}
  {c : Card}
  {t : ElemTy}
  slot : Slot fs num c t

/-- The variable with the name `x`, where the variables have the given names. -/
def findVar : (fs : Fields) → List Str → Str → Option (ASlot fs)
  | .plain num t rest, y :: ys, x =>
    if x = y then some ⟨.plain num t rest⟩ else (findVar rest ys x).map fun s => ⟨.afterPlain num t s.slot⟩
  | .optional num t rest, y :: ys, x =>
    if x = y then some ⟨.optional num t rest⟩ else (findVar rest ys x).map fun s => ⟨.afterOptional num t s.slot⟩
  | .repeated num cap t rest, y :: ys, x =>
    if x = y then some ⟨.repeated num cap t rest⟩
    else (findVar rest ys x).map fun s => ⟨.afterRepeated num cap t s.slot⟩
  | _, _, _ => none

/-- A union. -/
structure AUnion (os : Oneofs) where
  {alts : Alts}
  slot : OneofSlot os alts
  members : List Str

def findUnion (p : Union → Bool) : (os : Oneofs) → List Union → Option (AUnion os)
  | .cons a rest, u :: us =>
    if p u then some ⟨.here a rest, u.members⟩ else (findUnion p rest us).map fun s => ⟨.after a s.slot, s.members⟩
  | _, _ => none

structure AMember (a : Alts) where
  {num : Nat}
  {t : ElemTy}
  member : Member a num t

def findMember : (a : Alts) → List Str → Str → Option (AMember a)
  | .cons num t rest, y :: ys, x =>
    if x = y then some ⟨.here num t rest⟩ else (findMember rest ys x).map fun s => ⟨.after num t s.member⟩
  | _, _, _ => none

namespace Class

/-- The data members of the class. -/
abbrev Obj (K : Class) : Type := MsgObj (K.fs.cls 0).State K.os.cls.State

/-- An object made by the default constructor: the member initialisers, TypeDefMsg.h:379-415. -/
def new (K : Class) : K.Obj := ⟨Presence.init K.presence.length, (K.fs.cls 0).init, K.os.cls.init⟩

variable (K : Class)

/-- `FieldNumber::id` -/
def number (id : Str) : Res Nat := need (K.enumerators.lookup id)

/-- `presence::fields::f` -/
def presenceIndex (f : Str) : Res Nat := need (K.presence.idxOf? f)

/-- The function `f` with the given parameters. -/
def fun? (f : Str) (s : Sig) : Option Body := (K.funs.find? fun p => p.1 == f && p.2.sig == s).map (·.2)

def varRef (s : ASlot K.fs) : Ref K.Obj where
  C := s.c.cls s.t
  get o := .ok (s.slot.state 0 o.fields)
  put o w := { o with fields := s.slot.setState 0 o.fields w }
  kill _ := .ub

/-- A member of a union; only the live one can be used. -/
def altRef (u : AUnion K.os) (m : AMember u.alts) : Ref K.Obj where
  C := m.t.cls
  get o := need ((u.slot.state o.oneofs).live.bind m.member.projState)
  put o w := { o with oneofs := u.slot.setState o.oneofs ⟨(u.slot.state o.oneofs).which, some (m.member.injState w)⟩ }
  kill o := .ok { o with oneofs := u.slot.setState o.oneofs ⟨(u.slot.state o.oneofs).which, none⟩ }

/-- The data member a place refers to. -/
def ref : Place → Option (Ref K.Obj)
  | .var x => (findVar K.fs K.vars x).map K.varRef
  | .alt o x =>
    (findUnion (·.var == o) K.os K.unions).bind fun u => (findMember u.alts u.members x).map (K.altRef u)

def getWhich (w : Str) (o : K.Obj) : Res Nat :=
  match findUnion (·.which == w) K.os K.unions with
  | some u => .ok (u.slot.state o.oneofs).which
  | none => .ub

def putWhich (w : Str) (n : Nat) (o : K.Obj) : Res K.Obj :=
  match findUnion (·.which == w) K.os K.unions with
  | some u => .ok { o with oneofs := u.slot.setState o.oneofs ⟨n, (u.slot.state o.oneofs).live⟩ }
  | none => .ub

/-- The argument of a function. -/
inductive Arg (Obj : Type) where
  | none
  /-- `field_id` -/
  | id (n : Nat)
  /-- `value`: what `get_y()` of `rhs` returned -/
  | value (x : Place) (rhs : Obj)
  /-- `value`: 0 -/
  | zero
  /-- `rhs` -/
  | rhs (rhs : Obj)

def Arg.sig {Obj : Type} : Arg Obj → Sig
  | .none => .mutable
  | .id _ => .id
  | .value _ _ => .value
  | .zero => .value
  | .rhs _ => .value

/-- Conditions on the object itself. -/
def test (c : Cond) (o : K.Obj) : Res Bool :=
  match c with
  | .bit f => do
    let i ← K.presenceIndex f
    Presence.has o.presence i
  | .whichIs id w => do
    let n ← K.number id
    let k ← K.getWhich w o
    pure (n == k)
  | .whichNot id w => do
    let n ← K.number id
    let k ← K.getWhich w o
    pure (n != k)
  | _ => .ub

/-- `f()` of a function that returns a `bool`. -/
def callTest (f : Str) (o : K.Obj) : Res Bool :=
  match K.fun? f .const with
  | some (.test c) => K.test c o
  | _ => .ub

/-- `f()` of a function that returns `FieldNumber`. -/
def callWhich (f : Str) (o : K.Obj) : Res Nat :=
  match K.fun? f .const with
  | some (.getWhich w) => K.getWhich w o
  | _ => .ub

def cond (a : Arg K.Obj) (c : Cond) (o : K.Obj) : Res Bool :=
  match c, a with
  | .argNot w, .id n => do
    let k ← K.getWhich w o
    pure (n != k)
  | .rhsHas f, .rhs r => K.callTest f r
  | .rhsWhichNot f w, .rhs r => do
    let n ← K.callWhich f r
    let k ← K.getWhich w o
    pure (n != k)
  | c, _ => K.test c o

/-- One statement; `call` runs a member function. -/
def act (call : Str → Arg K.Obj → K.Obj → Res K.Obj) (a : Arg K.Obj) (s : Act) (o : K.Obj) : Res K.Obj :=
  match s with
  | .setBit f => do
    let i ← K.presenceIndex f
    let p ← Presence.setBit o.presence i
    pure { o with presence := p }
  | .clearBit f => do
    let i ← K.presenceIndex f
    let p ← Presence.clearBit o.presence i
    pure { o with presence := p }
  | .clear x =>
    match K.ref x with
    | some r => do
      let v ← r.get o
      let v ← r.C.clear v
      pure (r.put o v)
    | none => .ub
  | .assign x =>
    match a, K.ref x with
    | .value y rhs, some r =>
      if x = y then do
        let v ← r.get o
        let v' ← r.get rhs
        let v ← r.C.set v v'
        pure (r.put o v)
      else .ub
    | _, _ => .ub
  | .new x =>
    match K.ref x with
    | some r => .ok (r.put o r.C.init)
    | none => .ub
  | .destroy x =>
    match K.ref x with
    | some r => do
      let _ ← r.get o
      r.kill o
    | none => .ub
  | .setWhich w id => do
    let n ← K.number id
    K.putWhich w n o
  | .setWhichArg w =>
    match a with
    | .id n => K.putWhich w n o
    | _ => .ub
  | .call f => call f .none o
  | .callId f id => do
    let n ← K.number id
    call f (.id n) o
  | .callArg f =>
    match a with
    | .id n => call f (.id n) o
    | _ => .ub
  | .callSet f g =>
    match a, K.fun? g .const with
    | .rhs r, some (.get y) => call f (.value y r) o
    | .rhs _, some .zero => call f .zero o
    | _, _ => .ub

def acts (call : Str → Arg K.Obj → K.Obj → Res K.Obj) (a : Arg K.Obj) (l : List Act) (o : K.Obj) : Res K.Obj :=
  l.foldlM (fun o s => K.act call a s o) o

/-- The statements of the case with this value; nothing if there is none. -/
def select {α : Type} (n : Nat) : List (Str × α) → Res (Option α)
  | [] => .ok none
  | (id, b) :: l => do
    let k ← K.number id
    if n = k then pure (some b) else select n l

def scrut (a : Arg K.Obj) (s : Scrut) (o : K.Obj) : Res Nat :=
  match s, a with
  | .which w, _ => K.getWhich w o
  | .arg, .id n => .ok n
  | .rhsWhich f, .rhs r => K.callWhich f r
  | _, _ => .ub

def stmt (call : Str → Arg K.Obj → K.Obj → Res K.Obj) (a : Arg K.Obj) (s : Stmt) (o : K.Obj) : Res K.Obj :=
  match s with
  | .act s => K.act call a s o
  | .ite c yes no => do
    let b ← K.cond a c o
    if b then K.acts call a yes o else K.acts call a no o
  | .switch s cases => do
    let n ← K.scrut a s o
    let b ← K.select n cases
    match b with
    | some l => K.acts call a l o
    | none => pure o

def stmts (call : Str → Arg K.Obj → K.Obj → Res K.Obj) (a : Arg K.Obj) (l : List Stmt) (o : K.Obj) : Res K.Obj :=
  l.foldlM (fun o s => K.stmt call a s o) o

/-- A call of a member function; the number bounds the nesting of calls. -/
def call : Nat → Str → Arg K.Obj → K.Obj → Res K.Obj
  | 0, _, _, _ => .ub
  | d + 1, f, a, o =>
    match K.fun? f a.sig with
    | some (.run b) => K.stmts (call d) a b o
    | some (.value b) => K.stmts (call d) a b o
    | some (.id b) => K.stmts (call d) a b o
    | _ => .ub

/-- The deepest nesting: `operator=`, `set_x`, `init_o`, `clear_o`. -/
def depth : Nat := 3

/-- `operator=` -/
def runAssign (o rhs : K.Obj) : Res K.Obj := K.stmts (K.call depth) (.rhs rhs) K.assign o

/-- `clear()` -/
def runClear (o : K.Obj) : Res K.Obj := K.stmts (K.call depth) .none K.clear o

/-- `f();` -/
def runCall (f : Str) (o : K.Obj) : Res K.Obj := K.call depth f .none o

/-- `set_x(rhs.get_x());` -/
def runSet (x : Str) (o rhs : K.Obj) : Res K.Obj :=
  K.act (K.call depth) (.rhs rhs) (.callSet (setName x) (getName x)) o

/-- A function that does something to one data member: `mutable_x()` with `g` done to the result,
`mutable_x(index)` with `g` being what is done to that element, and `set_x(index, value)`, `add_x(value)` with `g`
being the function of the container that is called. -/
def runOn (f : Str) (s : Sig) (g : (C : FieldClass) → C.State → Res C.State) (o : K.Obj) : Res K.Obj :=
  match (K.fun? f s).bind Body.target with
  | some (b, x) => do
    let o ← K.stmts (K.call depth) .none b o
    match K.ref x with
    | some r => do
      let v ← r.get o
      let v ← g r.C v
      pure (r.put o v)
    | none => .ub
  | none => .ub

/-- A function that reads one data member: `get_x()`, `x()` and `x(index)`; `g` is what is made of it. -/
def runGet {α : Type} (f : Str) (s : Sig) (g : (C : FieldClass) → C.State → Res α) (o : K.Obj) : Res α :=
  match (K.fun? f s).bind Body.source with
  | some x =>
    match K.ref x with
    | some r => do
      let v ← r.get o
      g r.C v
    | none => .ub
  | none => .ub

section
variable {ω β : Type}

def guard (g : Guard) (o : K.Obj) : Res Bool :=
  match g with
  | .has f => K.callTest f o
  | .notDefault x =>
    match K.ref x with
    | some r => do
      let v ← r.get o
      pure (r.C.plainGuard v)
    | none => .ub
  | .always => .ok true

def serField [WriteBuffer ω] (s : Option SerField) (o : K.Obj) (e : Error) (w : ω) : Res (Error × ω) :=
  match s with
  | none => pure (e, w)
  | some s => do
    let b ← K.guard s.guard o
    if b = true ∧ e = .noErrors then
      match K.ref s.place with
      | some r => do
        let v ← r.get o
        let n ← K.number s.id
        r.C.serializeWithId n v w s.flag
      | none => .ub
    else pure (e, w)

def ser [WriteBuffer ω] (s : Ser) (o : K.Obj) (e : Error) (w : ω) : Res (Error × ω) :=
  match s with
  | .field s => K.serField s o e w
  | .switch x cases => do
    let n ← K.getWhich x o
    let b ← K.select n cases
    match b with
    | some s => K.serField s o e w
    | none => pure (e, w)

/-- `serialize(buffer)` — TypeDefMsg.h:159-182. -/
def runSerialize [WriteBuffer ω] (o : K.Obj) (w : ω) : Res (Error × ω) :=
  K.serialize.foldlM (fun (p : Error × ω) s => K.ser s o p.1 p.2) (.noErrors, w)

/-- The statements of a case, with the running `return_value`. -/
def des [ReadBuffer β] (fuel : Nat) (wt : WireType) :
    List Des → Error → β → K.Obj → Res (Error × β × K.Obj)
  | [], e, b, o => pure (e, b, o)
  | .setBit f :: l, e, b, o => do
    let i ← K.presenceIndex f
    let p ← Presence.setBit o.presence i
    des fuel wt l e b { o with presence := p }
  | .field x :: l, _, b, o =>
    match K.ref x with
    | some r => do
      let v ← r.get o
      let (e, b, v) ← r.C.deserializeCheckType fuel b wt v
      des fuel wt l e b (r.put o v)
    | none => .ub

/-- `deserialize_o(field_id, buffer, wire_type)` — TypeOneof.h:109-138. -/
def desOneof [ReadBuffer β] (fuel : Nat) (d : DesOneof) (n : Nat) (wt : WireType) (b : β) (o : K.Obj) :
    Res (Error × β × K.Obj) := do
  let k ← K.getWhich d.which o
  let o ← (if n ≠ k then K.call depth d.init (.id n) o else pure o : Res K.Obj)
  let k ← K.getWhich d.which o
  let c ← K.select k d.cases
  let (e, b, o) ← (match c with
    | some l => K.des fuel wt l .noErrors b o
    | none => pure (.noErrors, b, o) : Res (Error × β × K.Obj))
  if e ≠ .noErrors then do
    let o ← K.call depth d.clear .none o
    pure (e, b, o)
  else pure (e, b, o)

/-- Does one of the labels have this value? -/
def anyIs (n : Nat) : List Str → Res Bool
  | [] => .ok false
  | id :: l => do
    let k ← K.number id
    if n = k then pure true else anyIs n l

/-- The `switch(id_tag)` — TypeDefMsg.h:195-219. -/
def step [ReadBuffer β] (fuel n : Nat) (wt : WireType) (b : β) (o : K.Obj) :
    List Case → Res (Error × β × K.Obj)
  | [] => do
    let k ← K.number notSet
    if n = k then pure (.invalidFieldId, b, o)
    else do
      let (e, b) ← skipUnknownField b wt
      pure (e, b, o)
  | .field id l :: cs => do
    let k ← K.number id
    if n = k then K.des fuel wt l .noErrors b o else step fuel n wt b o cs
  | .oneof ids f :: cs => do
    let hit ← K.anyIs n ids
    if hit then
      match K.fun? f .des with
      | some (.des d) => K.desOneof fuel d n wt b o
      | _ => .ub
    else step fuel n wt b o cs

/-- `deserialize(buffer)` — TypeDefMsg.h:184-236. -/
def runDeserialize [ReadBuffer β] (fuel : Nat) (b : β) (o : K.Obj) : Res (Error × β × K.Obj) :=
  tagLoop (fun n wt b o => K.step fuel n wt b o K.cases) fuel b o

end

/-- `field_number_to_name` — TypeDefMsg.h:249-271. -/
def fieldNumberToName (n : Nat) : Res Str := do
  let c ← K.select n K.names
  match c with
  | some c => need (K.consts.lookup c)
  | none => pure "Invalid FieldNumber".toList

end Class

end EP.Gen
