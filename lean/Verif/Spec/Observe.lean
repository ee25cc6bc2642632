import Verif.Model.Schema
import Verif.Spec.Value

/-!
# What an object holds

For every class three things: `abs`, the logical value a user observes through the accessors
(`get`, `has_x`, `get_length`, `get_which_x`, …); `Inv`, the class invariant; and `Clean`, that the
elements not in use of arrays of messages are in the state of a new object (relevant when decoding
into an object that was used before).
-/

namespace EP

/-- Observation of the objects of a class. -/
structure ClassSpec (C : FieldClass) (V : Type) where
  abs : C.State → V
  Inv : C.State → Prop
  Clean : C.State → Prop

/-- A scalar holds its value; every bit pattern is allowed. -/
def scalarSpec (s : ScalarTy) : ClassSpec (scalarClass s) s.Val where
  abs v := v
  Inv _ := True
  Clean _ := True

/-- Invariant of a string of maximum length `cap`. -/
def StrObj.WF (cap : Nat) (x : StrObj) : Prop := x.data.length = cap ∧ x.len ≤ cap

/-- The characters in use. -/
def StrObj.chars (x : StrObj) : List Byte := x.data.take x.len

def strSpec (cap : Nat) : ClassSpec (strClass cap) (List Byte) where
  abs x := x.chars
  Inv x := x.WF cap
  Clean _ := True

/-- The elements in use. -/
def RepObj.elems {α : Type} (x : RepObj α) : List α := x.data.take x.len

/-- The elements not in use. -/
def RepObj.stale {α : Type} (x : RepObj α) : List α := x.data.drop x.len

def repSpec {E : FieldClass} {V : Type} (S : ClassSpec E V) (cap : Nat) :
    ClassSpec (repeatedClass E cap) (List V) where
  abs x := x.elems.map S.abs
  Inv x := x.data.length = cap ∧ x.len ≤ cap ∧ ∀ d ∈ x.data, S.Inv d
  Clean x := (∀ d ∈ x.elems, S.Clean d) ∧ (E.kind = .message → ∀ d ∈ x.stale, d = E.init)

/-! ## Presence -/

/-- Bit `i` of the presence array. -/
def Presence.bit (p : Presence) (i : Nat) : Bool := (p.getD (i / 32) 0).getLsbD (i % 32)

/-- The presence array of a message with `n` optional fields: right length, unused bits zero. -/
def Presence.WF (n : Nat) (p : Presence) : Prop :=
  p.length = Presence.size n ∧ ∀ i, n ≤ i → p.bit i = false

/-! ## Fields -/

structure FieldsSpec (F : FieldsClass) (V : Type) where
  abs : (Nat → Bool) → F.State → V
  Inv : (Nat → Bool) → F.State → Prop
  Clean : F.State → Prop

def FieldsSpec.nil : FieldsSpec .nil Unit where
  abs _ _ := ()
  Inv _ _ := True
  Clean _ := True

def FieldsSpec.plain {C : FieldClass} {F : FieldsClass} {V W : Type} (num : Nat)
    (S : ClassSpec C V) (R : FieldsSpec F W) : FieldsSpec (.plain num C F) (V × W) where
  abs has s := (S.abs s.1, R.abs has s.2)
  Inv has s := S.Inv s.1 ∧ R.Inv has s.2
  Clean s := S.Clean s.1 ∧ R.Clean s.2

/-- An optional field that is not present is in the state of a new object. -/
def FieldsSpec.optional {C : FieldClass} {F : FieldsClass} {V W : Type} (num idx : Nat)
    (S : ClassSpec C V) (R : FieldsSpec F W) : FieldsSpec (.optional num idx C F) (Option V × W) where
  abs has s := (if has idx then some (S.abs s.1) else none, R.abs has s.2)
  Inv has s := (S.Inv s.1 ∧ (has idx = false → s.1 = C.init)) ∧ R.Inv has s.2
  Clean s := S.Clean s.1 ∧ R.Clean s.2

/-! ## Oneofs -/

structure AltsSpec (A : AltsClass) (V : Type) where
  /-- field number of the live member -/
  num : A.U → Nat
  abs : A.U → V
  Inv : A.U → Prop
  Clean : A.U → Prop

def AltsSpec.nil : AltsSpec .nil Empty where
  num u := u.elim
  abs u := u
  Inv _ := True
  Clean _ := True

def AltsSpec.cons {C : FieldClass} {A : AltsClass} {V W : Type} (n : Nat)
    (S : ClassSpec C V) (R : AltsSpec A W) : AltsSpec (.cons n C A) (V ⊕ W) where
  num
    | .inl _ => n
    | .inr u => R.num u
  abs
    | .inl x => .inl (S.abs x)
    | .inr u => .inr (R.abs u)
  Inv
    | .inl x => S.Inv x
    | .inr u => R.Inv u
  Clean
    | .inl x => S.Clean x
    | .inr u => R.Clean u

/-- Either nothing is set, or the live member is the one named by `which`. -/
def AltsSpec.ObjInv {A : AltsClass} {V : Type} (S : AltsSpec A V) (o : OneofObj A.U) : Prop :=
  match o.live with
  | none => o.which = 0
  | some u => o.which = S.num u ∧ S.Inv u

structure OneofsSpec (O : OneofsClass) (V : Type) where
  abs : O.State → V
  Inv : O.State → Prop
  Clean : O.State → Prop

def OneofsSpec.nil : OneofsSpec .nil Unit where
  abs _ := ()
  Inv _ := True
  Clean _ := True

def OneofsSpec.cons {A : AltsClass} {O : OneofsClass} {V W : Type}
    (S : AltsSpec A V) (R : OneofsSpec O W) : OneofsSpec (.cons A O) (Option V × W) where
  abs s := (s.1.live.map S.abs, R.abs s.2)
  Inv s := S.ObjInv s.1 ∧ R.Inv s.2
  Clean s := (∀ u, s.1.live = some u → S.Clean u) ∧ R.Clean s.2

/-! ## Messages -/

def msgSpec {F : FieldsClass} {O : OneofsClass} {V W : Type} (n : Nat)
    (S : FieldsSpec F V) (R : OneofsSpec O W) : ClassSpec (messageClass n F O) (V × W) where
  abs m := (S.abs m.presence.bit m.fields, R.abs m.oneofs)
  Inv m := Presence.WF n m.presence ∧ S.Inv m.presence.bit m.fields ∧ R.Inv m.oneofs
  Clean m := S.Clean m.fields ∧ R.Clean m.oneofs

/-! ## Declarations -/

mutual
/-- Observation of the class generated for a type. -/
def ElemTy.spec : (t : ElemTy) → ClassSpec t.cls t.Val
  | .scalar s => scalarSpec s
  | .str cap => strSpec cap
  | .msg fs os => msgSpec fs.nOptional (fs.spec 0) os.spec
def Fields.spec : (fs : Fields) → (idx : Nat) → FieldsSpec (fs.cls idx) fs.Val
  | .nil, _ => .nil
  | .plain num t rest, idx => .plain num t.spec (rest.spec idx)
  | .optional num t rest, idx => .optional num idx t.spec (rest.spec (idx + 1))
  | .repeated num cap t rest, idx => .plain num (repSpec t.spec cap) (rest.spec idx)
def Alts.spec : (a : Alts) → AltsSpec a.cls a.Val
  | .nil => .nil
  | .cons num t rest => .cons num t.spec rest.spec
def Oneofs.spec : (os : Oneofs) → OneofsSpec os.cls os.Val
  | .nil => .nil
  | .cons a rest => .cons a.spec rest.spec
end

/-- The class of objects of a declared type. -/
abbrev ElemTy.Obj (t : ElemTy) : Type := t.cls.State

/-- The logical value of an object. -/
abbrev ElemTy.abs (t : ElemTy) (x : t.Obj) : t.Val := t.spec.abs x

/-- The class invariant. -/
abbrev ElemTy.Inv (t : ElemTy) (x : t.Obj) : Prop := t.spec.Inv x

/-- Unused array elements are as in a new object. -/
abbrev ElemTy.Clean (t : ElemTy) (x : t.Obj) : Prop := t.spec.Clean x

end EP
