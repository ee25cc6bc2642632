import Verif.Spec.Value

/-! # The places in a declaration where there can be a value -/

namespace EP

/-- Where a scalar or a string is: in a field without presence, in an optional field or a oneof, or in an array. -/
inductive Place where
  | plain
  | present
  | element

mutual
/-- The type in every place where there can be a value, at any depth, has the property. -/
def ElemTy.Every (P : Place → ElemTy → Prop) : ElemTy → Place → Prop
  | .scalar s, p => P p (.scalar s)
  | .str cap, p => P p (.str cap)
  | .msg fs os, _ => fs.Every P ∧ os.Every P
def Fields.Every (P : Place → ElemTy → Prop) : Fields → Prop
  | .nil => True
  | .plain _ t rest => t.Every P .plain ∧ rest.Every P
  | .optional _ t rest => t.Every P .present ∧ rest.Every P
  | .repeated _ cap t rest => (cap = 0 ∨ t.Every P .element) ∧ rest.Every P
def Alts.Every (P : Place → ElemTy → Prop) : Alts → Prop
  | .nil => True
  | .cons _ t rest => t.Every P .present ∧ rest.Every P
def Oneofs.Every (P : Place → ElemTy → Prop) : Oneofs → Prop
  | .nil => True
  | .cons a rest => a.Every P ∧ rest.Every P
end

mutual
/-- Every scalar and string in the value, at any depth, has the property. -/
def ElemTy.All (G : Place → (t : ElemTy) → t.Val → Prop) : (t : ElemTy) → Place → t.Val → Prop
  | .scalar s, p, v => G p (.scalar s) v
  | .str cap, p, v => G p (.str cap) v
  | .msg fs os, _, v => fs.All G v.1 ∧ os.All G v.2
def Fields.All (G : Place → (t : ElemTy) → t.Val → Prop) : (fs : Fields) → fs.Val → Prop
  | .nil, _ => True
  | .plain _ t rest, v => t.All G .plain v.1 ∧ rest.All G v.2
  | .optional _ t rest, v => (∀ x, v.1 = some x → t.All G .present x) ∧ rest.All G v.2
  | .repeated _ _ t rest, v => (∀ x ∈ v.1, t.All G .element x) ∧ rest.All G v.2
def Alts.All (G : Place → (t : ElemTy) → t.Val → Prop) : (a : Alts) → a.Val → Prop
  | .nil, _ => True
  | .cons _ t _, .inl x => t.All G .present x
  | .cons _ _ rest, .inr y => rest.All G y
def Oneofs.All (G : Place → (t : ElemTy) → t.Val → Prop) : (os : Oneofs) → os.Val → Prop
  | .nil, _ => True
  | .cons a rest, v => (∀ x, v.1 = some x → a.All G x) ∧ rest.All G v.2
end

/-- Not `float` or `double`, in a field without presence. -/
def ZeroPlace (p : Place) (t : ElemTy) : Prop := p = .plain → t ≠ .scalar .floatfixed ∧ t ≠ .scalar .doublefixed

/-- Not `int32` or an enum. -/
def SignPlace (_ : Place) (t : ElemTy) : Prop := t ≠ .scalar .int32 ∧ t ≠ .scalar .enumeration

/-- Not an enum. -/
def EnumPlace (_ : Place) (t : ElemTy) : Prop := t ≠ .scalar .enumeration

/-- Not a string that can hold anything, outside arrays. -/
def TextPlace (p : Place) (t : ElemTy) : Prop := p ≠ .element → ∀ cap, t = .str cap → cap = 0

/-- Not a string that can hold anything. -/
def RoomPlace (_ : Place) (t : ElemTy) : Prop := ∀ cap, t = .str cap → cap = 0

end EP
