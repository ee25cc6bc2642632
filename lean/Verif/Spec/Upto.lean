import Verif.Spec.Value

/-!
# A value up to some point

What is left of a value if everything after some point of it is missing: in the order of the declaration, fields before
the point are as they were, those after it have their default value.  The point can be inside a nested message (of which
the rest is missing then) or inside an array (of which the rest is missing, and possibly part of the last element, if
that is a message), but not inside a number or a string.
-/

namespace EP

mutual
/-- `w` is the value `v` up to some point. -/
def ElemTy.Upto : (t : ElemTy) → t.Val → t.Val → Prop
  | .scalar _, w, v => w = v
  | .str _, w, v => w = v
  | .msg fs os, w, v => (fs.Upto w.1 v.1 ∧ w.2 = os.dflt) ∨ (w.1 = v.1 ∧ os.Upto w.2 v.2)
def Fields.Upto : (fs : Fields) → fs.Val → fs.Val → Prop
  | .nil, _, _ => True
  | .plain _ t rest, w, v => (w.1 = v.1 ∧ rest.Upto w.2 v.2) ∨
      ((w.1 = t.dflt ∨ t.Upto w.1 v.1) ∧ w.2 = rest.dflt)
  | .optional _ t rest, w, v => (w.1 = v.1 ∧ rest.Upto w.2 v.2) ∨
      ((w.1 = none ∨ ∃ x y, w.1 = some x ∧ v.1 = some y ∧ t.Upto x y) ∧ w.2 = rest.dflt)
  | .repeated _ _ t rest, w, v => (w.1 = v.1 ∧ rest.Upto w.2 v.2) ∨
      ((∃ ys zs, v.1 = ys ++ zs ∧
        (w.1 = ys ∨ ∃ x y zs', zs = y :: zs' ∧ t.Upto x y ∧ w.1 = ys ++ [x])) ∧ w.2 = rest.dflt)
def Alts.Upto : (a : Alts) → a.Val → a.Val → Prop
  | .nil, _, _ => True
  | .cons _ t _, .inl x, .inl y => t.Upto x y
  | .cons _ _ rest, .inr x, .inr y => rest.Upto x y
  | .cons _ _ _, _, _ => False
def Oneofs.Upto : (os : Oneofs) → os.Val → os.Val → Prop
  | .nil, _, _ => True
  | .cons a rest, w, v => (w.1 = v.1 ∧ rest.Upto w.2 v.2) ∨
      ((w.1 = none ∨ ∃ x y, w.1 = some x ∧ v.1 = some y ∧ a.Upto x y) ∧ w.2 = rest.dflt)
end

end EP
