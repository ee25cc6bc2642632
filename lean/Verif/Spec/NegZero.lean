import Verif.Spec.Value

/-!
# Values without a `-0.0` in a field without presence
-/

namespace EP

/-- The value of a field without presence is not a floating point `-0.0`. -/
def ElemTy.NotNegZero : (t : ElemTy) → t.Val → Prop
  | .scalar s, v => s.negZero ≠ some v
  | .str _, _ => True
  | .msg _ _, _ => True

mutual
/-- No field without presence holds `-0.0`, at any depth. -/
def ElemTy.NoNegZero : (t : ElemTy) → t.Val → Prop
  | .scalar _, _ => True
  | .str _, _ => True
  | .msg fs os, v => fs.NoNegZero v.1 ∧ os.NoNegZero v.2
def Fields.NoNegZero : (fs : Fields) → fs.Val → Prop
  | .nil, _ => True
  | .plain _ t rest, v => (t.NotNegZero v.1 ∧ t.NoNegZero v.1) ∧ rest.NoNegZero v.2
  | .optional _ t rest, v => (∀ x, v.1 = some x → t.NoNegZero x) ∧ rest.NoNegZero v.2
  | .repeated _ _ t rest, v => (∀ x ∈ v.1, t.NoNegZero x) ∧ rest.NoNegZero v.2
def Alts.NoNegZero : (a : Alts) → a.Val → Prop
  | .nil, _ => True
  | .cons _ t _, .inl x => t.NoNegZero x
  | .cons _ _ rest, .inr y => rest.NoNegZero y
def Oneofs.NoNegZero : (os : Oneofs) → os.Val → Prop
  | .nil, _ => True
  | .cons a rest, v => (∀ x, v.1 = some x → a.NoNegZero x) ∧ rest.NoNegZero v.2
end

end EP
