import Verif.Spec.Value

/-!
# Values of scalars inside a value
-/

namespace EP

mutual
/-- Every scalar in the value, at any depth, has the property. -/
def ElemTy.AllScalars (P : (s : ScalarTy) → s.Val → Prop) : (t : ElemTy) → t.Val → Prop
  | .scalar s, v => P s v
  | .str _, _ => True
  | .msg fs os, v => fs.AllScalars P v.1 ∧ os.AllScalars P v.2
def Fields.AllScalars (P : (s : ScalarTy) → s.Val → Prop) : (fs : Fields) → fs.Val → Prop
  | .nil, _ => True
  | .plain _ t rest, v => t.AllScalars P v.1 ∧ rest.AllScalars P v.2
  | .optional _ t rest, v => (∀ x, v.1 = some x → t.AllScalars P x) ∧ rest.AllScalars P v.2
  | .repeated _ _ t rest, v => (∀ x ∈ v.1, t.AllScalars P x) ∧ rest.AllScalars P v.2
def Alts.AllScalars (P : (s : ScalarTy) → s.Val → Prop) : (a : Alts) → a.Val → Prop
  | .nil, _ => True
  | .cons _ t _, .inl x => t.AllScalars P x
  | .cons _ _ rest, .inr y => rest.AllScalars P y
def Oneofs.AllScalars (P : (s : ScalarTy) → s.Val → Prop) : (os : Oneofs) → os.Val → Prop
  | .nil, _ => True
  | .cons a rest, v => (∀ x, v.1 = some x → a.AllScalars P x) ∧ rest.AllScalars P v.2
end

/-- Not a negative enum value. -/
def ScalarTy.NonNegEnum : (s : ScalarTy) → s.Val → Prop
  | .enumeration, v => 0 ≤ BitVec.toInt (n := 32) v
  | _, _ => True

end EP
