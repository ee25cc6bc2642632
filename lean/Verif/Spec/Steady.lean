import Verif.Spec.Value

/-! # Declarations in which nothing can be left behind -/

namespace EP

mutual
/-- No array of messages, at any depth, has room for a message that can hold anything but the default value.  Inside the elements
of arrays nothing is required: decoding does not touch them. -/
def ElemTy.Steady : ElemTy → Prop
  | .scalar _ => True
  | .str _ => True
  | .msg fs os => fs.Steady ∧ os.Steady
def Fields.Steady : Fields → Prop
  | .nil => True
  | .plain _ t rest => t.Steady ∧ rest.Steady
  | .optional _ t rest => t.Steady ∧ rest.Steady
  | .repeated _ cap t rest => (t.isMsg = true → cap = 0 ∨ ∀ v, t.Fits v → v = t.dflt) ∧ rest.Steady
def Alts.Steady : Alts → Prop
  | .nil => True
  | .cons _ t rest => t.Steady ∧ rest.Steady
def Oneofs.Steady : Oneofs → Prop
  | .nil => True
  | .cons a rest => a.Steady ∧ rest.Steady
end

end EP
