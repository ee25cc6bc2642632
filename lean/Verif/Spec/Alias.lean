import Verif.Spec.Value

/-! # Values with text outside arrays of strings -/

namespace EP

mutual
/-- Is there a string or bytes field that is not empty, at any depth?  Elements of arrays of strings do not count. -/
def ElemTy.hasText : (t : ElemTy) → t.Val → Bool
  | .scalar _, _ => false
  | .str _, v => !List.isEmpty (α := Byte) v
  | .msg fs os, v => fs.hasText v.1 || os.hasText v.2
def Fields.hasText : (fs : Fields) → fs.Val → Bool
  | .nil, _ => false
  | .plain _ t rest, v => t.hasText v.1 || rest.hasText v.2
  | .optional _ t rest, v => v.1.any t.hasText || rest.hasText v.2
  | .repeated _ _ t rest, v => (t.isMsg && v.1.any t.hasText) || rest.hasText v.2
def Alts.hasText : (a : Alts) → a.Val → Bool
  | .nil, _ => false
  | .cons _ t _, .inl x => t.hasText x
  | .cons _ _ rest, .inr y => rest.hasText y
def Oneofs.hasText : (os : Oneofs) → os.Val → Bool
  | .nil, _ => false
  | .cons a rest, v => v.1.any a.hasText || rest.hasText v.2
end

end EP
