import Verif.Spec.Value

/-!
# Encodings that end in the contents of a string

`endsInText v`: the last bytes of the encoding of `v` are the (non-empty) contents of a `string` or
`bytes` value, possibly of one deep inside: the last record that is written decides.
-/

namespace EP

mutual
def ElemTy.endsInText : (t : ElemTy) → t.Val → Bool
  | .scalar _, _ => false
  | .str _, v => !List.isEmpty (α := Byte) v
  | .msg fs os, v => if os.isDflt v.2 then fs.endsInText v.1 else os.endsInText v.2
def Fields.endsInText : (fs : Fields) → fs.Val → Bool
  | .nil, _ => false
  | .plain _ t rest, v => if rest.isDflt v.2 then t.endsInText v.1 else rest.endsInText v.2
  | .optional _ t rest, v =>
    if rest.isDflt v.2 then
      (match v.1 with
        | none => false
        | some x => t.endsInText x)
    else rest.endsInText v.2
  | .repeated _ _ t rest, v =>
    if rest.isDflt v.2 then
      (match (v.1.map t.endsInText).getLast? with
        | none => false
        | some b => b)
    else rest.endsInText v.2
def Alts.endsInText : (a : Alts) → a.Val → Bool
  | .nil, _ => false
  | .cons _ t _, .inl x => t.endsInText x
  | .cons _ _ rest, .inr y => rest.endsInText y
def Oneofs.endsInText : (os : Oneofs) → os.Val → Bool
  | .nil, _ => false
  | .cons a rest, v =>
    if rest.isDflt v.2 then
      (match v.1 with
        | none => false
        | some x => a.endsInText x)
    else rest.endsInText v.2
end

end EP
