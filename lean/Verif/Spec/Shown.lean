import Verif.Spec.Observe
import Verif.Model.ToString

/-!
# What `to_string` needs and what it leaves behind
-/

namespace EP

mutual
/-- Every `string` the message shows is followed by a NUL in its array, and has none inside. -/
def ElemTy.Terminated (P : Printer) : (t : ElemTy) → List Nat → t.cls.State → Prop
  | .scalar _, _, _ => True
  | .str _, path, x => P.isBytes path = true ∨ StrObj.cText x = .ok (StrObj.chars x)
  | .msg fs os, path, x => fs.Terminated P 0 path (MsgObj.fields x) ∧ os.Terminated P path (MsgObj.oneofs x)
def Fields.Terminated (P : Printer) : (fs : Fields) → (idx : Nat) → List Nat → (fs.cls idx).State → Prop
  | .nil, _, _, _ => True
  | .plain num t rest, idx, path, x => t.Terminated P (num :: path) x.1 ∧ rest.Terminated P idx path x.2
  | .optional num t rest, idx, path, x => t.Terminated P (num :: path) x.1 ∧ rest.Terminated P (idx + 1) path x.2
  | .repeated num _ t rest, idx, path, x =>
    (∀ e ∈ RepObj.elems x.1, t.Terminated P (num :: path) e) ∧ rest.Terminated P idx path x.2
def Alts.Terminated (P : Printer) : (a : Alts) → List Nat → a.cls.U → Prop
  | .nil, _, _ => True
  | .cons num t _, path, .inl x => t.Terminated P (num :: path) x
  | .cons _ _ rest, path, .inr u => rest.Terminated P path u
def Oneofs.Terminated (P : Printer) : (os : Oneofs) → List Nat → os.cls.State → Prop
  | .nil, _, _ => True
  | .cons a rest, path, x => (∀ u, x.1.live = some u → a.Terminated P path u) ∧ rest.Terminated P path x.2
end

namespace TextView

/-- The view covers the end of the array, which is smaller than 2 GiB. -/
def Ok (v : TextView) : Prop := v.pos + v.size = v.mem.length ∧ v.mem.length < 2147483648

/-- The array and what is left of it after a text of at most `size` characters: the text, a NUL in place of
the character behind it (of the last character if there is none behind it), and the rest as before. -/
def put (text : List Byte) (v : TextView) : TextView :=
  if text = [] then v else
  { mem := v.mem.take v.pos ++ (text.take (v.size - 1) ++ [0]) ++ v.mem.drop (v.pos + min text.length (v.size - 1) + 1)
    pos := v.pos + text.length
    size := v.size - text.length }

end TextView
end EP
