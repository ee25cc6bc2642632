import Verif.Spec.Shown

/-!
# What `to_string` reads of an object

`snprintf` reads a `string` as C does: up to the first NUL of its array, whatever its length is.  Without a NUL in the
array it reads behind the array.
-/

namespace EP

mutual
/-- The value shown: with each `string` as C reads it, or nothing if one of them has no NUL in its array.  (A field that
is not present is shown as well.) -/
def ElemTy.asC (P : Printer) : (t : ElemTy) → List Nat → t.cls.State → Option t.Val
  | .scalar _, _, x => some x
  | .str _, path, x =>
    if P.isBytes path then some (StrObj.chars x)
    else if 0 ∈ StrObj.data x then some ((StrObj.data x).takeWhile (· ≠ 0)) else none
  | .msg fs os, path, x =>
    (fs.asC P 0 path (MsgObj.fields x)).bind fun a => (os.asC P path (MsgObj.oneofs x)).map fun b => (a, b)
def Fields.asC (P : Printer) : (fs : Fields) → (idx : Nat) → List Nat → (fs.cls idx).State → Option fs.Val
  | .nil, _, _, _ => some ()
  | .plain num t rest, idx, path, x =>
    (t.asC P (num :: path) x.1).bind fun a => (rest.asC P idx path x.2).map fun b => (a, b)
  | .optional num t rest, idx, path, x =>
    (t.asC P (num :: path) x.1).bind fun a => (rest.asC P (idx + 1) path x.2).map fun b => (some a, b)
  | .repeated num _ t rest, idx, path, x =>
    ((RepObj.elems x.1).mapM fun e => t.asC P (num :: path) e).bind fun a =>
      (rest.asC P idx path x.2).map fun b => (a, b)
def Alts.asC (P : Printer) : (a : Alts) → List Nat → a.cls.U → Option a.Val
  | .nil, _, u => nomatch u
  | .cons num t _, path, .inl x => (t.asC P (num :: path) x).map .inl
  | .cons _ _ rest, path, .inr u => (rest.asC P path u).map .inr
def Oneofs.asC (P : Printer) : (os : Oneofs) → List Nat → os.cls.State → Option os.Val
  | .nil, _, _ => some ()
  | .cons a rest, path, x =>
    (match x.1.live with
      | none => some none
      | some u => (a.asC P path u).map some).bind fun m => (rest.asC P path x.2).map fun b => (m, b)
end

end EP
