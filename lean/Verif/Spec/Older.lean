import Verif.Spec.Value

/-!
# Older versions of a declaration

`t.Older` are the declarations from which `t` may have been made by adding to it: fields, oneofs and members of
oneofs, at any depth, and `optional` in front of a field; also maximum lengths may differ.  `old` is such a
declaration, `shown` is what is left of a value of `t` for those who only know `old`, and `lifted` is a value of
`old` seen as one of `t`.
-/

namespace EP

mutual
inductive ElemTy.Older : ElemTy → Type where
  | scalar (s : ScalarTy) : ElemTy.Older (.scalar s)
  /-- the maximum length was `was` -/
  | str (cap was : Nat) : ElemTy.Older (.str cap)
  | msg {fs : Fields} {os : Oneofs} (f : Fields.Older fs) (o : Oneofs.Older os) : ElemTy.Older (.msg fs os)
inductive Fields.Older : Fields → Type where
  | nil : Fields.Older .nil
  | plain (num : Nat) {t : ElemTy} {rest : Fields} (m : ElemTy.Older t) (r : Fields.Older rest) :
    Fields.Older (.plain num t rest)
  | optional (num : Nat) {t : ElemTy} {rest : Fields} (m : ElemTy.Older t) (r : Fields.Older rest) :
    Fields.Older (.optional num t rest)
  /-- the maximum length was `was` -/
  | repeated (num cap was : Nat) {t : ElemTy} {rest : Fields} (m : ElemTy.Older t) (r : Fields.Older rest) :
    Fields.Older (.repeated num cap t rest)
  /-- the field was added -/
  | newPlain (num : Nat) (t : ElemTy) {rest : Fields} (r : Fields.Older rest) :
    Fields.Older (.plain num t rest)
  /-- the `optional` field was added -/
  | newOptional (num : Nat) (t : ElemTy) {rest : Fields} (r : Fields.Older rest) :
    Fields.Older (.optional num t rest)
  /-- the field was there, `optional` was added -/
  | madeOptional (num : Nat) {t : ElemTy} {rest : Fields} (m : ElemTy.Older t) (r : Fields.Older rest) :
    Fields.Older (.optional num t rest)
  /-- the `repeated` field was added -/
  | newRepeated (num cap : Nat) (t : ElemTy) {rest : Fields} (r : Fields.Older rest) :
    Fields.Older (.repeated num cap t rest)
inductive Alts.Older : Alts → Type where
  | nil : Alts.Older .nil
  | cons (num : Nat) {t : ElemTy} {rest : Alts} (m : ElemTy.Older t) (r : Alts.Older rest) :
    Alts.Older (.cons num t rest)
  /-- the member was added -/
  | newMember (num : Nat) (t : ElemTy) {rest : Alts} (r : Alts.Older rest) : Alts.Older (.cons num t rest)
inductive Oneofs.Older : Oneofs → Type where
  | nil : Oneofs.Older .nil
  | cons {a : Alts} {rest : Oneofs} (m : Alts.Older a) (r : Oneofs.Older rest) :
    Oneofs.Older (.cons a rest)
  /-- the oneof was added -/
  | newOneof (a : Alts) {rest : Oneofs} (r : Oneofs.Older rest) : Oneofs.Older (.cons a rest)
end

mutual
/-- The older declaration. -/
def ElemTy.Older.old : {t : ElemTy} → t.Older → ElemTy
  | _, .scalar s => .scalar s
  | _, .str _ was => .str was
  | _, .msg f o => .msg f.old o.old
def Fields.Older.old : {fs : Fields} → fs.Older → Fields
  | _, .nil => .nil
  | _, .plain num m r => .plain num m.old r.old
  | _, .optional num m r => .optional num m.old r.old
  | _, .repeated num _ was m r => .repeated num was m.old r.old
  | _, .newPlain _ _ r => r.old
  | _, .newOptional _ _ r => r.old
  | _, .madeOptional num m r => .plain num m.old r.old
  | _, .newRepeated _ _ _ r => r.old
def Alts.Older.old : {a : Alts} → a.Older → Alts
  | _, .nil => .nil
  | _, .cons num m r => .cons num m.old r.old
  | _, .newMember _ _ r => r.old
def Oneofs.Older.old : {os : Oneofs} → os.Older → Oneofs
  | _, .nil => .nil
  | _, .cons m r => .cons m.old r.old
  | _, .newOneof _ r => r.old
end

mutual
/-- What the older declaration can tell of a value. -/
def ElemTy.Older.shown : {t : ElemTy} → (m : t.Older) → t.Val → m.old.Val
  | _, .scalar _, v => v
  | _, .str _ _, v => v
  | _, .msg f o, v => (f.shown v.1, o.shown v.2)
def Fields.Older.shown : {fs : Fields} → (m : fs.Older) → fs.Val → m.old.Val
  | _, .nil, v => v
  | _, .plain _ m r, v => (m.shown v.1, r.shown v.2)
  | _, .optional _ m r, v => (v.1.map m.shown, r.shown v.2)
  | _, .repeated _ _ _ m r, v => (v.1.map m.shown, r.shown v.2)
  | _, .newPlain _ _ r, v => r.shown v.2
  | _, .newOptional _ _ r, v => r.shown v.2
  | _, @Fields.Older.madeOptional _ t _ m r, v => (m.shown (v.1.getD t.dflt), r.shown v.2)
  | _, .newRepeated _ _ _ r, v => r.shown v.2
/-- `none` if the member was added. -/
def Alts.Older.shown : {a : Alts} → (m : a.Older) → a.Val → Option m.old.Val
  | _, .nil, v => some v
  | _, .cons _ m _, .inl x => some (.inl (m.shown x))
  | _, .cons _ _ r, .inr y => (r.shown y).map .inr
  | _, .newMember _ _ _, .inl _ => none
  | _, .newMember _ _ r, .inr y => r.shown y
def Oneofs.Older.shown : {os : Oneofs} → (m : os.Older) → os.Val → m.old.Val
  | _, .nil, v => v
  | _, .cons m r, v => (v.1.bind m.shown, r.shown v.2)
  | _, .newOneof _ r, v => r.shown v.2
end

mutual
/-- A value of the older declaration: all that was added is not set. -/
def ElemTy.Older.lifted : {t : ElemTy} → (m : t.Older) → m.old.Val → t.Val
  | _, .scalar _, v => v
  | _, .str _ _, v => v
  | _, .msg f o, v => (f.lifted v.1, o.lifted v.2)
def Fields.Older.lifted : {fs : Fields} → (m : fs.Older) → m.old.Val → fs.Val
  | _, .nil, v => v
  | _, .plain _ m r, v => (m.lifted v.1, r.lifted v.2)
  | _, .optional _ m r, v => (v.1.map m.lifted, r.lifted v.2)
  | _, .repeated _ _ _ m r, v => (v.1.map m.lifted, r.lifted v.2)
  | _, .newPlain _ t r, v => (t.dflt, r.lifted v)
  | _, .newOptional _ _ r, v => (none, r.lifted v)
  | _, .madeOptional _ m r, v => (if m.old.isDflt v.1 then none else some (m.lifted v.1), r.lifted v.2)
  | _, .newRepeated _ _ _ r, v => ([], r.lifted v)
def Alts.Older.lifted : {a : Alts} → (m : a.Older) → m.old.Val → a.Val
  | _, .nil, v => v
  | _, .cons _ m r, v => match (v : m.old.Val ⊕ r.old.Val) with
    | .inl x => .inl (m.lifted x)
    | .inr y => .inr (r.lifted y)
  | _, .newMember _ _ r, v => .inr (r.lifted v)
def Oneofs.Older.lifted : {os : Oneofs} → (m : os.Older) → m.old.Val → os.Val
  | _, .nil, v => v
  | _, .cons m r, v => (v.1.map m.lifted, r.lifted v.2)
  | _, .newOneof _ r, v => (none, r.lifted v)
end

mutual
/-- Maximum lengths were at least what they are, and oneofs had the same members. -/
def ElemTy.Older.Roomy : {t : ElemTy} → t.Older → Prop
  | _, .scalar _ => True
  | _, .str cap was => cap ≤ was
  | _, .msg f o => f.Roomy ∧ o.Roomy
def Fields.Older.Roomy : {fs : Fields} → fs.Older → Prop
  | _, .nil => True
  | _, .plain _ m r => m.Roomy ∧ r.Roomy
  | _, .optional _ m r => m.Roomy ∧ r.Roomy
  | _, .repeated _ cap was m r => cap ≤ was ∧ m.Roomy ∧ r.Roomy
  | _, .newPlain _ _ r => r.Roomy
  | _, .newOptional _ _ r => r.Roomy
  | _, .madeOptional _ m r => m.Roomy ∧ r.Roomy
  | _, .newRepeated _ _ _ r => r.Roomy
def Alts.Older.Roomy : {a : Alts} → a.Older → Prop
  | _, .nil => True
  | _, .cons _ m r => m.Roomy ∧ r.Roomy
  | _, .newMember _ _ _ => False
def Oneofs.Older.Roomy : {os : Oneofs} → os.Older → Prop
  | _, .nil => True
  | _, .cons m r => m.Roomy ∧ r.Roomy
  | _, .newOneof _ r => r.Roomy
end

end EP
