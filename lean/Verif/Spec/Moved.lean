import Verif.Spec.Held

/-!
# Declarations in another order

`s.Moved t`: the declaration `t` is `s` with the fields, the oneofs and the members of oneofs in another order, at any
depth.  `val` is the same value in the other order, `held` the same with leftovers.
-/

namespace EP

/-- A field of a declaration. -/
inductive Head where
  | plain (num : Nat) (t : ElemTy)
  | optional (num : Nat) (t : ElemTy)
  | repeated (num cap : Nat) (t : ElemTy)

namespace Head

/-- The field followed by others. -/
def before : Head → Fields → Fields
  | .plain num t, r => .plain num t r
  | .optional num t, r => .optional num t r
  | .repeated num cap t, r => .repeated num cap t r

def Val : Head → Type
  | .plain _ t => t.Val
  | .optional _ t => Option t.Val
  | .repeated _ _ t => List t.Val

def Held : Head → Type
  | .plain _ t => t.Held
  | .optional _ t => Option t.Held
  | .repeated _ _ t => List t.Held × List t.Held

/-- The value of the field and those of the others. -/
def apart : (h : Head) → {r : Fields} → (h.before r).Val → h.Val × r.Val
  | .plain _ _, _, v => v
  | .optional _ _, _, v => v
  | .repeated _ _ _, _, v => v

def together : (h : Head) → {r : Fields} → h.Val × r.Val → (h.before r).Val
  | .plain _ _, _, v => v
  | .optional _ _, _, v => v
  | .repeated _ _ _, _, v => v

def apartHeld : (h : Head) → {r : Fields} → (h.before r).Held → h.Held × r.Held
  | .plain _ _, _, v => v
  | .optional _ _, _, v => v
  | .repeated _ _ _, _, v => v

def togetherHeld : (h : Head) → {r : Fields} → h.Held × r.Held → (h.before r).Held
  | .plain _ _, _, v => v
  | .optional _ _, _, v => v
  | .repeated _ _ _, _, v => v

end Head

mutual
inductive ElemTy.Moved : ElemTy → ElemTy → Type where
  | same (t : ElemTy) : ElemTy.Moved t t
  | msg {fs gs : Fields} {os ps : Oneofs} (f : Fields.Moved fs gs) (o : Oneofs.Moved os ps) :
    ElemTy.Moved (.msg fs os) (.msg gs ps)
inductive Fields.Moved : Fields → Fields → Type where
  | same (fs : Fields) : Fields.Moved fs fs
  | plain (num : Nat) {s t : ElemTy} {fs gs : Fields} (m : ElemTy.Moved s t) (r : Fields.Moved fs gs) :
    Fields.Moved (.plain num s fs) (.plain num t gs)
  | optional (num : Nat) {s t : ElemTy} {fs gs : Fields} (m : ElemTy.Moved s t) (r : Fields.Moved fs gs) :
    Fields.Moved (.optional num s fs) (.optional num t gs)
  | repeated (num cap : Nat) {s t : ElemTy} {fs gs : Fields} (m : ElemTy.Moved s t) (r : Fields.Moved fs gs) :
    Fields.Moved (.repeated num cap s fs) (.repeated num cap t gs)
  /-- two fields next to each other -/
  | swap (h k : Head) (rest : Fields) : Fields.Moved (h.before (k.before rest)) (k.before (h.before rest))
  | trans {fs gs hs : Fields} (m : Fields.Moved fs gs) (n : Fields.Moved gs hs) : Fields.Moved fs hs
inductive Alts.Moved : Alts → Alts → Type where
  | same (a : Alts) : Alts.Moved a a
  | cons (num : Nat) {s t : ElemTy} {a b : Alts} (m : ElemTy.Moved s t) (r : Alts.Moved a b) :
    Alts.Moved (.cons num s a) (.cons num t b)
  /-- two members next to each other -/
  | swap (i : Nat) (s : ElemTy) (j : Nat) (t : ElemTy) (rest : Alts) :
    Alts.Moved (.cons i s (.cons j t rest)) (.cons j t (.cons i s rest))
  | trans {a b c : Alts} (m : Alts.Moved a b) (n : Alts.Moved b c) : Alts.Moved a c
inductive Oneofs.Moved : Oneofs → Oneofs → Type where
  | same (os : Oneofs) : Oneofs.Moved os os
  | cons {a b : Alts} {os ps : Oneofs} (m : Alts.Moved a b) (r : Oneofs.Moved os ps) :
    Oneofs.Moved (.cons a os) (.cons b ps)
  /-- two oneofs next to each other -/
  | swap (a b : Alts) (rest : Oneofs) : Oneofs.Moved (.cons a (.cons b rest)) (.cons b (.cons a rest))
  | trans {os ps qs : Oneofs} (m : Oneofs.Moved os ps) (n : Oneofs.Moved ps qs) : Oneofs.Moved os qs
end

/-- The chosen one of `s`, `t` and others, with the first two the other way round. -/
def sumSwap {A B C : Type} : A ⊕ B ⊕ C → B ⊕ A ⊕ C
  | .inl a => .inr (.inl a)
  | .inr (.inl b) => .inl b
  | .inr (.inr c) => .inr (.inr c)

mutual
/-- The same value in the other order. -/
def ElemTy.Moved.val : {s t : ElemTy} → s.Moved t → s.Val → t.Val
  | _, _, .same _, v => v
  | _, _, .msg f o, v => (f.val v.1, o.val v.2)
def Fields.Moved.val : {fs gs : Fields} → fs.Moved gs → fs.Val → gs.Val
  | _, _, .same _, v => v
  | _, _, .plain _ m r, v => (m.val v.1, r.val v.2)
  | _, _, .optional _ m r, v => (v.1.map m.val, r.val v.2)
  | _, _, .repeated _ _ m r, v => (v.1.map m.val, r.val v.2)
  | _, _, .swap h k _, v =>
    k.together ((k.apart (h.apart v).2).1, h.together ((h.apart v).1, (k.apart (h.apart v).2).2))
  | _, _, .trans m n, v => n.val (m.val v)
def Alts.Moved.val : {a b : Alts} → a.Moved b → a.Val → b.Val
  | _, _, .same _, v => v
  | _, _, .cons _ m r, v => Sum.map m.val r.val v
  | _, _, .swap _ _ _ _ _, v => sumSwap v
  | _, _, .trans m n, v => n.val (m.val v)
def Oneofs.Moved.val : {os ps : Oneofs} → os.Moved ps → os.Val → ps.Val
  | _, _, .same _, v => v
  | _, _, .cons m r, v => (v.1.map m.val, r.val v.2)
  | _, _, .swap _ _ _, v => (v.2.1, v.1, v.2.2)
  | _, _, .trans m n, v => n.val (m.val v)
end

mutual
/-- The same value with leftovers in the other order. -/
def ElemTy.Moved.held : {s t : ElemTy} → s.Moved t → s.Held → t.Held
  | _, _, .same _, v => v
  | _, _, .msg f o, v => (f.held v.1, o.held v.2)
def Fields.Moved.held : {fs gs : Fields} → fs.Moved gs → fs.Held → gs.Held
  | _, _, .same _, v => v
  | _, _, .plain _ m r, v => (m.held v.1, r.held v.2)
  | _, _, .optional _ m r, v => (v.1.map m.held, r.held v.2)
  | _, _, .repeated _ _ m r, v => ((v.1.1.map m.held, v.1.2.map m.held), r.held v.2)
  | _, _, .swap h k _, v =>
    k.togetherHeld ((k.apartHeld (h.apartHeld v).2).1,
      h.togetherHeld ((h.apartHeld v).1, (k.apartHeld (h.apartHeld v).2).2))
  | _, _, .trans m n, v => n.held (m.held v)
def Alts.Moved.held : {a b : Alts} → a.Moved b → a.Held → b.Held
  | _, _, .same _, v => v
  | _, _, .cons _ m r, v => Sum.map m.held r.held v
  | _, _, .swap _ _ _ _ _, v => sumSwap v
  | _, _, .trans m n, v => n.held (m.held v)
def Oneofs.Moved.held : {os ps : Oneofs} → os.Moved ps → os.Held → ps.Held
  | _, _, .same _, v => v
  | _, _, .cons m r, v => (v.1.map m.held, r.held v.2)
  | _, _, .swap _ _ _, v => (v.2.1, v.1, v.2.2)
  | _, _, .trans m n, v => n.held (m.held v)
end

mutual
/-- Back to the first order. -/
def ElemTy.Moved.back : {s t : ElemTy} → s.Moved t → t.Moved s
  | _, _, .same t => .same t
  | _, _, .msg f o => .msg f.back o.back
def Fields.Moved.back : {fs gs : Fields} → fs.Moved gs → gs.Moved fs
  | _, _, .same fs => .same fs
  | _, _, .plain n m r => .plain n m.back r.back
  | _, _, .optional n m r => .optional n m.back r.back
  | _, _, .repeated n c m r => .repeated n c m.back r.back
  | _, _, .swap h k r => .swap k h r
  | _, _, .trans m n => .trans n.back m.back
def Alts.Moved.back : {a b : Alts} → a.Moved b → b.Moved a
  | _, _, .same a => .same a
  | _, _, .cons n m r => .cons n m.back r.back
  | _, _, .swap i s j t r => .swap j t i s r
  | _, _, .trans m n => .trans n.back m.back
def Oneofs.Moved.back : {os ps : Oneofs} → os.Moved ps → ps.Moved os
  | _, _, .same os => .same os
  | _, _, .cons m r => .cons m.back r.back
  | _, _, .swap a b r => .swap b a r
  | _, _, .trans m n => .trans n.back m.back
end

end EP
