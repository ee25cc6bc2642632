import Verif.Spec.Observe
import Verif.Spec.Stream

/-!
# What an object holds, including what is not visible

An array of messages keeps the elements after the last one in use, and decoding one more element
starts from what is kept there.  `Held` is the value together with these leftovers; `absorb` says what
decoding does to it.
-/

namespace EP
open Spec

mutual
/-- A value with leftovers: a repeated field is the list of its elements and the list of the elements
not in use. -/
def ElemTy.Held : ElemTy → Type
  | .scalar s => s.Val
  | .str _ => List Byte
  | .msg fs os => fs.Held × os.Held
def Fields.Held : Fields → Type
  | .nil => Unit
  | .plain _ t rest => t.Held × rest.Held
  | .optional _ t rest => Option t.Held × rest.Held
  | .repeated _ _ t rest => (List t.Held × List t.Held) × rest.Held
def Alts.Held : Alts → Type
  | .nil => Empty
  | .cons _ t rest => t.Held ⊕ rest.Held
def Oneofs.Held : Oneofs → Type
  | .nil => Unit
  | .cons a rest => Option a.Held × rest.Held
end

mutual
/-- What a new object holds. -/
def ElemTy.fresh : (t : ElemTy) → t.Held
  | .scalar s => s.zero
  | .str _ => ([] : List Byte)
  | .msg fs os => (fs.fresh, os.fresh)
def Fields.fresh : (fs : Fields) → fs.Held
  | .nil => ()
  | .plain _ t rest => (t.fresh, rest.fresh)
  | .optional _ _ rest => (none, rest.fresh)
  | .repeated _ cap t rest => (([], List.replicate cap t.fresh), rest.fresh)
def Oneofs.fresh : (os : Oneofs) → os.Held
  | .nil => ()
  | .cons _ rest => (none, rest.fresh)
end

mutual
/-- The visible part. -/
def ElemTy.seen : (t : ElemTy) → t.Held → t.Val
  | .scalar _, v => v
  | .str _, v => v
  | .msg fs os, v => (fs.seen v.1, os.seen v.2)
def Fields.seen : (fs : Fields) → fs.Held → fs.Val
  | .nil, _ => ()
  | .plain _ t rest, v => (t.seen v.1, rest.seen v.2)
  | .optional _ t rest, v => (v.1.map t.seen, rest.seen v.2)
  | .repeated _ _ t rest, v => (v.1.1.map t.seen, rest.seen v.2)
def Alts.seen : (a : Alts) → a.Held → a.Val
  | .nil, v => v
  | .cons _ t _, .inl x => .inl (t.seen x)
  | .cons _ _ rest, .inr y => .inr (rest.seen y)
def Oneofs.seen : (os : Oneofs) → os.Held → os.Val
  | .nil, _ => ()
  | .cons a rest, v => (v.1.map a.seen, rest.seen v.2)
end

mutual
/-- The messages kept but not in use show default values: decoding into them is like decoding into new
ones. Elements in use do not matter, as decoding never touches them. -/
def ElemTy.Blank : (t : ElemTy) → t.Held → Prop
  | .scalar _, _ => True
  | .str _, _ => True
  | .msg fs os, v => fs.Blank v.1 ∧ os.Blank v.2
def Fields.Blank : (fs : Fields) → fs.Held → Prop
  | .nil, _ => True
  | .plain _ t rest, v => t.Blank v.1 ∧ rest.Blank v.2
  | .optional _ t rest, v => (∀ x, v.1 = some x → t.Blank x) ∧ rest.Blank v.2
  | .repeated _ _ t rest, v =>
    (t.isMsg = true → ∀ x ∈ v.1.2, t.seen x = t.dflt ∧ t.Blank x) ∧ rest.Blank v.2
def Alts.Blank : (a : Alts) → a.Held → Prop
  | .nil, _ => True
  | .cons _ t _, .inl x => t.Blank x
  | .cons _ _ rest, .inr y => rest.Blank y
def Oneofs.Blank : (os : Oneofs) → os.Held → Prop
  | .nil, _ => True
  | .cons a rest, v => (∀ x, v.1 = some x → a.Blank x) ∧ rest.Blank v.2
end

mutual
/-- Every array has all its elements, in use or not. -/
def ElemTy.Sized : (t : ElemTy) → t.Held → Prop
  | .scalar _, _ => True
  | .str _, _ => True
  | .msg fs os, v => fs.Sized v.1 ∧ os.Sized v.2
def Fields.Sized : (fs : Fields) → fs.Held → Prop
  | .nil, _ => True
  | .plain _ t rest, v => t.Sized v.1 ∧ rest.Sized v.2
  | .optional _ t rest, v => (∀ x, v.1 = some x → t.Sized x) ∧ rest.Sized v.2
  | .repeated _ cap t rest, v =>
    (v.1.1.length + v.1.2.length = cap ∧ (∀ x ∈ v.1.1, t.Sized x) ∧ ∀ x ∈ v.1.2, t.Sized x) ∧
      rest.Sized v.2
def Alts.Sized : (a : Alts) → a.Held → Prop
  | .nil, _ => True
  | .cons _ t _, .inl x => t.Sized x
  | .cons _ _ rest, .inr y => rest.Sized y
def Oneofs.Sized : (os : Oneofs) → os.Held → Prop
  | .nil, _ => True
  | .cons a rest, v => (∀ x, v.1 = some x → a.Sized x) ∧ rest.Sized v.2
end

/-! ## Merging a decoded value -/

/-- Each new element is merged into the next leftover. -/
def absorbList {H V : Type} (f : H → V → H) (u : List H × List H) (ys : List V) : List H × List H :=
  (u.1 ++ List.zipWith f u.2 ys, u.2.drop ys.length)

/-- There is a leftover for each new element, and it has room for it. -/
def RoomList {H V : Type} (P : H → V → Prop) (hs : List H) (ys : List V) : Prop :=
  ys.length ≤ hs.length ∧ ∀ p ∈ hs.zip ys, P p.1 p.2

mutual
/-- Merge of a decoded value `v` into what is held. -/
def ElemTy.absorb : (t : ElemTy) → t.Held → t.Val → t.Held
  | .scalar _, _, v => v
  | .str _, _, v => v
  | .msg fs os, u, v => (fs.absorb u.1 v.1, os.absorb u.2 v.2)
def Fields.absorb : (fs : Fields) → fs.Held → fs.Val → fs.Held
  | .nil, u, _ => u
  | .plain _ t rest, u, v =>
    (if t.isDflt v.1 then u.1 else t.absorb u.1 v.1, rest.absorb u.2 v.2)
  | .optional _ t rest, u, v =>
    (match v.1 with
      | none => u.1
      | some y => some (t.absorb (u.1.getD t.fresh) y), rest.absorb u.2 v.2)
  | .repeated _ _ t rest, u, v => (absorbList t.absorb u.1 v.1, rest.absorb u.2 v.2)
def Alts.absorb : (a : Alts) → Option a.Held → a.Val → a.Held
  | .nil, _, v => v
  | .cons _ t _, u, .inl y => .inl (t.absorb (leftD t.fresh u) y)
  | .cons _ _ rest, u, .inr y => .inr (rest.absorb (rightOf u) y)
def Oneofs.absorb : (os : Oneofs) → os.Held → os.Val → os.Held
  | .nil, u, _ => u
  | .cons a rest, u, v =>
    (match v.1 with
      | none => u.1
      | some y => some (a.absorb u.1 y), rest.absorb u.2 v.2)
end

mutual
/-- There is room for `v`. -/
def ElemTy.Room : (t : ElemTy) → t.Held → t.Val → Prop
  | .scalar _, _, _ => True
  | .str cap, _, v => List.length (α := Byte) v ≤ cap
  | .msg fs os, u, v => fs.Room u.1 v.1 ∧ os.Room u.2 v.2
def Fields.Room : (fs : Fields) → fs.Held → fs.Val → Prop
  | .nil, _, _ => True
  | .plain _ t rest, u, v => (t.isDflt v.1 = false → t.Room u.1 v.1) ∧ rest.Room u.2 v.2
  | .optional _ t rest, u, v => (∀ y, v.1 = some y → t.Room (u.1.getD t.fresh) y) ∧ rest.Room u.2 v.2
  | .repeated _ _ t rest, u, v => RoomList t.Room u.1.2 v.1 ∧ rest.Room u.2 v.2
def Alts.Room : (a : Alts) → Option a.Held → a.Val → Prop
  | .nil, _, _ => True
  | .cons _ t _, u, .inl y => t.Room (leftD t.fresh u) y
  | .cons _ _ rest, u, .inr y => rest.Room (rightOf u) y
def Oneofs.Room : (os : Oneofs) → os.Held → os.Val → Prop
  | .nil, _, _ => True
  | .cons a rest, u, v => (∀ y, v.1 = some y → a.Room u.1 y) ∧ rest.Room u.2 v.2
end

/-! ## Record streams -/

mutual
/-- As `ElemTy.Payload`, on what is held. -/
def ElemTy.HPayload : (t : ElemTy) → List Byte → t.Held → t.Held → Prop
  | .scalar s, bs, _, v => s.Payload bs v
  | .str cap, bs, _, v => Delimited bs v ∧ List.length (α := Byte) v ≤ cap
  | .msg fs os, bs, u, v => ∃ body, Delimited bs body ∧
      Stream (RecordStep (fs.numbers ++ os.numbers) fs.HRecord os.HRecord) body u v
/-- As `Fields.Record`; a new element of a repeated field starts as the first leftover. -/
def Fields.HRecord : (fs : Fields) → (num : Nat) → WireType → List Byte → fs.Held → fs.Held → Prop
  | .nil, _, _, _, _, _ => False
  | .plain n t rest, num, wt, bs, u, v =>
    (num = n ∧ wt = t.wire ∧ t.HPayload bs u.1 v.1 ∧ v.2 = u.2) ∨
    (rest.HRecord num wt bs u.2 v.2 ∧ v.1 = u.1)
  | .optional n t rest, num, wt, bs, u, v =>
    (num = n ∧ wt = t.wire ∧ (∃ y, t.HPayload bs (u.1.getD t.fresh) y ∧ v.1 = some y) ∧ v.2 = u.2) ∨
    (rest.HRecord num wt bs u.2 v.2 ∧ v.1 = u.1)
  | .repeated n _ t rest, num, wt, bs, u, v =>
    (num = n ∧ wt = .lengthDelimited ∧
      (if t.isScalar then
        ∃ body ys, Delimited bs body ∧ Packed (fun b y => t.HPayload b t.fresh y) body ys ∧
          ys.length ≤ u.1.2.length ∧ v.1 = (u.1.1 ++ ys, u.1.2.drop ys.length)
       else ∃ h hs y, u.1.2 = h :: hs ∧ t.HPayload bs h y ∧ v.1 = (u.1.1 ++ [y], hs)) ∧ v.2 = u.2) ∨
    (rest.HRecord num wt bs u.2 v.2 ∧ v.1 = u.1)
def Alts.HRecord : (a : Alts) → (num : Nat) → WireType → List Byte → Option a.Held → a.Held → Prop
  | .nil, _, _, _, _, _ => False
  | .cons n t rest, num, wt, bs, u, v =>
    (num = n ∧ wt = t.wire ∧ ∃ y, t.HPayload bs (leftD t.fresh u) y ∧ v = .inl y) ∨
    (∃ y, rest.HRecord num wt bs (rightOf u) y ∧ v = .inr y)
def Oneofs.HRecord : (os : Oneofs) → (num : Nat) → WireType → List Byte → os.Held → os.Held → Prop
  | .nil, _, _, _, _, _ => False
  | .cons a rest, num, wt, bs, u, v =>
    ((∃ y, a.HRecord num wt bs u.1 y ∧ v.1 = some y) ∧ v.2 = u.2) ∨
    (rest.HRecord num wt bs u.2 v.2 ∧ v.1 = u.1)
end

/-- `bs` is a sequence of well formed records; applying them to an object that holds `u` makes it hold
`v`. -/
def HRecords (fs : Fields) (os : Oneofs) : List Byte → fs.Held × os.Held → fs.Held × os.Held → Prop :=
  Stream (RecordStep (fs.numbers ++ os.numbers) fs.HRecord os.HRecord)

/-! ## Observation -/

/-- Both parts of the array. -/
def repHeldSpec {E : FieldClass} {V : Type} (S : ClassSpec E V) (cap : Nat) :
    ClassSpec (repeatedClass E cap) (List V × List V) where
  abs x := (x.elems.map S.abs, x.stale.map S.abs)
  Inv x := x.data.length = cap ∧ x.len ≤ cap ∧ ∀ d ∈ x.data, S.Inv d
  Clean _ := True

mutual
/-- What the objects of a class hold. -/
def ElemTy.heldSpec : (t : ElemTy) → ClassSpec t.cls t.Held
  | .scalar s => scalarSpec s
  | .str cap => strSpec cap
  | .msg fs os => msgSpec fs.nOptional (fs.heldSpec 0) os.heldSpec
def Fields.heldSpec : (fs : Fields) → (idx : Nat) → FieldsSpec (fs.cls idx) fs.Held
  | .nil, _ => .nil
  | .plain num t rest, idx => .plain num t.heldSpec (rest.heldSpec idx)
  | .optional num t rest, idx => .optional num idx t.heldSpec (rest.heldSpec (idx + 1))
  | .repeated num cap t rest, idx => .plain num (repHeldSpec t.heldSpec cap) (rest.heldSpec idx)
def Alts.heldSpec : (a : Alts) → AltsSpec a.cls a.Held
  | .nil => .nil
  | .cons num t rest => .cons num t.heldSpec rest.heldSpec
def Oneofs.heldSpec : (os : Oneofs) → OneofsSpec os.cls os.Held
  | .nil => .nil
  | .cons a rest => .cons a.heldSpec rest.heldSpec
end

/-- What an object holds. -/
abbrev ElemTy.held (t : ElemTy) (x : t.Obj) : t.Held := t.heldSpec.abs x

end EP
