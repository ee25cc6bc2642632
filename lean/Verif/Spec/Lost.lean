import Verif.Spec.Truncate

/-!
# Truncated input that goes unnoticed

The other ways in which input can end inside a record (compare `Spec/Truncate.lean`).  `Lost`: inside a tag, inside a
packed array or its length, between two records of a nested message, at any depth; with the value that results.
`Overlong`: inside the contents of an unknown length-delimited field, at any depth.
-/

namespace EP
open Spec

/-- What is left of a packed array: part of the length, or the length, some elements and part of the next one.
`ys` are the complete elements. -/
def PackedLost {V : Type} (P : List Byte → V → Prop) (q : List Byte) (ys : List V) : Prop :=
  (ys = [] ∧ ∃ r n, r ≠ [] ∧ Varint 32 (q ++ r) n) ∨
  ∃ p good bad r y n, q = p ++ (good ++ bad) ∧ Varint 32 p n ∧ (good ++ bad).length < n ∧ Packed P good ys ∧
    r ≠ [] ∧ P (bad ++ r) y

/-- A message that ends between two records, inside a tag, or in a part of a field by `F` or `O`. -/
def MessageLost {U V : Type} (Step : List Byte → U × V → U × V → Prop)
    (F : Nat → WireType → List Byte → U → U → Prop) (O : Nat → WireType → List Byte → V → V → Prop)
    (bs : List Byte) (u v : U × V) : Prop :=
  ∃ pre tail w, bs = pre ++ tail ∧ Stream Step pre u w ∧
    ((CutVarint 5 tail ∧ v = w) ∨
     ∃ tg q num wt, tail = tg ++ q ∧ Varint 32 tg (8 * num + wireNumber wt) ∧
      ((F num wt q w.1 v.1 ∧ v.2 = w.2) ∨ (O num wt q w.2 v.2 ∧ v.1 = w.1)))

mutual
/-- What is left of the payload of a record of type `t`, and its effect. -/
def ElemTy.Lost : (t : ElemTy) → List Byte → t.Val → t.Val → Prop
  | .scalar _, _, _, _ => False
  | .str _, _, _, _ => False
  | .msg fs os, q, u, v => ∃ p body n, q = p ++ body ∧ Varint 32 p n ∧ body.length < n ∧
      MessageLost (RecordStep (fs.numbers ++ os.numbers) fs.Record os.Record) fs.Lost os.Lost body u v
def Fields.Lost : (fs : Fields) → (num : Nat) → WireType → List Byte → fs.Val → fs.Val → Prop
  | .nil, _, _, _, _, _ => False
  | .plain n t rest, num, wt, q, u, v =>
    (num = n ∧ wt = t.wire ∧ t.Lost q u.1 v.1 ∧ v.2 = u.2) ∨ (rest.Lost num wt q u.2 v.2 ∧ v.1 = u.1)
  | .optional n t rest, num, wt, q, u, v =>
    (num = n ∧ wt = t.wire ∧ (∃ y, t.Lost q (u.1.getD t.dflt) y ∧ v.1 = some y) ∧ v.2 = u.2) ∨
    (rest.Lost num wt q u.2 v.2 ∧ v.1 = u.1)
  | .repeated n cap t rest, num, wt, q, u, v =>
    (num = n ∧ wt = .lengthDelimited ∧ v.1.length ≤ cap ∧ v.2 = u.2 ∧
      (if t.isScalar then ∃ ys, PackedLost (fun b y => t.Payload b t.dflt y) q ys ∧ v.1 = u.1 ++ ys
       else ∃ y, t.Lost q t.dflt y ∧ v.1 = u.1 ++ [y])) ∨
    (rest.Lost num wt q u.2 v.2 ∧ v.1 = u.1)
def Alts.Lost : (a : Alts) → (num : Nat) → WireType → List Byte → Option a.Val → a.Val → Prop
  | .nil, _, _, _, _, _ => False
  | .cons n t rest, num, wt, q, u, v =>
    (num = n ∧ wt = t.wire ∧ ∃ y, t.Lost q (leftD t.dflt u) y ∧ v = .inl y) ∨
    (∃ y, rest.Lost num wt q (rightOf u) y ∧ v = .inr y)
def Oneofs.Lost : (os : Oneofs) → (num : Nat) → WireType → List Byte → os.Val → os.Val → Prop
  | .nil, _, _, _, _, _ => False
  | .cons a rest, num, wt, q, u, v =>
    ((∃ y, a.Lost num wt q u.1 y ∧ v.1 = some y) ∧ v.2 = u.2) ∨ (rest.Lost num wt q u.2 v.2 ∧ v.1 = u.1)
end

/-- The bytes `bs` end inside a record in a way that is not noticed; a message with value `u` has the value `v`
then. -/
def Lost (fs : Fields) (os : Oneofs) (bs : List Byte) (u v : fs.Val × os.Val) : Prop :=
  MessageLost (RecordStep (fs.numbers ++ os.numbers) fs.Record os.Record) fs.Lost os.Lost bs u v

/-- A message that ends inside the contents of an unknown field, or in a part of a field by `F` or `O`. -/
def MessageOverlong {U V : Type} (known : List Nat) (Step : List Byte → U × V → U × V → Prop)
    (F : Nat → WireType → List Byte → U → Prop) (O : Nat → WireType → List Byte → V → Prop)
    (bs : List Byte) (u : U × V) : Prop :=
  ∃ pre tg q num wt v, bs = pre ++ (tg ++ q) ∧ Stream Step pre u v ∧
    Varint 32 tg (8 * num + wireNumber wt) ∧
    (F num wt q v.1 ∨ O num wt q v.2 ∨
      (0 < num ∧ num ∉ known ∧ wt = .lengthDelimited ∧
        ∃ p body n, q = p ++ body ∧ Varint 32 p n ∧ body.length < n))

mutual
/-- What is left of the payload of a record of type `t`, ending inside an unknown field. -/
def ElemTy.Overlong : (t : ElemTy) → List Byte → t.Val → Prop
  | .scalar _, _, _ => False
  | .str _, _, _ => False
  | .msg fs os, q, u => ∃ p body n, q = p ++ body ∧ Varint 32 p n ∧ body.length < n ∧
      MessageOverlong (fs.numbers ++ os.numbers)
        (RecordStep (fs.numbers ++ os.numbers) fs.Record os.Record) fs.Overlong os.Overlong body u
def Fields.Overlong : (fs : Fields) → (num : Nat) → WireType → List Byte → fs.Val → Prop
  | .nil, _, _, _, _ => False
  | .plain n t rest, num, wt, q, u =>
    (num = n ∧ wt = t.wire ∧ t.Overlong q u.1) ∨ rest.Overlong num wt q u.2
  | .optional n t rest, num, wt, q, u =>
    (num = n ∧ wt = t.wire ∧ t.Overlong q (u.1.getD t.dflt)) ∨ rest.Overlong num wt q u.2
  | .repeated n cap t rest, num, wt, q, u =>
    (num = n ∧ wt = .lengthDelimited ∧ t.isScalar = false ∧ u.1.length < cap ∧ t.Overlong q t.dflt) ∨
    rest.Overlong num wt q u.2
def Alts.Overlong : (a : Alts) → (num : Nat) → WireType → List Byte → Option a.Val → Prop
  | .nil, _, _, _, _ => False
  | .cons n t rest, num, wt, q, u =>
    (num = n ∧ wt = t.wire ∧ t.Overlong q (leftD t.dflt u)) ∨ rest.Overlong num wt q (rightOf u)
def Oneofs.Overlong : (os : Oneofs) → (num : Nat) → WireType → List Byte → os.Val → Prop
  | .nil, _, _, _, _ => False
  | .cons a rest, num, wt, q, u => a.Overlong num wt q u.1 ∨ rest.Overlong num wt q u.2
end

/-- The bytes `bs`, for a message with value `u`, end inside the contents of an unknown field. -/
def Overlong (fs : Fields) (os : Oneofs) (bs : List Byte) (u : fs.Val × os.Val) : Prop :=
  MessageOverlong (fs.numbers ++ os.numbers)
    (RecordStep (fs.numbers ++ os.numbers) fs.Record os.Record) fs.Overlong os.Overlong bs u

end EP
