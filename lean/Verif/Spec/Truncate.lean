import Verif.Spec.Fail

/-!
# Truncated input

Input that ends inside a scalar, a string, a length or an unknown scalar, at any depth of nesting: `q`
is what is left of the payload of a record, the rest of which is missing.  (Input that ends inside a
tag, between two records of a nested message, inside a packed array or inside a length-delimited
unknown field is not covered; the code accepts it.)
-/

namespace EP
open Spec

/-- What is left of an unknown field. -/
def UnknownCut : WireType → List Byte → Prop
  | .varint, q => ∃ r, r ≠ [] ∧ IsVarint 10 (q ++ r)
  | .fixed64, q => q.length < 8
  | .fixed32, q => q.length < 4
  | .lengthDelimited, q => ∃ r n, r ≠ [] ∧ Varint 32 (q ++ r) n
  | _, _ => False

/-- A message that ends inside a record of which `tg ++ q` is left. -/
def MessageCut {U V : Type} (known : List Nat) (Step : List Byte → U × V → U × V → Prop)
    (F : Nat → WireType → List Byte → U → Prop) (O : Nat → WireType → List Byte → V → Prop)
    (bs : List Byte) (u : U × V) : Prop :=
  ∃ pre tg q num wt v, bs = pre ++ (tg ++ q) ∧ Stream Step pre u v ∧
    Varint 32 tg (8 * num + wireNumber wt) ∧
    (F num wt q v.1 ∨ O num wt q v.2 ∨ (0 < num ∧ num ∉ known ∧ UnknownCut wt q))

mutual
/-- What is left of the payload of a record of type `t`; `u` is the value before. -/
def ElemTy.Cut : (t : ElemTy) → List Byte → t.Val → Prop
  | .scalar s, q, _ => ∃ r v, r ≠ [] ∧ s.Payload (q ++ r) v
  | .str cap, q, _ => ∃ r v, r ≠ [] ∧ Delimited (q ++ r) v ∧ v.length ≤ cap
  | .msg fs os, q, u => (∃ r n, r ≠ [] ∧ Varint 32 (q ++ r) n) ∨
      ∃ p body n, q = p ++ body ∧ Varint 32 p n ∧ body.length ≤ n ∧
        MessageCut (fs.numbers ++ os.numbers)
          (RecordStep (fs.numbers ++ os.numbers) fs.Record os.Record) fs.Cut os.Cut body u
def Fields.Cut : (fs : Fields) → (num : Nat) → WireType → List Byte → fs.Val → Prop
  | .nil, _, _, _, _ => False
  | .plain n t rest, num, wt, q, u =>
    (num = n ∧ wt = t.wire ∧ t.Cut q u.1) ∨ rest.Cut num wt q u.2
  | .optional n t rest, num, wt, q, u =>
    (num = n ∧ wt = t.wire ∧ t.Cut q (u.1.getD t.dflt)) ∨ rest.Cut num wt q u.2
  | .repeated n cap t rest, num, wt, q, u =>
    (num = n ∧ wt = .lengthDelimited ∧ t.isScalar = false ∧ u.1.length < cap ∧ t.Cut q t.dflt) ∨
    rest.Cut num wt q u.2
def Alts.Cut : (a : Alts) → (num : Nat) → WireType → List Byte → Option a.Val → Prop
  | .nil, _, _, _, _ => False
  | .cons n t rest, num, wt, q, u =>
    (num = n ∧ wt = t.wire ∧ t.Cut q (leftD t.dflt u)) ∨ rest.Cut num wt q (rightOf u)
def Oneofs.Cut : (os : Oneofs) → (num : Nat) → WireType → List Byte → os.Val → Prop
  | .nil, _, _, _, _ => False
  | .cons a rest, num, wt, q, u => a.Cut num wt q u.1 ∨ rest.Cut num wt q u.2
end

/-- The bytes `bs`, for a message with value `u`, end inside a record. -/
def Truncated (fs : Fields) (os : Oneofs) (bs : List Byte) (u : fs.Val × os.Val) : Prop :=
  MessageCut (fs.numbers ++ os.numbers)
    (RecordStep (fs.numbers ++ os.numbers) fs.Record os.Record) fs.Cut os.Cut bs u

/-- What follows the start tag of a group with number `num`, up to and including its end tag. -/
inductive Group : Nat → List Byte → Prop where
  | stop {num : Nat} {tg : List Byte} : Varint 32 tg (8 * num + 4) → Group num tg
  | field {num k : Nat} {wt : WireType} {tg p rest : List Byte} :
      0 < k → Varint 32 tg (8 * k + wireNumber wt) → UnknownPayload wt p → Group num rest →
      Group num (tg ++ (p ++ rest))
  | group {num k : Nat} {tg p rest : List Byte} :
      0 < k → Varint 32 tg (8 * k + 3) → Group k p → Group num rest → Group num (tg ++ (p ++ rest))

end EP
