import Verif.Spec.Value

/-!
# Well formed record streams

Which byte strings are a sequence of well formed protobuf records for a declaration, and what
applying them to a value means: records may come in any order and any number of times; varints need
not be of minimal length; records with unknown numbers are ignored.
-/

namespace EP
open Spec

/-- `bs` is the encoding of the scalar value `v` after the tag, in any accepted form. -/
def ScalarTy.Payload : (s : ScalarTy) → List Byte → s.Val → Prop
  | .int32, bs, v => ∃ n, Varint 64 bs n ∧ v = BitVec.ofNat 32 n
  | .int64, bs, v => ∃ n, Varint 64 bs n ∧ v = BitVec.ofNat 64 n
  | .uint32, bs, v => ∃ n, Varint 32 bs n ∧ v = BitVec.ofNat 32 n
  | .uint64, bs, v => ∃ n, Varint 64 bs n ∧ v = BitVec.ofNat 64 n
  | .sint32, bs, v => ∃ n, Varint 64 bs n ∧ zigzag (BitVec.toInt (n := 32) v) = n % 2 ^ 32
  | .sint64, bs, v => Varint 64 bs (zigzag (BitVec.toInt (n := 64) v))
  | .boolean, bs, v => ∃ n, n < 128 ∧ bs = varint n ∧ v = decide (n ≠ 0)
  | .enumeration, bs, v => ∃ n, Varint 32 bs n ∧ v = BitVec.ofNat 32 n
  | .fixed32, bs, v => bs.length = 4 ∧ v = BitVec.ofNat 32 (ofLittleEndian bs)
  | .sfixed32, bs, v => bs.length = 4 ∧ v = BitVec.ofNat 32 (ofLittleEndian bs)
  | .floatfixed, bs, v => bs.length = 4 ∧ v = BitVec.ofNat 32 (ofLittleEndian bs)
  | .fixed64, bs, v => bs.length = 8 ∧ v = BitVec.ofNat 64 (ofLittleEndian bs)
  | .sfixed64, bs, v => bs.length = 8 ∧ v = BitVec.ofNat 64 (ofLittleEndian bs)
  | .doublefixed, bs, v => bs.length = 8 ∧ v = BitVec.ofNat 64 (ofLittleEndian bs)

/-- `bs` is `body` preceded by its length. -/
def Delimited (bs body : List Byte) : Prop :=
  ∃ p, Varint 32 p body.length ∧ bs = p ++ body

/-- The bytes after the tag of a record that is to be skipped. -/
def UnknownPayload : WireType → List Byte → Prop
  | .varint, bs => IsVarint 10 bs
  | .fixed64, bs => bs.length = 8
  | .fixed32, bs => bs.length = 4
  | .lengthDelimited, bs => ∃ body, Delimited bs body
  | _, _ => False

/-- A sequence of steps, each consuming some bytes. -/
inductive Stream {V : Type} (Step : List Byte → V → V → Prop) : List Byte → V → V → Prop where
  | nil (v : V) : Stream Step [] v v
  | cons {bs bs' : List Byte} {u v w : V} :
      Step bs u v → Stream Step bs' v w → Stream Step (bs ++ bs') u w

/-- A sequence of elements. -/
inductive Packed {V : Type} (P : List Byte → V → Prop) : List Byte → List V → Prop where
  | nil : Packed P [] []
  | cons {bs bs' : List Byte} {v : V} {vs : List V} :
      P bs v → Packed P bs' vs → Packed P (bs ++ bs') (v :: vs)

/-- One record of a message: known to `F` (fields), known to `O` (oneofs), or unknown. -/
def RecordStep {U V : Type} (known : List Nat) (F : Nat → WireType → List Byte → U → U → Prop)
    (O : Nat → WireType → List Byte → V → V → Prop) (bs : List Byte) (u v : U × V) : Prop :=
  ∃ num wt t p, Varint 32 t (8 * num + wireNumber wt) ∧ bs = t ++ p ∧
    ((F num wt p u.1 v.1 ∧ v.2 = u.2) ∨ (O num wt p u.2 v.2 ∧ v.1 = u.1) ∨
      (0 < num ∧ num ∉ known ∧ UnknownPayload wt p ∧ v = u))

/-- The first member if it is the chosen one. -/
def leftD {A B : Type} (d : A) : Option (A ⊕ B) → A
  | some (.inl a) => a
  | _ => d

/-- The choice among the other members. -/
def rightOf {A B : Type} : Option (A ⊕ B) → Option B
  | some (.inr b) => some b
  | _ => none

mutual
/-- `bs` are the bytes of a record of this type after its tag; decoding them turns the value `u`
into `v`. -/
def ElemTy.Payload : (t : ElemTy) → List Byte → t.Val → t.Val → Prop
  | .scalar s, bs, _, v => s.Payload bs v
  | .str cap, bs, _, v => Delimited bs v ∧ List.length (α := Byte) v ≤ cap
  | .msg fs os, bs, u, v => ∃ body, Delimited bs body ∧
      Stream (RecordStep (fs.numbers ++ os.numbers) fs.Record os.Record) body u v
/-- A record with number `num`, wire type `wt` and payload `bs` for one of the fields. -/
def Fields.Record : (fs : Fields) → (num : Nat) → WireType → List Byte → fs.Val → fs.Val → Prop
  | .nil, _, _, _, _, _ => False
  | .plain n t rest, num, wt, bs, u, v =>
    (num = n ∧ wt = t.wire ∧ t.Payload bs u.1 v.1 ∧ v.2 = u.2) ∨
    (rest.Record num wt bs u.2 v.2 ∧ v.1 = u.1)
  | .optional n t rest, num, wt, bs, u, v =>
    (num = n ∧ wt = t.wire ∧ (∃ y, t.Payload bs (u.1.getD t.dflt) y ∧ v.1 = some y) ∧ v.2 = u.2) ∨
    (rest.Record num wt bs u.2 v.2 ∧ v.1 = u.1)
  | .repeated n cap t rest, num, wt, bs, u, v =>
    (num = n ∧ wt = .lengthDelimited ∧ v.1.length ≤ cap ∧ v.2 = u.2 ∧
      (if t.isScalar then
        ∃ body ys, Delimited bs body ∧ Packed (fun b y => t.Payload b t.dflt y) body ys ∧
          v.1 = u.1 ++ ys
       else ∃ y, t.Payload bs t.dflt y ∧ v.1 = u.1 ++ [y])) ∨
    (rest.Record num wt bs u.2 v.2 ∧ v.1 = u.1)
def Alts.Record : (a : Alts) → (num : Nat) → WireType → List Byte → Option a.Val → a.Val → Prop
  | .nil, _, _, _, _, _ => False
  | .cons n t rest, num, wt, bs, u, v =>
    (num = n ∧ wt = t.wire ∧ ∃ y, t.Payload bs (leftD t.dflt u) y ∧ v = .inl y) ∨
    (∃ y, rest.Record num wt bs (rightOf u) y ∧ v = .inr y)
def Oneofs.Record : (os : Oneofs) → (num : Nat) → WireType → List Byte → os.Val → os.Val → Prop
  | .nil, _, _, _, _, _ => False
  | .cons a rest, num, wt, bs, u, v =>
    ((∃ y, a.Record num wt bs u.1 y ∧ v.1 = some y) ∧ v.2 = u.2) ∨
    (rest.Record num wt bs u.2 v.2 ∧ v.1 = u.1)
end

/-- `bs` is a sequence of well formed records for a message with fields `fs` and oneofs `os`;
applying them to the value `u` gives `v`. -/
def Records (fs : Fields) (os : Oneofs) : List Byte → fs.Val × os.Val → fs.Val × os.Val → Prop :=
  Stream (RecordStep (fs.numbers ++ os.numbers) fs.Record os.Record)

end EP
