import Verif.Model.WireFields
import Verif.Spec.Stream

/-!
# Fields written by hand

The protobuf record of a field, and the records a message without strings, messages, repeated fields
and oneofs consists of.
-/

namespace EP
open Spec

/-- The record of a field: its tag and its value, a negative `int32` or enum in 5 bytes. -/
def HandField.bytes (f : HandField) : List Byte := tag f.num f.ty.wire ++ f.ty.enc f.val

/-- The record a standard encoder makes. -/
def HandField.standard (f : HandField) : List Byte := tag f.num f.ty.wire ++ f.ty.encStandard f.val

/-- What may follow the tag, when read by hand: as for a message, but an enum may be a 64 bit varint
and is reduced, and for a `bool` any single byte is taken. -/
def ScalarTy.HandPayload : (s : ScalarTy) → List Byte → s.Val → Prop
  | .enumeration, bs, v => ∃ n, Varint 64 bs n ∧ v = BitVec.ofNat 32 n
  | .boolean, bs, v => ∃ x : Byte, bs = [x] ∧ v = (x != 0)
  | s, bs, v => s.Payload bs v

/-- A record as some encoder may have written it. -/
def HandField.Record (f : HandField) (bs : List Byte) : Prop :=
  ∃ t p, Varint 32 t (8 * f.num + wireNumber f.ty.wire) ∧ f.ty.HandPayload p f.val ∧ bs = t ++ p

/-- Records one after the other. -/
inductive HandRecords : List HandField → List Byte → Prop where
  | nil : HandRecords [] []
  | cons {f fs bs bs'} : HandField.Record f bs → HandRecords fs bs' → HandRecords (f :: fs) (bs ++ bs')

/-- Field numbers are positive and less than `2 ^ 29`. -/
def HandField.Numbered (f : HandField) : Prop := 0 < f.num ∧ f.num < 2 ^ 29

/-- The program knows the field: it reads a value of its type after its tag. -/
def HandField.Known (dispatch : Nat → WireType → Option ScalarTy) (f : HandField) : Prop :=
  dispatch f.num f.ty.wire = some f.ty

/-- Only scalar fields, none of them repeated. -/
def Fields.Flat : Fields → Prop
  | .nil => True
  | .plain _ (.scalar _) rest => rest.Flat
  | .optional _ (.scalar _) rest => rest.Flat
  | _ => False

/-- The fields to write for a value of a flat message: those without presence that are not zero, and
those with presence that are set. -/
def Fields.hand : (fs : Fields) → fs.Val → List HandField
  | .nil, _ => []
  | .plain num (.scalar s) rest, v =>
    (if s.isZero v.1 then [] else [⟨num, s, v.1⟩]) ++ rest.hand v.2
  | .optional num (.scalar s) rest, v =>
    (match v.1 with
      | none => []
      | some x => [⟨num, s, x⟩]) ++ rest.hand v.2
  | .plain _ (.str _) _, _ => []
  | .plain _ (.msg _ _) _, _ => []
  | .optional _ (.str _) _, _ => []
  | .optional _ (.msg _ _) _, _ => []
  | .repeated _ _ _ _, _ => []

/-- What a program that knows the declaration reads after a tag. -/
def Fields.dispatch : Fields → Nat → WireType → Option ScalarTy
  | .nil, _, _ => none
  | .plain n (.scalar s) rest, num, wt => if num = n ∧ wt = s.wire then some s else rest.dispatch num wt
  | .optional n (.scalar s) rest, num, wt =>
    if num = n ∧ wt = s.wire then some s else rest.dispatch num wt
  | .plain _ _ rest, num, wt => rest.dispatch num wt
  | .optional _ _ rest, num, wt => rest.dispatch num wt
  | .repeated _ _ _ rest, num, wt => rest.dispatch num wt

end EP
