import Verif.Spec.Stream

/-!
# Well formed messages, whatever their contents

Which byte strings are a sequence of protobuf records for a declaration, as far as the wire format
goes: nothing is said about lengths fitting into the arrays of the receiver, or about the values.
Records may come in any order and any number of times, varints need not be of minimal length, and
records with unknown numbers may be mixed in.
-/

namespace EP
open Spec

/-- A concatenation of pieces. -/
inductive Concat (P : List Byte → Prop) : List Byte → Prop where
  | nil : Concat P []
  | cons {bs bs' : List Byte} : P bs → Concat P bs' → Concat P (bs ++ bs')

/-- One record: of a field `F`, of a member of a oneof `O`, or unknown. -/
def RecordSyntax (known : List Nat) (F O : Nat → WireType → List Byte → Prop) (bs : List Byte) : Prop :=
  ∃ num wt t p, Varint 32 t (8 * num + wireNumber wt) ∧ bs = t ++ p ∧
    (F num wt p ∨ O num wt p ∨ (0 < num ∧ num ∉ known ∧ UnknownPayload wt p))

mutual
/-- The bytes of a record of this type after its tag. -/
def ElemTy.Syntax : ElemTy → List Byte → Prop
  | .scalar s, bs => ∃ v, s.Payload bs v
  | .str _, bs => ∃ body, Delimited bs body
  | .msg fs os, bs => ∃ body, Delimited bs body ∧
      Concat (RecordSyntax (fs.numbers ++ os.numbers) fs.Syntax os.Syntax) body
/-- A record of one of the fields: its number, wire type, and the bytes after the tag. -/
def Fields.Syntax : Fields → Nat → WireType → List Byte → Prop
  | .nil, _, _, _ => False
  | .plain n t rest, num, wt, bs => (num = n ∧ wt = t.wire ∧ t.Syntax bs) ∨ rest.Syntax num wt bs
  | .optional n t rest, num, wt, bs => (num = n ∧ wt = t.wire ∧ t.Syntax bs) ∨ rest.Syntax num wt bs
  | .repeated n _ t rest, num, wt, bs =>
    (num = n ∧ wt = .lengthDelimited ∧
      (if t.isScalar then ∃ body, Delimited bs body ∧ Concat t.Syntax body else t.Syntax bs)) ∨
    rest.Syntax num wt bs
def Alts.Syntax : Alts → Nat → WireType → List Byte → Prop
  | .nil, _, _, _ => False
  | .cons n t rest, num, wt, bs => (num = n ∧ wt = t.wire ∧ t.Syntax bs) ∨ rest.Syntax num wt bs
def Oneofs.Syntax : Oneofs → Nat → WireType → List Byte → Prop
  | .nil, _, _, _ => False
  | .cons a rest, num, wt, bs => a.Syntax num wt bs ∨ rest.Syntax num wt bs
end

/-- `bs` is a well formed message with fields `fs` and oneofs `os`. -/
def WellFormed (fs : Fields) (os : Oneofs) : List Byte → Prop :=
  Concat (RecordSyntax (fs.numbers ++ os.numbers) fs.Syntax os.Syntax)

end EP
