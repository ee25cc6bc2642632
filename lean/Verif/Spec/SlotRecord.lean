import Verif.Spec.Fail
import Verif.Spec.Slot

/-!
# Records of one field

What a well formed or malformed record means for the field it belongs to.
-/

namespace EP
open Spec

/-- The content of the data member of a field with the given value: an absent optional field holds
the default. -/
def Card.stored : (c : Card) → (t : ElemTy) → c.Val t → c.MVal t
  | .single, _, v => v
  | .opt, t, v => Option.getD v t.dflt
  | .rep _, _, v => v

/-- The wire type of the records of a field. -/
def Card.wire : Card → ElemTy → WireType
  | .single, t => t.wire
  | .opt, t => t.wire
  | .rep _, _ => .lengthDelimited

/-- The bytes of a record of the field after its tag; the content changes from `u` to `v`. -/
def Card.Payload : (c : Card) → (t : ElemTy) → List Byte → c.MVal t → c.MVal t → Prop
  | .single, t => t.Payload
  | .opt, t => t.Payload
  | .rep cap, t => fun bs u v => List.length (α := t.Val) v ≤ cap ∧ (if t.isScalar then
      ∃ body ys, Delimited bs body ∧ Packed (fun b y => t.Payload b t.dflt y) body ys ∧
        v = List.append (α := t.Val) u ys
      else ∃ y, t.Payload bs t.dflt y ∧ v = List.append (α := t.Val) u [y])

/-- The bytes after the tag of a record that is rejected with error `e`; afterwards the content
satisfies `K`. -/
def Card.Fail : (c : Card) → (t : ElemTy) → WireType → List Byte → c.MVal t → Error →
    (c.MVal t → Prop) → Prop
  | .single, t => CheckFail t.wire t.isMsg t.BodyFail
  | .opt, t => CheckFail t.wire t.isMsg t.BodyFail
  | .rep cap, t => CheckFail .lengthDelimited false (if t.isScalar then
      PackedFail (fun b y => t.Payload b t.dflt y)
        (fun b e => t.BodyFail b t.dflt e (fun _ => True)) cap
      else ElementFail t.isMsg t.dflt cap t.BodyFail)

/-- The data member contains arrays of messages. -/
def Card.hasRepMsg : Card → ElemTy → Bool
  | .single, t => t.hasRepMsg
  | .opt, t => t.hasRepMsg
  | .rep _, t => t.isMsg

end EP
