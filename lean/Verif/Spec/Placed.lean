import Verif.Spec.Descriptor
import Verif.Spec.Slot
import Verif.Model.GenMessage

/-!
# Where a field of a descriptor belongs in the generated class
-/

namespace EP.Gen

/-- The member of the class that stands for the field `f` of a message with the given fields: on its own as
plain, optional or repeated member, or in a oneof together with exactly the other fields with the same
`oneof_index`. -/
def Placed (E : Types) (fields : List FieldDesc) (fs : Fields) (os : Oneofs) (f : FieldDesc) : Prop :=
  if f.proto3Optional then Nonempty (Slot fs f.number .opt (E.elem f))
  else match f.oneofIndex with
    | none =>
      if f.repeated then
        Nonempty (Slot fs f.number (.rep (if f.maxLength = 0 then E.repLength f else f.maxLength)) (E.elem f))
      else Nonempty (Slot fs f.number .single (E.elem f))
    | some i =>
      ∃ a, Nonempty (OneofSlot os a) ∧ Nonempty (Member a f.number (E.elem f)) ∧
        a.numbers = (fields.filter fun g => g.oneofIndex == some i).map (·.number)

end EP.Gen
