import Verif.Spec.Json
import Verif.Spec.Slot
import Verif.Model.GenShow

/-!
# The text of a generated class
-/

namespace EP

/-- The JSON value of what a data member holds. -/
def Card.json (P : Printer) (path : List Nat) : (c : Card) → (t : ElemTy) → c.MVal t → Json.JVal
  | .single, t, v => t.json P path v
  | .opt, t, v => t.json P path v
  | .rep _, t, v => .arr (List.map (t.json P path) v)

namespace Gen

/-- The names of the fields of the message, and which of them are `bytes`. -/
structure Describes (P : Printer) (fields : List FieldDesc) : Prop where
  name : ∀ f ∈ fields, P.name [f.number] = literal f.name
  bytes : ∀ f ∈ fields, P.isBytes [f.number] = decide (f.type = .bytes)

/-- In an array with room for it the function puts the text at the beginning, then a NUL (in place of the last character if
there is no room behind it), leaves the rest of the array alone and returns what is left.  In a smaller array its
behaviour is undefined (C46). -/
def Puts (f : List Byte → Res TextView) (text : List Byte) : Prop :=
  ∀ array : List Byte, array.length < 2147483648 → f array =
    (if text.length < array.length then
      .ok ⟨text ++ 0 :: array.drop (text.length + 1), text.length, array.length - text.length⟩
    else if text.length = array.length then .ok ⟨text.dropLast ++ [0], text.length, 0⟩
    else .ub)

/-- `x.to_string(view)` with a view of a whole array — TypeDefMsg.h:275-278. -/
def Class.print (K : Class) (S : Shows) (P : Printer) (x : K.Obj) (array : List Byte) : Res TextView :=
  K.runToString S P [] x 0 none true ⟨array, 0, array.length⟩

end Gen
end EP
