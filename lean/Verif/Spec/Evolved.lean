import Verif.Spec.Templates

/-!
# Newer versions of `.proto` files

What may be changed in a `.proto` file that others have a copy of: new messages, fields, oneofs and members of oneofs
anywhere; `optional` before a field; other names of fields and oneofs; other maximum lengths.
-/

namespace EP.Gen

/-- The second list is the first, element by element, with others in between. -/
inductive Grown {α β : Type} (R : α → β → Prop) : List α → List β → Prop where
  | nil : Grown R [] []
  | keep {a : α} {b : β} {l : List α} {m : List β} : R a b → Grown R l m → Grown R (a :: l) (b :: m)
  | new {b : β} {l : List α} {m : List β} : Grown R l m → Grown R l (b :: m)

/-- The same field in an older version, `f`, and a newer one, `g`. -/
structure SameField (f g : FieldDesc) : Prop where
  number : f.number = g.number
  repeated : f.repeated = g.repeated
  type : f.type = g.type
  typeName : f.typeName = g.typeName

/-- Outside of oneofs, `optional` may be added. -/
structure KeptField (f g : FieldDesc) : Prop extends SameField f g where
  optional : f.proto3Optional = true → g.proto3Optional = true

/-- The fields outside of oneofs. -/
def loose (m : MsgDesc) : List FieldDesc := m.fields.filter fun f => f.oneofIndex == none || f.proto3Optional

/-- The fields with the given `oneof_index`. -/
def group (m : MsgDesc) (i : Nat) : List FieldDesc := m.fields.filter fun f => f.oneofIndex == some i

/-- The oneofs that are written as such in the file: those that are not made up for an `optional` field. -/
def groups (m : MsgDesc) : List (List FieldDesc) :=
  ((List.range m.oneofs.length).map (group m)).filter fun l => l.all fun f => !f.proto3Optional

/-- `m` is a newer version of `l`. -/
structure NewerMessage (l m : MsgDesc) : Prop where
  fields : Grown KeptField (loose l) (loose m)
  oneofs : Grown (Grown SameField) (groups l) (groups m)

/-- The files `new` are a newer version of the files `old`. -/
def NewerFiles (old new : List (Str × List MsgDesc)) : Prop :=
  ∀ own l m, Defined old own l → Defined new own m → NewerMessage l m

end EP.Gen
