import Verif.Spec.Evolved

/-!
# `.proto` files in another order

The same messages, with the same fields, oneofs and members of oneofs, in another order.
-/

namespace EP.Gen

/-- Two lists of the same length, element by element. -/
inductive Pairs {α β : Type} (R : α → β → Prop) : List α → List β → Prop where
  | nil : Pairs R [] []
  | cons {a : α} {b : β} {l : List α} {m : List β} : R a b → Pairs R l m → Pairs R (a :: l) (b :: m)

/-- The same, in another order. -/
def Shuffled {α β : Type} (R : α → β → Prop) (l : List α) (m : List β) : Prop := ∃ k, l.Perm k ∧ Pairs R k m

/-- The same field; only the number of the oneof may differ. -/
structure AlikeField (f g : FieldDesc) : Prop extends SameField f g where
  name : f.name = g.name
  optional : f.proto3Optional = g.proto3Optional
  maxLength : f.maxLength = g.maxLength

/-- `m` is `l` in another order. -/
structure ReorderedMessage (l m : MsgDesc) : Prop where
  fields : Shuffled AlikeField (loose l) (loose m)
  oneofs : Shuffled (Shuffled AlikeField) (groups l) (groups m)

/-- The files have the same messages, up to the order in these. -/
structure ReorderedFiles (files files' : List (Str × List MsgDesc)) : Prop where
  defined : ∀ own, (∃ l, Defined files own l) ↔ ∃ m, Defined files' own m
  message : ∀ own l m, Defined files own l → Defined files' own m → ReorderedMessage l m

/-- The same lengths are given for the template parameters, by name. -/
def SameArguments (names names' : List Str) (args args' : List Nat) : Prop :=
  ∀ s : Str, args[names.idxOf s]? = args'[names'.idxOf s]?

/-- The second list has the elements of the first in any order, and others. -/
def Includes {α β : Type} (R : α → β → Prop) (l : List α) (m : List β) : Prop := ∃ k, l.Perm k ∧ Grown R k m

/-- `m` is a newer version of `l`, in which what was kept may be in another order. -/
structure ChangedMessage (l m : MsgDesc) : Prop where
  fields : Includes KeptField (loose l) (loose m)
  oneofs : Includes (Includes SameField) (groups l) (groups m)

/-- The files `new` are a newer version of the files `old`. -/
def ChangedFiles (old new : List (Str × List MsgDesc)) : Prop :=
  ∀ own l m, Defined old own l → Defined new own m → ChangedMessage l m

end EP.Gen
