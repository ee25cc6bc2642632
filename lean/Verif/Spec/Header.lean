import Verif.Spec.Descriptor

/-!
# Headers

Which types a header defines, in which order, and what they need.
-/

namespace EP.Gen

mutual
/-- The types defined by the class of a message, in the order in which their definitions are complete: its
enums, what is nested in it, and then the class itself (TypeDefMsg.h: the member variables come last). -/
def MsgDesc.header (ns : Str) : MsgDesc → List Str
  | .mk name _ _ enums nested => enums.map (dot (dot ns name)) ++ headers (dot ns name) nested ++ [dot ns name]
def headers (ns : Str) : List MsgDesc → List Str
  | [] => []
  | m :: ms => m.header ns ++ headers ns ms
end

/-- The types defined in the header of a file whose messages are in the given order (Header.h). -/
def FileDesc.header (f : FileDesc) (ms : List MsgDesc) : List Str :=
  f.enums.map (dot f.package) ++ headers f.package ms

/-- `m` is one of the messages `ms` in the scope `ns` or nested in one; `scope` is the scope it is in. -/
inductive At : Str → List MsgDesc → Str → MsgDesc → Prop where
  | here {ns ms m} : m ∈ ms → At ns ms ns m
  | inside {ns ms c scope m} : c ∈ ms → At (dot ns c.name) c.nested scope m → At ns ms scope m

/-- The class of the message `m` in `scope` has a member of type `t`, or needs it for one.  Fields of the type
of the message itself are no members. -/
def Uses (scope : Str) (m : MsgDesc) (t : Str) : Prop :=
  t ≠ dot scope m.name ∧ ∃ f ∈ m.fields, (f.type = .message ∨ f.type = .enum) ∧ f.typeName = t

/-- `a` comes before `b`. -/
def Before (l : List Str) (a b : Str) : Prop := [a, b].Sublist l

/-- What protoc has checked about names: they contain no dots, and full names are distinct. -/
structure FileDesc.Valid (f : FileDesc) : Prop where
  names : ∀ scope m, At f.package f.messages scope m → '.' ∉ m.name
  enums : ∀ scope m, At f.package f.messages scope m → ∀ e ∈ m.enums, '.' ∉ e
  distinct : (f.header f.messages).Nodup

/-- `t` is `q` or nested in it. -/
def Under (q t : Str) : Prop := t = q ∨ (q ++ ['.']) <+: t

/-- `s` without some occurrences of `old`. -/
inductive Removed (old : Str) : Str → Str → Prop where
  | nil : Removed old [] []
  | keep {s t} (c : Char) : Removed old s t → Removed old (c :: s) (c :: t)
  | drop {s t} : Removed old s t → Removed old (old ++ s) t

/-- A name that is known when the file is sorted: the package, a type defined in it, a type of a field, or
the placeholder for the type of fields that are left out. -/
def FileDesc.Mentions (f : FileDesc) (n : Str) : Prop :=
  n = f.package ∨ n ∈ headers f.package f.messages ∨ n = "FieldErrorRecursive".toList ∨
    ∃ scope m, At f.package f.messages scope m ∧ Uses scope m n

/-- The names do not confuse the generator: no type of a field begins with the name of a message without being
nested in it, and no name becomes that of a message when occurrences of the name of the message's scope are
left out. -/
structure FileDesc.Clear (f : FileDesc) : Prop where
  prefixes : ∀ scope m, At f.package f.messages scope m → ∀ scope' m' t, At f.package f.messages scope' m' →
    Uses scope' m' t → dot scope m.name <+: t → Under (dot scope m.name) t
  scopes : ∀ scope m, At f.package f.messages scope m → ∀ n, f.Mentions n →
    Removed (scope ++ ['.']) n m.name → n = dot scope m.name

/-- No message has a field whose type is a message it is nested in. -/
def FileDesc.NoOuter (f : FileDesc) : Prop :=
  ∀ scope m t, At f.package f.messages scope m → Uses scope m t → ¬ ∃ outer c, At f.package f.messages outer c ∧
    t = dot outer c.name ∧ (dot outer c.name ++ ['.']) <+: dot scope m.name

/-- The same messages in another order, and likewise for those nested in them. -/
inductive Rearranged : List MsgDesc → List MsgDesc → Prop where
  | perm {l l'} : l.Perm l' → Rearranged l l'
  | inside {name fields oneofs enums nested nested'} (l r : List MsgDesc) : Rearranged nested nested' →
      Rearranged (l ++ .mk name fields oneofs enums nested :: r) (l ++ .mk name fields oneofs enums nested' :: r)
  | trans {a b c} : Rearranged a b → Rearranged b c → Rearranged a c

/-- The messages can be arranged so that every type of the file comes before the messages that use it. -/
def FileDesc.Orderable (f : FileDesc) : Prop :=
  ∃ ms, Rearranged f.messages ms ∧ ∀ scope m t, At f.package f.messages scope m → Uses scope m t →
    t ∈ f.header f.messages → Before (f.header ms) t (dot scope m.name)

/-- No message uses a type that is nested two or more levels deep in it. -/
def FileDesc.Shallow (f : FileDesc) : Prop :=
  ∀ scope m t, At f.package f.messages scope m → Uses scope m t → ∀ c ∈ m.nested,
    t ∈ c.header (dot scope m.name) → t = dot (dot scope m.name) c.name

end EP.Gen
