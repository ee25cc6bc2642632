import Verif.Spec.Templates
import Verif.Spec.Placed

/-!
# Instances of class templates

The type of a message when every length that is not given in the proto file has been chosen: `v p` is the length for the
path `p` (Spec/Templates).
-/

namespace EP.Gen

/-- `T` is the type of the message `own` with the lengths `v`: every field has its place in it, with its own lengths. -/
inductive InstanceOf (defs : Str → MsgDesc → Prop) : Str → (Path → Nat) → ElemTy → Prop where
  | mk {own : Str} {m : MsgDesc} {v : Path → Nat} {E : Types} {fs : Fields} {os : Oneofs} :
      defs own m →
      (∀ f ∈ m.fields, f.type = .message → InstanceOf defs f.typeName (fun p => v (.inside f p)) (E.message f)) →
      (∀ f ∈ m.fields, f.type = .string ∨ f.type = .bytes → f.maxLength = 0 → E.length f = v (.length f)) →
      (∀ f ∈ m.fields, f.repeated = true → f.maxLength = 0 → E.repLength f = v (.count f)) →
      (fs.numbers ++ os.numbers).Perm (m.fields.map (·.number)) →
      (∀ f ∈ m.fields, Placed E m.fields fs os f) →
      InstanceOf defs own v (.msg fs os)

/-- The message has no field of its own type, which would be left out (C47). -/
def NoOwn (files : List (Str × List MsgDesc)) : Prop :=
  ∀ own m, Defined files own m → ∀ f ∈ m.fields, f.typeName ≠ own

/-- `outer` encloses `own`. -/
def Encloses (outer own : Str) : Prop := (outer ++ ['.']) <+: own

instance (outer own : Str) : Decidable (Encloses outer own) := by unfold Encloses; infer_instance

/-- No length of a class has the name of one of an enclosing class, nor one in `taken own`, the names declared in the
class itself. -/
structure Unshadowed (files : List (Str × List MsgDesc)) (taken : Str → MsgDesc → List Str) : Prop where
  outer : ∀ outer own p q, Encloses outer own → Needs (Defined files) outer p → Needs (Defined files) own q →
    p.render outer ≠ q.render own
  members : ∀ outer own m p, Defined files own m → outer = own ∨ Encloses outer own → Needs (Defined files) outer p →
    p.render outer ∉ taken own m

/-- The lengths `v` are those given by the arguments, by the names of the parameters. -/
def Assigned (files : List (Str × List MsgDesc)) (P : Str → List Str) (own : Str) (args : List Nat) (v : Path → Nat) : Prop :=
  ∀ p, Needs (Defined files) own p → ∃ i : Nat, (P own)[i]? = some (p.render own) ∧ args[i]? = some (v p)

/-- An acceptable length. -/
def GoodLength (n : Nat) : Prop := 0 < n ∧ n < 2147483648

end EP.Gen
