import Verif.Spec.Stream

/-!
# Messages with groups

Groups are an obsolete way to nest: a start tag, records, and an end tag with the same number.  A decoder that does not know
the number should skip all of it.
-/

namespace EP
open Spec

/-- `bs` are records and tags that start or end a group with an unknown number, in any order; `flat` is what is left without
these tags.  The records of `flat` turn `u` into `v`. -/
inductive Grouped {V : Type} (known : List Nat) (Step : List Byte → V → V → Prop) :
    (bs flat : List Byte) → V → V → Prop where
  | nil (v : V) : Grouped known Step [] [] v v
  | record {r bs flat : List Byte} {u v w : V} :
      Step r u v → Grouped known Step bs flat v w → Grouped known Step (r ++ bs) (r ++ flat) u w
  | tag {tg bs flat : List Byte} {num : Nat} {wt : WireType} {u w : V} :
      0 < num → num ∉ known → wt = .startGroup ∨ wt = .endGroup → Varint 32 tg (8 * num + wireNumber wt) →
      Grouped known Step bs flat u w → Grouped known Step (tg ++ bs) flat u w

/-- What follows the start tag of a group with number `num`, up to and including its end tag, when none of the numbers in it
is known. -/
inductive UnknownGroup (known : List Nat) : Nat → List Byte → Prop where
  | stop {num : Nat} {tg : List Byte} : Varint 32 tg (8 * num + 4) → UnknownGroup known num tg
  | field {num k : Nat} {wt : WireType} {tg p rest : List Byte} :
      0 < k → k ∉ known → Varint 32 tg (8 * k + wireNumber wt) → UnknownPayload wt p → UnknownGroup known num rest →
      UnknownGroup known num (tg ++ (p ++ rest))
  | group {num k : Nat} {tg p rest : List Byte} :
      0 < k → k ∉ known → Varint 32 tg (8 * k + 3) → UnknownGroup known k p → UnknownGroup known num rest →
      UnknownGroup known num (tg ++ (p ++ rest))

end EP
