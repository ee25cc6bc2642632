import Verif.Props.Encode

/-!
# For which types: C35
-/

namespace EP
open Spec

/-- **C35**, the types: no bytes are taken exactly by the default value, if and only if the type has no `-0.0`. -/
theorem C35_types (s : ScalarTy) :
    (∀ (num : Nat) (x : (oneScalar num s).Obj) (v : s.Val), 0 < num → num < 2 ^ 29 → (oneScalar num s).Reach x →
      (oneScalar num s).abs x = (((v, ()), ()) : (s.Val × Unit) × Unit) →
      ((oneScalar num s).cls.serializedSize x = .ok 0 ↔ v = s.zero)) ↔ s.negZero = none := by
  constructor
  · intro h
    cases hz : s.negZero with
    | none => rfl
    | some z =>
      have e := (h 1 (⟨[], (z, ()), ()⟩ : MsgObj (s.Val × Unit) Unit) z (by decide) (by decide) (oneScalar_reach s z) rfl).mp
        ((C35_implicit_presence_partial s 1 _ z (by decide) (by decide) (oneScalar_reach s z) rfl).mpr (Or.inr hz))
      subst e
      cases s <;> first | exact nomatch hz | exact absurd (Option.some.inj hz) (by decide)
  · intro hz num x v h0 hn hx hv
    rw [C35_implicit_presence_partial s num x v h0 hn hx hv, hz]
    exact ⟨fun h => h.elim id nofun, Or.inl⟩

/-- Integers, booleans and enums have no such value; floating point numbers do. -/
example : ScalarTy.negZero .int32 = none ∧ ScalarTy.negZero .boolean = none ∧ ScalarTy.negZero .enumeration = none ∧
    ScalarTy.negZero .floatfixed ≠ none ∧ ScalarTy.negZero .doublefixed ≠ none := ⟨rfl, rfl, rfl, nofun, nofun⟩

end EP
