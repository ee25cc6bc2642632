import Verif.Props.Compatible

/-!
# Which types a field may be changed to: C58
-/

namespace EP
open Spec

/-- The changes of type, among those that the language says are compatible, that the code handles for all values. -/
def ScalarTy.changesTo : ScalarTy → ScalarTy → Bool
  | .boolean, .boolean => true
  | _, .boolean => false
  | .int32, .int64 => false
  | .int32, .uint64 => false
  | .int64, .uint32 => false
  | .int64, .enumeration => false
  | .uint64, .uint32 => false
  | .uint64, .enumeration => false
  | .sint64, .sint32 => false
  | _, _ => true

/-- **C58**, exactly the pairs of types. -/
theorem C58_types (s t : ScalarTy) (hc : s.compatible t = true) (hf : s ≠ .floatfixed) (hd : s ≠ .doublefixed) :
    C58_Statement s t ↔ s.changesTo t = true := by
  have bad : ∀ (v : s.Val) (n : Int), s.number v = some n → ¬ s.survives t n → ¬ C58_Statement s t := fun v n hn hs h =>
    hs ((C58_compatible_iff s t hc hf hd v n hn).mp (h hc hf hd v n hn))
  have good : (∀ (v : s.Val) (n : Int), s.number v = some n → s.survives t n) → C58_Statement s t :=
    fun h _ _ _ v n hn => C58_compatible_partial s t hc hf hd v n hn (h v n hn)
  cases s <;> cases t <;>
    first
    | exact absurd hc (by decide)
    | exact absurd rfl hf
    | exact absurd rfl hd
    | exact ⟨fun _ => rfl, fun _ => good fun _ _ _ => trivial⟩
    | exact ⟨fun _ => rfl, fun _ => good fun v n hn => by
        have e : (if v then 1 else 0 : Int) = n := Option.some.inj hn
        show 0 ≤ n ∧ n < 128
        subst e
        cases v <;> decide⟩
    | exact ⟨fun h => absurd h (bad (BitVec.ofInt 32 (-1)) (-1) rfl (show ¬ (0 : Int) ≤ -1 by decide)), nofun⟩
    | exact ⟨fun h => absurd h (bad (BitVec.ofInt 64 (-1)) (-1) rfl (show ¬ ((0 : Int) ≤ -1 ∧ (-1 : Int) < 2 ^ 35) by decide)), nofun⟩
    | exact ⟨fun h => absurd h (bad (BitVec.ofNat 64 (2 ^ 35)) (2 ^ 35) rfl (show ¬ (2 ^ 35 : Int) < 2 ^ 35 by decide)), nofun⟩
    | exact ⟨fun h => absurd h (bad (BitVec.ofInt 64 (2 ^ 31)) (2 ^ 31) rfl
        (show ¬ ((0 : Int) ≤ 2 ^ 31 ↔ 0 ≤ (2 ^ 31 : Int).bmod (2 ^ 32)) by decide)), nofun⟩
    | exact ⟨fun h => absurd h (bad (BitVec.ofNat 32 128) 128 rfl (show ¬ ((0 : Int) ≤ 128 ∧ (128 : Int) < 128) by decide)), nofun⟩
    | exact ⟨fun h => absurd h (bad (BitVec.ofNat 64 128) 128 rfl (show ¬ ((0 : Int) ≤ 128 ∧ (128 : Int) < 128) by decide)), nofun⟩

/-- `uint32` may be changed to `uint64`, `uint64` not to `uint32`, `int32` not to `int64`. -/
example : C58_Statement .uint32 .uint64 ∧ ¬ C58_Statement .uint64 .uint32 ∧ ¬ C58_Statement .int32 .int64 :=
  ⟨(C58_types .uint32 .uint64 rfl nofun nofun).mpr rfl, fun h => Bool.noConfusion ((C58_types .uint64 .uint32 rfl nofun nofun).mp h),
    fun h => Bool.noConfusion ((C58_types .int32 .int64 rfl nofun nofun).mp h)⟩

end EP
