import Verif.Model.WireFields

/-!
# The division in `CONSTEXPR_CEIL(… / 7.0f)` is the one of IEEE 754

`floatQuotient` (Model/WireFields.lean) is the single precision quotient of two small integers: a
number of 24 bits, nearest to the quotient, and the even one of two that are as near.  The byte
counts of `WireFormatter.h` need only a weaker fact (that the rounding does not reach an integer);
these theorems say that the model has the rounding itself.
-/

namespace EP

/-- No number with this exponent is nearer, and a tie goes to the even one. -/
theorem floatQuotient_nearest (a b : Nat) (hb : 0 < b) :
    let x := floatQuotient a b
    (2 * (x.mantissa * b) ≤ 2 * (a * 2 ^ x.scale) + b ∧ 2 * (a * 2 ^ x.scale) ≤ 2 * (x.mantissa * b) + b) ∧
    ((2 * (x.mantissa * b) = 2 * (a * 2 ^ x.scale) + b ∨ 2 * (a * 2 ^ x.scale) = 2 * (x.mantissa * b) + b) → x.mantissa % 2 = 0) := by
  dsimp only [floatQuotient]
  generalize a * 2 ^ (23 - Nat.log2 (a / b)) = n
  have h1 := Nat.div_add_mod n b
  have h2 := Nat.mod_lt n hb
  generalize n / b = q at *
  generalize n % b = r at *
  rw [Nat.mul_comm b q] at h1
  split
  · next h =>
    rw [Nat.add_mul, Nat.one_mul]
    generalize q * b = m at *
    omega
  · next h =>
    generalize q * b = m at *
    omega

/-- The quotient has 24 bits (or is the power of two above them, which is a single precision number
as well). -/
theorem floatQuotient_bits (a b : Nat) (hb : 0 < b) (h1 : b ≤ a) (h2 : a < 2 ^ 23 * b) :
    2 ^ 23 ≤ (floatQuotient a b).mantissa ∧ (floatQuotient a b).mantissa ≤ 2 ^ 24 := by
  have hq : a / b ≠ 0 := by
    intro h
    rcases Nat.div_eq_zero_iff.mp h with h | h <;> omega
  have l1 := Nat.log2_self_le hq
  have l2 := (Nat.lt_log2_self : a / b < _)
  have l3 : a / b < 2 ^ 23 := Nat.div_lt_of_lt_mul (by rwa [Nat.mul_comm])
  have hl : Nat.log2 (a / b) < 23 := (Nat.log2_lt hq).mpr l3
  generalize hk : Nat.log2 (a / b) = k at *
  have e : 2 ^ k * 2 ^ (23 - k) = 2 ^ 23 := by rw [← Nat.pow_add]; congr 1; omega
  have e' : 2 ^ (k + 1) * 2 ^ (23 - k) = 2 ^ 24 := by rw [← Nat.pow_add]; congr 1; omega
  have u1 : 2 ^ 23 ≤ a * 2 ^ (23 - k) / b := by
    rw [Nat.le_div_iff_mul_le hb, ← e, Nat.mul_right_comm]
    exact Nat.mul_le_mul_right _ ((Nat.le_div_iff_mul_le hb).mp l1)
  have u2 : a * 2 ^ (23 - k) / b < 2 ^ 24 := by
    rw [Nat.div_lt_iff_lt_mul hb, ← e', Nat.mul_right_comm]
    exact Nat.mul_lt_mul_of_pos_right ((Nat.div_lt_iff_lt_mul hb).mp l2) (Nat.two_pow_pos _)
  unfold floatQuotient
  rw [hk]
  dsimp only
  split <;> omega
/-- `32 / 7.0f` and `64 / 7.0f`, bit for bit: 4.5714287757873535 and 9.142857551574707. -/
example : floatQuotient 32 7 = ⟨9586981, 21⟩ ∧ floatQuotient 64 7 = ⟨9586981, 20⟩ :=
  ⟨rfl, rfl⟩

end EP
