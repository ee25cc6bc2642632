import Verif.Model.Compare

/-!
# Comparison operators: lemmas
-/

namespace EP

/-! ## Integers -/

/-- The number a converted value stands for. -/
def CInt.num : CInt → BitVec 64 → Int
  | .int32, v => v.toInt
  | .int64, v => v.toInt
  | .uint32, v => v.toNat
  | .uint64, v => v.toNat

def CInt.isSigned : CInt → Bool
  | .int32 | .int64 => true
  | .uint32 | .uint64 => false

def CInt.InRange : CInt → BitVec 64 → Prop
  | .int32, v => -2147483648 ≤ v.toInt ∧ v.toInt < 2147483648
  | .uint32, v => v.toNat < 4294967296
  | _, _ => True

theorem CInt.compare_num (c : CInt) (op : CmpOp) (a b : BitVec 64) :
    c.compare op a b = op.holds (some (c.num a)) (some (c.num b)) := by
  have hi : (a = b) ↔ a.toInt = b.toInt := BitVec.toInt_inj.symm
  have hn : (a = b) ↔ a.toNat = b.toNat := BitVec.toNat_inj.symm
  cases c <;> cases op <;>
    simp only [CInt.compare, CmpOp.holds, CInt.num, BitVec.slt, BitVec.sle, BitVec.ult, BitVec.ule,
      Int.ofNat_lt, Int.ofNat_le, GT.gt, GE.ge] <;>
    first
      | rfl
      | (rw [Bool.eq_iff_iff]
         simp only [beq_iff_eq, Bool.not_eq_true', beq_eq_false_iff_ne, bne_iff_ne, ne_eq, Int.ofNat_inj]
         first
           | exact hi
           | exact hn
           | exact not_congr hi
           | exact not_congr hn)

theorem toInt_signExtend64 (v : BitVec 32) : (v.signExtend 64).toInt = v.toInt :=
  BitVec.toInt_signExtend_of_le (by decide)

theorem CInt.convert_num {c k : CInt} (x : BitVec 64) (hx : c.InRange x) (hk : ∃ d, k = c.common d ∨ k = d.common c)
    (hpos : k.isSigned = false → 0 ≤ c.num x) : k.num (k.convert x) = c.num x := by
  have ht : x.toNat < 2 ^ 64 := x.isLt
  have hI := BitVec.toInt_eq_toNat_cond x
  have key32 : ∀ y : BitVec 32, (y.setWidth 64).toNat = y.toNat := fun y => by
    rw [BitVec.toNat_setWidth]; exact Nat.mod_eq_of_lt (by have := y.isLt; omega)
  have keyT : (x.setWidth 32).toNat = x.toNat % 2 ^ 32 := BitVec.toNat_setWidth ..
  have keyI := BitVec.toInt_eq_toNat_cond (x.setWidth 32)
  have hpos : k.isSigned = true ∨ 0 ≤ c.num x := by
    cases h : k.isSigned
    · exact .inr (hpos h)
    · exact .inl rfl
  obtain ⟨d, hd⟩ := hk
  cases c <;> cases d <;> simp only [CInt.common, or_self] at hd <;> subst hd <;>
    simp only [CInt.num, CInt.convert, CInt.InRange, CInt.isSigned, Bool.false_eq_true, false_or, true_or] at * <;>
    first
      | rfl
      | (rw [toInt_signExtend64, keyI, keyT]; split at hI <;> split <;> omega)
      | (rw [key32, keyT]; split at hI <;> omega)
      | (split at hI <;> omega)

theorem ScalarTy.wide_num {s : ScalarTy} {c : CInt} (h : s.cInt = some c) (a : s.Val) :
    s.number a = some (c.num (s.wide a)) ∧ c.InRange (s.wide a) := by
  have key32 : ∀ y : BitVec 32, (y.setWidth 64).toNat = y.toNat := fun y => by
    rw [BitVec.toNat_setWidth]; exact Nat.mod_eq_of_lt (by have := y.isLt; omega)
  have s32 : ∀ y : BitVec 32, some y.toInt = some (CInt.int32.num (y.signExtend 64)) ∧ CInt.int32.InRange (y.signExtend 64) := by
    intro y
    have h1 := BitVec.toInt_eq_toNat_cond y
    have h2 := y.isLt
    refine ⟨congrArg some (toInt_signExtend64 y).symm, ?_⟩
    simp only [CInt.InRange, toInt_signExtend64]
    split at h1 <;> omega
  have u32 : ∀ y : BitVec 32, some (y.toNat : Int) = some (CInt.uint32.num (y.setWidth 64)) ∧ CInt.uint32.InRange (y.setWidth 64) := by
    intro y
    refine ⟨by simp only [CInt.num, key32], ?_⟩
    simp only [CInt.InRange, key32]
    exact y.isLt
  cases s <;> first | (injection h with h; subst h) | exact nomatch h
  case boolean => cases a <;> exact ⟨rfl, by unfold CInt.InRange; decide⟩
  case int32 => exact s32 a
  case sint32 => exact s32 a
  case sfixed32 => exact s32 a
  case uint32 => exact u32 a
  case fixed32 => exact u32 a
  all_goals exact ⟨rfl, trivial⟩

/-! ## Floating point -/

theorem ieeeMagnitude_zero (p : Nat) : ieeeMagnitude p 0 = 0 := by
  simp [ieeeMagnitude]

theorem ieeeMagnitude_succ (p n : Nat) : ieeeMagnitude p n < ieeeMagnitude p (n + 1) := by
  have hp : 0 < 2 ^ p := Nat.two_pow_pos p
  have hm : n % 2 ^ p < 2 ^ p := Nat.mod_lt _ hp
  have hdiv := Nat.div_add_mod n (2 ^ p)
  unfold ieeeMagnitude
  by_cases hl : n % 2 ^ p + 1 = 2 ^ p
  · -- the next exponent
    have e1 : n + 1 = 2 ^ p * (n / 2 ^ p + 1) := by rw [Nat.mul_add, Nat.mul_one]; omega
    have h1 : (n + 1) / 2 ^ p = n / 2 ^ p + 1 := by rw [e1]; exact Nat.mul_div_cancel_left _ hp
    have h2 : (n + 1) % 2 ^ p = 0 := by rw [e1]; exact Nat.mul_mod_right _ _
    rw [h1, h2]
    simp only [Nat.add_one_ne_zero, if_false, Nat.add_sub_cancel, Nat.add_zero]
    by_cases h0 : n / 2 ^ p = 0
    · simp only [h0, if_true, Nat.pow_zero, Nat.mul_one]; omega
    · simp only [h0, if_false]
      obtain ⟨k, hk⟩ := Nat.exists_eq_succ_of_ne_zero h0
      have hq : 0 < 2 ^ k := Nat.two_pow_pos k
      rw [hk, Nat.succ_sub_one, Nat.pow_succ]
      have : 2 ^ p * (2 ^ k * 2) = (2 ^ p + 2 ^ p) * 2 ^ k := by
        rw [Nat.add_mul, Nat.mul_comm (2 ^ k) 2, ← Nat.mul_assoc, Nat.mul_comm (2 ^ p) 2, Nat.mul_assoc]; omega
      rw [this]
      exact Nat.mul_lt_mul_of_pos_right (by omega) hq
  · have h1 : (n + 1) / 2 ^ p = n / 2 ^ p := by
      rw [Nat.succ_div_of_not_dvd]
      intro ⟨k, hk⟩
      have : (n + 1) % 2 ^ p = 0 := by rw [hk]; exact Nat.mul_mod_right _ _
      rw [Nat.add_mod] at this
      by_cases h1 : 2 ^ p = 1
      · omega
      · rw [Nat.mod_eq_of_lt (a := 1) (by omega), Nat.mod_eq_of_lt (by omega)] at this
        omega
    have h2 : (n + 1) % 2 ^ p = n % 2 ^ p + 1 := by
      have := Nat.div_add_mod (n + 1) (2 ^ p)
      rw [h1] at this; omega
    rw [h1, h2]
    split
    · omega
    · exact Nat.mul_lt_mul_of_pos_right (by omega) (Nat.two_pow_pos _)

theorem ieeeMagnitude_lt {p m n : Nat} (h : m < n) : ieeeMagnitude p m < ieeeMagnitude p n := by
  induction n with
  | zero => omega
  | succ n ih =>
    rcases Nat.lt_succ_iff_lt_or_eq.mp h with h | h
    · exact Nat.lt_trans (ih h) (ieeeMagnitude_succ p n)
    · exact h ▸ ieeeMagnitude_succ p m

theorem ieeeMagnitude_lt_iff {p m n : Nat} : ieeeMagnitude p m < ieeeMagnitude p n ↔ m < n := by
  refine ⟨fun h => ?_, ieeeMagnitude_lt⟩
  rcases Nat.lt_trichotomy m n with h' | h' | h'
  · exact h'
  · subst h'; omega
  · have := ieeeMagnitude_lt (p := p) h'; omega

theorem ieeeMagnitude_inj {p m n : Nat} : ieeeMagnitude p m = ieeeMagnitude p n ↔ m = n := by
  refine ⟨fun h => ?_, fun h => h ▸ rfl⟩
  rcases Nat.lt_trichotomy m n with h' | h' | h'
  · have := ieeeMagnitude_lt (p := p) h'; omega
  · exact h'
  · have := ieeeMagnitude_lt (p := p) h'; omega

def FBits.scale (p : Nat) : Nat := 2 ^ (if p = 23 then 925 else 0)

/-- The size of the number a magnitude stands for. -/
def realMag (p m : Nat) : Nat :=
  if m = FBits.inf p then 2 ^ 2098 else ieeeMagnitude p m * FBits.scale p

/-- The number the bits stand for. -/
def FBits.real (a : FBits) : Option Int :=
  if a.isNaN then none
  else if a.neg then some (-(realMag a.p a.mag : Int)) else some (realMag a.p a.mag)

theorem realMag_zero {p : Nat} : realMag p 0 = 0 := by
  have : (0 : Nat) ≠ FBits.inf p := by unfold FBits.inf; split <;> decide
  rw [realMag, if_neg this, ieeeMagnitude_zero, Nat.zero_mul]

theorem realMag_lt {p m n : Nat} (hp : p = 23 ∨ p = 52) (h : m < n) (hn : n ≤ FBits.inf p) : realMag p m < realMag p n := by
  have hinf : ieeeMagnitude p (FBits.inf p) * FBits.scale p ≤ 2 ^ 2098 := by
    rcases hp with rfl | rfl <;> decide +kernel
  have hm : ieeeMagnitude p m * FBits.scale p < ieeeMagnitude p n * FBits.scale p :=
    Nat.mul_lt_mul_of_pos_right (ieeeMagnitude_lt h) (Nat.two_pow_pos _)
  unfold realMag
  rw [if_neg (show m ≠ FBits.inf p by omega)]
  split
  · next e => rw [e] at hm; exact Nat.lt_of_lt_of_le hm hinf
  · exact hm

theorem realMag_lt_iff {p m n : Nat} (hp : p = 23 ∨ p = 52) (hm : m ≤ FBits.inf p) (hn : n ≤ FBits.inf p) :
    realMag p m < realMag p n ↔ m < n := by
  refine ⟨fun h => ?_, fun h => realMag_lt hp h hn⟩
  rcases Nat.lt_trichotomy m n with h' | h' | h'
  · exact h'
  · subst h'; omega
  · have := realMag_lt hp h' hm; omega

theorem realMag_inj {p m n : Nat} (hp : p = 23 ∨ p = 52) (hm : m ≤ FBits.inf p) (hn : n ≤ FBits.inf p) :
    realMag p m = realMag p n ↔ m = n := by
  refine ⟨fun h => ?_, fun h => h ▸ rfl⟩
  rcases Nat.lt_trichotomy m n with h' | h' | h'
  · have := realMag_lt hp h' hn; omega
  · exact h'
  · have := realMag_lt hp h' hm; omega

theorem FBits.compare_real (op : CmpOp) (a b : FBits) (hp : a.p = b.p) (h : a.p = 23 ∨ a.p = 52) :
    FBits.compare op a b = op.holds a.real b.real := by
  obtain ⟨p, na, ma⟩ := a
  obtain ⟨q, nb, mb⟩ := b
  dsimp only at hp h
  subst hp
  have z := realMag_zero (p := p)
  unfold FBits.real
  have none_l : ∀ x : Option Int, FBits.isNaN ⟨p, na, ma⟩ = true → FBits.compare op ⟨p, na, ma⟩ ⟨p, nb, mb⟩ = op.holds none x := by
    intro x hA
    cases op <;> simp [FBits.compare, FBits.eq, FBits.lt, hA, CmpOp.holds]
  have none_r : ∀ x : Option Int, FBits.isNaN ⟨p, nb, mb⟩ = true → FBits.compare op ⟨p, na, ma⟩ ⟨p, nb, mb⟩ = op.holds x none := by
    intro x hB
    cases op <;> cases x <;> simp [FBits.compare, FBits.eq, FBits.lt, hB, CmpOp.holds]
  cases hA : FBits.isNaN ⟨p, na, ma⟩
  case true => rw [if_pos rfl]; exact none_l _ hA
  cases hB : FBits.isNaN ⟨p, nb, mb⟩
  case true => rw [if_pos (c := true = true) rfl]; exact none_r _ hB
  have hma : ma ≤ FBits.inf p := by
    have : ¬ (FBits.inf p < ma) := of_decide_eq_false hA
    omega
  have hmb : mb ≤ FBits.inf p := by
    have : ¬ (FBits.inf p < mb) := of_decide_eq_false hB
    omega
  have l1 := realMag_lt_iff h hma hmb
  have l2 := realMag_lt_iff h hmb hma
  have l3 := realMag_inj h hma (Nat.zero_le _)
  have l4 := realMag_inj h hmb (Nat.zero_le _)
  have l5 := realMag_inj h hma hmb
  rw [z] at l3 l4
  cases na <;> cases nb <;> cases op <;>
    simp only [FBits.compare, FBits.eq, FBits.lt, hA, hB, CmpOp.holds, if_true, if_false, Bool.not_false, Bool.not_true,
      Bool.true_and, Bool.false_and, Bool.false_eq_true, Bool.or_false, Bool.false_or] <;>
    first
      | rfl
      | (rw [Bool.eq_iff_iff]
         simp only [Bool.or_eq_true, Bool.and_eq_true, Bool.not_eq_true', beq_iff_eq, bne_iff_ne, decide_eq_true_eq,
           Bool.or_eq_false_iff, Bool.and_eq_false_iff, beq_eq_false_iff_ne, reduceCtorEq,
           false_and, true_and, false_or, ne_eq, beq_self_eq_true, Bool.false_eq_true, not_false_eq_true, true_or, false_iff, gt_iff_lt]
         omega)

theorem FBits.float_real (v : BitVec 32) : (FBits.float v).real = ieeeReal 8 23 v.toNat := by
  have hv := v.isLt
  have e : (v.setWidth 31).toNat = v.toNat % 2 ^ 31 := BitVec.toNat_setWidth ..
  have hm : v.msb = decide (2 ^ 31 ≤ v.toNat) := BitVec.msb_eq_decide v
  unfold FBits.real FBits.isNaN FBits.float ieeeReal realMag FBits.scale
  simp only [e, hm, if_true, decide_eq_true_eq, FBits.inf]
  have a1 : (255 * 2 ^ 23 < v.toNat % 2 ^ 31) ↔
      (v.toNat % 2 ^ 31 / 2 ^ 23 = 2 ^ 8 - 1 ∧ v.toNat % 2 ^ 31 % 2 ^ 23 ≠ 0) := by omega
  have a2 : (2 ^ 31 ≤ v.toNat) ↔ ¬ (v.toNat / 2 ^ 31 = 0) := by omega
  simp only [Nat.reduceAdd, Nat.reduceSub]
  simp only [a1, a2, ite_not]
  by_cases hn : v.toNat % 2 ^ 31 / 2 ^ 23 = 2 ^ 8 - 1 ∧ v.toNat % 2 ^ 31 % 2 ^ 23 ≠ 0
  · rw [if_pos hn, if_pos hn]
  · rw [if_neg hn, if_neg hn]
    have a3 : (v.toNat % 2 ^ 31 = 255 * 2 ^ 23) ↔ (v.toNat % 2 ^ 31 / 2 ^ 23 = 2 ^ 8 - 1) := by omega
    simp only [a3]

theorem FBits.double_real (v : BitVec 64) : (FBits.double v).real = ieeeReal 11 52 v.toNat := by
  have hv := v.isLt
  have e : (v.setWidth 63).toNat = v.toNat % 2 ^ 63 := BitVec.toNat_setWidth ..
  have hm : v.msb = decide (2 ^ 63 ≤ v.toNat) := BitVec.msb_eq_decide v
  unfold FBits.real FBits.isNaN FBits.double ieeeReal realMag FBits.scale
  simp only [e, hm, if_false, decide_eq_true_eq, FBits.inf, Nat.reduceEqDiff]
  have a1 : (2047 * 2 ^ 52 < v.toNat % 2 ^ 63) ↔
      (v.toNat % 2 ^ 63 / 2 ^ 52 = 2 ^ 11 - 1 ∧ v.toNat % 2 ^ 63 % 2 ^ 52 ≠ 0) := by omega
  have a2 : (2 ^ 63 ≤ v.toNat) ↔ ¬ (v.toNat / 2 ^ 63 = 0) := by omega
  simp only [Nat.reduceAdd, Nat.reduceSub]
  simp only [a1, a2, ite_not]
  by_cases hn : v.toNat % 2 ^ 63 / 2 ^ 52 = 2 ^ 11 - 1 ∧ v.toNat % 2 ^ 63 % 2 ^ 52 ≠ 0
  · rw [if_pos hn, if_pos hn]
  · rw [if_neg hn, if_neg hn]
    have a3 : (v.toNat % 2 ^ 63 = 2047 * 2 ^ 52) ↔ (v.toNat % 2 ^ 63 / 2 ^ 52 = 2 ^ 11 - 1) := by omega
    simp only [a3]

/-! ## Conversions -/

/-- A magnitude from exponent and fraction. -/
theorem ieeeMagnitude_parts {p e f : Nat} (he : 0 < e) (hf : f < 2 ^ p) :
    ieeeMagnitude p (e * 2 ^ p + f) = (2 ^ p + f) * 2 ^ (e - 1) := by
  have hp := Nat.two_pow_pos p
  have h1 : (e * 2 ^ p + f) / 2 ^ p = e := by
    rw [Nat.mul_comm, Nat.mul_add_div hp, Nat.div_eq_of_lt hf, Nat.add_zero]
  have h2 : (e * 2 ^ p + f) % 2 ^ p = f := by
    rw [Nat.mul_comm, Nat.mul_add_mod, Nat.mod_eq_of_lt hf]
  unfold ieeeMagnitude
  rw [h1, h2, if_neg (by omega)]

/-- The rounded number is one of the two around it, and the number itself if that is possible. -/
theorem roundMag_spec (p n : Nat) (hb : 0 < FBits.bias p) : ∃ B, ieeeMagnitude p B ≤ n * 2 ^ (FBits.bias p + p - 1) ∧
    n * 2 ^ (FBits.bias p + p - 1) < ieeeMagnitude p (B + 1) ∧ B ≤ roundMag p n ∧ roundMag p n ≤ B + 1 ∧
    (n * 2 ^ (FBits.bias p + p - 1) = ieeeMagnitude p B → roundMag p n = B) ∧
    (n = 0 ∨ B + 1 ≤ (n.log2 + 1 + FBits.bias p) * 2 ^ p) ∧ (n.log2 ≤ p → n * 2 ^ (FBits.bias p + p - 1) = ieeeMagnitude p B) := by
  by_cases h0 : n = 0
  · subst h0
    refine ⟨0, ?_, ?_, ?_, ?_, ?_, .inl rfl, ?_⟩
    · rw [ieeeMagnitude_zero]; exact Nat.zero_le _
    · rw [Nat.zero_mul]; exact Nat.lt_of_le_of_lt (Nat.zero_le _) (ieeeMagnitude_succ p 0)
    · exact Nat.zero_le _
    · simp [roundMag]
    · simp [roundMag]
    · rw [Nat.zero_mul, ieeeMagnitude_zero]; exact fun _ => rfl
  · have hk1 : 2 ^ n.log2 ≤ n := Nat.log2_self_le h0
    have hk2 : n < 2 ^ (n.log2 + 1) := Nat.lt_log2_self
    generalize hk : n.log2 = k at *
    have hpp := Nat.two_pow_pos p
    have hkp := Nat.two_pow_pos k
    have hdm := Nat.div_add_mod (n * 2 ^ p) (2 ^ k)
    have hr : n * 2 ^ p % 2 ^ k < 2 ^ k := Nat.mod_lt _ hkp
    have hq1 : 2 ^ p ≤ n * 2 ^ p / 2 ^ k := by
      rw [Nat.le_div_iff_mul_le hkp, Nat.mul_comm]
      exact Nat.mul_le_mul_right _ hk1
    have hq2 : n * 2 ^ p / 2 ^ k < 2 * 2 ^ p := by
      rw [Nat.div_lt_iff_lt_mul hkp]
      have : n * 2 ^ p < 2 ^ (k + 1) * 2 ^ p := Nat.mul_lt_mul_of_pos_right hk2 hpp
      rw [Nat.pow_succ] at this
      calc _ < _ := this
        _ = _ := by rw [Nat.mul_comm (2 ^ k) 2, Nat.mul_assoc, Nat.mul_assoc, Nat.mul_comm (2 ^ k)]
    have hround : roundMag p n = (k + FBits.bias p) * 2 ^ p + (n * 2 ^ p / 2 ^ k - 2 ^ p) +
        (if 2 * (n * 2 ^ p % 2 ^ k) > 2 ^ k ∨ (2 * (n * 2 ^ p % 2 ^ k) = 2 ^ k ∧ n * 2 ^ p / 2 ^ k % 2 = 1) then 1 else 0) := by
      unfold roundMag
      rw [if_neg h0]
      simp only [hk]
    generalize hq : n * 2 ^ p / 2 ^ k = q at *
    generalize hrr : n * 2 ^ p % 2 ^ k = r at *
    generalize hbb : FBits.bias p = b at *
    have hB : ieeeMagnitude p ((k + b) * 2 ^ p + (q - 2 ^ p)) = q * 2 ^ (k + b - 1) := by
      rw [ieeeMagnitude_parts (by omega) (by omega)]
      congr 1
      omega
    have hB1 : ieeeMagnitude p ((k + b) * 2 ^ p + (q - 2 ^ p) + 1) = (q + 1) * 2 ^ (k + b - 1) := by
      by_cases hc : q + 1 = 2 * 2 ^ p
      · have e : (k + b) * 2 ^ p + (q - 2 ^ p) + 1 = (k + b + 1) * 2 ^ p + 0 := by
          rw [Nat.add_mul (k + b) 1, Nat.one_mul]; omega
        rw [e, ieeeMagnitude_parts (by omega) hpp, hc]
        have : k + b + 1 - 1 = (k + b - 1) + 1 := by omega
        rw [this, Nat.pow_succ, Nat.add_zero, Nat.mul_comm (2 ^ (k + b - 1)) 2, ← Nat.mul_assoc, Nat.mul_comm 2 (2 ^ p)]
      · rw [Nat.add_assoc, ieeeMagnitude_parts (by omega) (by omega)]
        congr 1
        omega
    have hn : n * 2 ^ (b + p - 1) = q * 2 ^ (k + b - 1) + r * 2 ^ (b - 1) := by
      have e1 : b + p - 1 = p + (b - 1) := by omega
      have e2 : k + b - 1 = k + (b - 1) := by omega
      rw [e1, e2, Nat.pow_add, ← Nat.mul_assoc, ← hdm, Nat.add_mul, Nat.pow_add, Nat.mul_comm (2 ^ k) q, Nat.mul_assoc]
    have hr2 : r * 2 ^ (b - 1) < 2 ^ (k + b - 1) := by
      have e2 : k + b - 1 = k + (b - 1) := by omega
      rw [e2, Nat.pow_add]
      exact Nat.mul_lt_mul_of_pos_right hr (Nat.two_pow_pos _)
    refine ⟨(k + b) * 2 ^ p + (q - 2 ^ p), ?_, ?_, ?_, ?_, ?_, .inr ?_, ?_⟩
    · rw [hB, hn]; exact Nat.le_add_right _ _
    · rw [hB1, hn, Nat.add_mul, Nat.one_mul]; exact Nat.add_lt_add_left hr2 _
    · rw [hround]; exact Nat.le_add_right _ _
    · rw [hround]; split <;> omega
    · intro h
      rw [hB, hn] at h
      have : r * 2 ^ (b - 1) = 0 := by omega
      have : r = 0 := by
        rcases Nat.mul_eq_zero.mp this with h | h
        · exact h
        · exact absurd h (Nat.ne_of_gt (Nat.two_pow_pos _))
      rw [hround, if_neg (by omega)]
      rfl
    · have : (k + 1 + b) * 2 ^ p = (k + b) * 2 ^ p + 2 ^ p := by
        rw [← Nat.succ_mul]; congr 1; omega
      omega
    · intro hkp'
      have : r = 0 := by
        rw [← hrr]
        refine Nat.mod_eq_zero_of_dvd ?_
        have : p = k + (p - k) := by omega
        rw [this, Nat.pow_add, ← Nat.mul_assoc, Nat.mul_comm n, Nat.mul_assoc]
        exact Nat.dvd_mul_right _ _
      rw [hB, hn, this, Nat.zero_mul, Nat.add_zero]

theorem FBits.bias_unit {p : Nat} (hp : p = 23 ∨ p = 52) (n : Nat) :
    n * 2 ^ (FBits.bias p + p - 1) * FBits.scale p = n * 2 ^ 1074 := by
  rcases hp with rfl | rfl
  · show n * 2 ^ 149 * 2 ^ 925 = _
    rw [Nat.mul_assoc, ← Nat.pow_add]
  · show n * 2 ^ 1074 * 2 ^ 0 = _
    rw [Nat.pow_zero, Nat.mul_one]

/-- A magnitude compared with a number and with the rounded number. -/
theorem round_between {p n : Nat} (hp : p = 23 ∨ p = 52) (hn : n < 2 ^ 64) :
    roundMag p n < FBits.inf p ∧ ∀ m ≤ FBits.inf p,
      (n * 2 ^ 1074 ≤ realMag p m → realMag p (roundMag p n) ≤ realMag p m) ∧
      (realMag p m ≤ n * 2 ^ 1074 → realMag p m ≤ realMag p (roundMag p n)) := by
  have hb : 0 < FBits.bias p := by unfold FBits.bias; split <;> omega
  obtain ⟨B, h1, h2, h3, h4, h5, h6, _⟩ := roundMag_spec p n hb
  have hlog : n = 0 ∨ n.log2 < 64 := by
    by_cases h0 : n = 0
    · exact .inl h0
    · exact .inr ((Nat.log2_lt h0).mpr hn)
  have hB1 : B + 1 < FBits.inf p := by
    rcases h6 with rfl | h6
    · have hB : B = 0 := by
        rw [Nat.zero_mul] at h1
        have h1 : ieeeMagnitude p B = 0 := Nat.le_zero.mp h1
        rw [← ieeeMagnitude_zero p] at h1
        exact ieeeMagnitude_inj.mp h1
      subst hB
      rcases hp with rfl | rfl <;> decide
    · have hl : n.log2 ≤ 63 := by
        rcases hlog with rfl | h
        · decide
        · omega
      have : (n.log2 + 1 + FBits.bias p) * 2 ^ p ≤ (63 + 1 + FBits.bias p) * 2 ^ p := Nat.mul_le_mul_right _ (by omega)
      have h7 : (63 + 1 + FBits.bias p) * 2 ^ p < FBits.inf p := by rcases hp with rfl | rfl <;> decide
      omega
  have fin : ∀ m, m < FBits.inf p → realMag p m = ieeeMagnitude p m * FBits.scale p := by
    intro m hm
    rw [realMag, if_neg (by omega)]
  have hsc : 0 < FBits.scale p := Nat.two_pow_pos _
  have u := FBits.bias_unit hp n
  have e1 : realMag p B ≤ n * 2 ^ 1074 := by
    rw [fin B (by omega), ← u]
    exact Nat.mul_le_mul_right _ h1
  have e2 : n * 2 ^ 1074 < realMag p (B + 1) := by
    rw [fin _ hB1, ← u]
    exact Nat.mul_lt_mul_of_pos_right h2 hsc
  have e3 : n * 2 ^ 1074 = realMag p B → roundMag p n = B := by
    intro h
    rw [fin B (by omega), ← u] at h
    exact h5 (Nat.eq_of_mul_eq_mul_right hsc h)
  refine ⟨by omega, fun m hm => ?_⟩
  generalize n * 2 ^ 1074 = N at *
  have mono : ∀ {x y}, x ≤ y → y ≤ FBits.inf p → realMag p x ≤ realMag p y := by
    intro x y hxy hy
    rcases Nat.lt_or_eq_of_le hxy with h | rfl
    · exact Nat.le_of_lt (realMag_lt hp h hy)
    · exact Nat.le_refl _
  constructor
  · intro h
    by_cases he : N = realMag p B
    · rw [e3 he, ← he]; exact h
    · have : B < m := (realMag_lt_iff hp (by omega) hm).mp (by omega)
      exact mono (by omega) hm
  · intro h
    have : m < B + 1 := (realMag_lt_iff hp hm (by omega)).mp (by omega)
    exact mono (by omega) (by omega)

/-- Small numbers are exact. -/
theorem round_exact {p n : Nat} (hp : p = 23 ∨ p = 52) (hn : n < 2 ^ 64) (h : n.log2 ≤ p) :
    realMag p (roundMag p n) = n * 2 ^ 1074 := by
  have hb : 0 < FBits.bias p := by unfold FBits.bias; split <;> omega
  obtain ⟨B, _, _, _, _, h5, _, h7⟩ := roundMag_spec p n hb
  rw [realMag, if_neg (by have := (round_between hp hn).1; omega), ← FBits.bias_unit hp n, h5 (h7 h), h7 h]

/-- An integer as floating point number: the number it stands for is on the same side of every number of the type. -/
theorem FBits.ofInt_real {p : Nat} (hp : p = 23 ∨ p = 52) {n : Int} (hn : n.natAbs < 2 ^ 64) :
    ∃ z, FBits.real ⟨p, decide (n < 0), roundMag p n.natAbs⟩ = some z ∧
      (∀ (b : FBits) y, b.p = p → b.real = some y → (n * 2 ^ 1074 ≤ y → z ≤ y) ∧ (y ≤ n * 2 ^ 1074 → y ≤ z)) ∧
      (n.natAbs.log2 ≤ p → z = n * 2 ^ 1074) := by
  obtain ⟨hfin, hbet⟩ := round_between hp hn
  have hex := round_exact hp hn
  have hnan : FBits.isNaN ⟨p, decide (n < 0), roundMag p n.natAbs⟩ = false := by
    unfold FBits.isNaN
    simp only [decide_eq_false_iff_not]
    omega
  have hz0 : n.natAbs = 0 → realMag p (roundMag p n.natAbs) = 0 := by
    intro h
    rw [h, show roundMag p 0 = 0 from rfl, realMag_zero]
  unfold FBits.real
  simp only [hnan, Bool.false_eq_true, if_false, decide_eq_true_eq]
  have hU : (0 : Int) < 2 ^ 1074 := Int.pow_pos (by decide)
  have hcast : ((n.natAbs * 2 ^ 1074 : Nat) : Int) = (n.natAbs : Int) * 2 ^ 1074 := by
    rw [Int.natCast_mul, Int.natCast_pow]; rfl
  refine ⟨if n < 0 then -(realMag p (roundMag p n.natAbs) : Int) else realMag p (roundMag p n.natAbs), ?_, ?_, ?_⟩
  · split <;> rfl
  · intro b y hbp hby
    have hb : b.isNaN = false := by
      cases h : b.isNaN with
      | false => rfl
      | true => rw [if_pos h] at hby; exact nomatch hby
    have hbm : b.mag ≤ FBits.inf p := by
      unfold FBits.isNaN at hb
      simp only [decide_eq_false_iff_not, hbp] at hb
      omega
    rw [hb, hbp] at hby
    simp only [Bool.false_eq_true, if_false] at hby
    obtain ⟨w1, w2⟩ := hbet b.mag hbm
    generalize hR : realMag p (roundMag p n.natAbs) = R at *
    generalize hM : realMag p b.mag = M at *
    by_cases h0 : n < 0
    · have hn' : n * 2 ^ 1074 = -((n.natAbs * 2 ^ 1074 : Nat) : Int) := by
        have e : -(n.natAbs : Int) = n := by omega
        rw [hcast, ← Int.neg_mul, e]
      have hpos : 0 < n.natAbs * 2 ^ 1074 := Nat.mul_pos (by omega) (Nat.two_pow_pos _)
      rw [hn', if_pos h0]
      generalize n.natAbs * 2 ^ 1074 = N at *
      split at hby
      · injection hby with hby
        subst hby
        constructor
        · intro h; have := w2 (by omega); omega
        · intro h; have := w1 (by omega); omega
      · injection hby with hby
        subst hby
        constructor
        · intro _; omega
        · intro h; omega
    · have hn' : n * 2 ^ 1074 = ((n.natAbs * 2 ^ 1074 : Nat) : Int) := by
        have e : (n.natAbs : Int) = n := by omega
        rw [hcast, e]
      rw [hn', if_neg h0]
      have hz : n.natAbs * 2 ^ 1074 = 0 → R = 0 := by
        intro h
        rcases Nat.mul_eq_zero.mp h with h | h
        · exact hz0 h
        · exact absurd h (Nat.ne_of_gt (Nat.two_pow_pos _))
      generalize n.natAbs * 2 ^ 1074 = N at *
      split at hby
      · injection hby with hby
        subst hby
        constructor
        · intro h
          have : N = 0 := by omega
          have := hz this
          omega
        · intro _; omega
      · injection hby with hby
        subst hby
        constructor
        · intro h; have := w1 (by omega); omega
        · intro h; have := w2 (by omega); omega
  · intro h
    have := hex h
    split
    · next h0 =>
      have e : -(n.natAbs : Int) = n := by omega
      rw [this, hcast, ← Int.neg_mul, e]
    · have e : (n.natAbs : Int) = n := by omega
      rw [this, hcast, e]

theorem CInt.toFBits_eq (p : Nat) (c : CInt) (x : BitVec 64) :
    c.toFBits p x = ⟨p, decide (c.num x < 0), roundMag p (c.num x).natAbs⟩ := by
  have hs : x.msb = decide (x.toInt < 0) := BitVec.msb_eq_toInt
  have hu : ((x.toNat : Int) < 0) = False := eq_false (by omega)
  cases c <;> simp only [CInt.toFBits, CInt.num, hs, hu, decide_false, Int.natAbs_natCast, FBits.mk.injEq, true_and, and_true] <;>
    exact decide_eq_decide.mpr Iff.rfl

theorem CInt.num_lt (c : CInt) (x : BitVec 64) : (c.num x).natAbs < 2 ^ 64 := by
  have h := x.isLt
  have hI := BitVec.toInt_eq_toNat_cond x
  cases c <;> simp only [CInt.num] <;> first | (split at hI <;> omega) | omega

theorem float_arith {e f : Nat} (hf : f < 2 ^ 23) (he : e < 255) :
    f * 2 ^ 29 < 2 ^ 52 ∧ 2 ^ 52 + f * 2 ^ 29 = (2 ^ 23 + f) * 2 ^ 29 ∧ (e + 896) * 2 ^ 52 + f * 2 ^ 29 < 2047 * 2 ^ 52 := by omega

theorem float_arith' {k g : Nat} (hk : k < 23) (s1 : 2 ^ 52 ≤ g) (s2 : g < 2 ^ 53) :
    g - 2 ^ 52 < 2 ^ 52 ∧ 2 ^ 52 + (g - 2 ^ 52) = g ∧ (k + 874) * 2 ^ 52 + (g - 2 ^ 52) < 2047 * 2 ^ 52 := by omega

/-- A `float` is the same number as `double`. -/
theorem FBits.toDouble_real (a : FBits) (hp : a.p = 23) (hm : a.mag < 2 ^ 31) : a.toDouble.real = a.real := by
  obtain ⟨p, neg, mag⟩ := a
  dsimp only at hp hm
  subst hp
  have hf : mag % 2 ^ 23 < 2 ^ 23 := Nat.mod_lt _ (by decide)
  have he : mag / 2 ^ 23 < 256 := by omega
  have hdm := Nat.div_add_mod mag (2 ^ 23)
  unfold FBits.toDouble FBits.real FBits.isNaN
  have i23 : FBits.inf 23 = 255 * 2 ^ 23 := rfl
  have i52 : FBits.inf 52 = 2047 * 2 ^ 52 := rfl
  simp only [i23, i52]
  have hmag : mag = mag / 2 ^ 23 * 2 ^ 23 + mag % 2 ^ 23 := by omega
  generalize mag / 2 ^ 23 = e at *
  generalize mag % 2 ^ 23 = f at *
  subst hmag
  by_cases h255 : e = 255
  · subst h255
    by_cases hf0 : f = 0
    · subst hf0
      simp only [if_true, Nat.zero_mul, Nat.add_zero]
      rfl
    · rw [if_pos rfl, if_pos (by simp only [decide_eq_true_eq]; omega), if_pos (by simp only [decide_eq_true_eq]; omega)]
  · rw [if_neg h255]
    have key : ∀ M : Nat, M < 2047 * 2 ^ 52 → ieeeMagnitude 52 M = ieeeMagnitude 23 (e * 2 ^ 23 + f) * 2 ^ 925 →
        (if decide (2047 * 2 ^ 52 < M) = true then none else if neg = true then some (-(realMag 52 M : Int)) else some (realMag 52 M : Int)) =
        (if decide (255 * 2 ^ 23 < e * 2 ^ 23 + f) = true then none else if neg = true then some (-(realMag 23 (e * 2 ^ 23 + f) : Int)) else
          some (realMag 23 (e * 2 ^ 23 + f) : Int)) := by
      intro M h1 h2
      have h3 : realMag 52 M = realMag 23 (e * 2 ^ 23 + f) := by
        rw [realMag, realMag, if_neg (by rw [i52]; omega), if_neg (by rw [i23]; omega), h2]
        exact Nat.mul_one _
      have n1 : ¬ decide (2047 * 2 ^ 52 < M) = true := by rw [decide_eq_true_eq]; omega
      have n2 : ¬ decide (255 * 2 ^ 23 < e * 2 ^ 23 + f) = true := by rw [decide_eq_true_eq]; omega
      rw [if_neg n1, if_neg n2, h3]
    by_cases he0 : e = 0
    · subst he0
      rw [if_neg (show ¬ (0 : Nat) ≠ 0 from fun h => h rfl)]
      have hsub : ieeeMagnitude 23 (0 * 2 ^ 23 + f) = f := by
        unfold ieeeMagnitude
        rw [Nat.zero_mul, Nat.zero_add, if_pos (Nat.div_eq_of_lt hf), Nat.mod_eq_of_lt hf]
      rw [hsub] at key
      by_cases hf0 : f = 0
      · subst hf0
        rw [if_pos rfl]
        exact key 0 (by decide) (by rw [ieeeMagnitude_zero, Nat.zero_mul])
      · rw [if_neg hf0]
        have hl : f.log2 < 23 := (Nat.log2_lt hf0).mpr hf
        have hl1 : 2 ^ f.log2 ≤ f := Nat.log2_self_le hf0
        have hl2 : f < 2 ^ (f.log2 + 1) := Nat.lt_log2_self
        generalize f.log2 = k at *
        have s1 : 2 ^ 52 ≤ f * 2 ^ (52 - k) := by
          have : 2 ^ k * 2 ^ (52 - k) ≤ f * 2 ^ (52 - k) := Nat.mul_le_mul_right _ hl1
          rwa [← Nat.pow_add, show k + (52 - k) = 52 by omega] at this
        have s2 : f * 2 ^ (52 - k) < 2 ^ 53 := by
          have : f * 2 ^ (52 - k) < 2 ^ (k + 1) * 2 ^ (52 - k) := Nat.mul_lt_mul_of_pos_right hl2 (Nat.two_pow_pos _)
          rwa [← Nat.pow_add, show k + 1 + (52 - k) = 53 by omega] at this
        obtain ⟨g1, g2, g3⟩ := float_arith' hl s1 s2
        refine key _ g3 ?_
        rw [ieeeMagnitude_parts (Nat.succ_pos _) g1, g2, Nat.mul_assoc, ← Nat.pow_add, show 52 - k + (k + 874 - 1) = 925 by omega]
    · rw [if_pos he0]
      obtain ⟨g1, g2, g3⟩ := float_arith (e := e) hf (by omega)
      refine key _ g3 ?_
      have h3 : 29 + (e + 896 - 1) = e - 1 + 925 := by omega
      rw [ieeeMagnitude_parts (Nat.succ_pos _) g1, ieeeMagnitude_parts (Nat.pos_of_ne_zero he0) hf, g2, Nat.mul_assoc,
        Nat.mul_assoc, ← Nat.pow_add, ← Nat.pow_add, h3]

theorem FBits.exists_float (neg : Bool) {m : Nat} (hm : m < 2 ^ 31) : ∃ v, FBits.float v = ⟨23, neg, m⟩ := by
  refine ⟨BitVec.ofNat 32 (m + if neg then 2 ^ 31 else 0), ?_⟩
  unfold FBits.float
  rw [BitVec.msb_eq_decide, BitVec.toNat_setWidth, BitVec.toNat_ofNat]
  congr 1
  · cases neg
    · exact decide_eq_false (by simp only [Bool.false_eq_true, if_false]; omega)
    · exact decide_eq_true (by simp only [if_true]; omega)
  · cases neg
    · simp only [Bool.false_eq_true, if_false]; omega
    · simp only [if_true]; omega

theorem FBits.exists_double (neg : Bool) {m : Nat} (hm : m < 2 ^ 63) : ∃ v, FBits.double v = ⟨52, neg, m⟩ := by
  refine ⟨BitVec.ofNat 64 (m + if neg then 2 ^ 63 else 0), ?_⟩
  unfold FBits.double
  rw [BitVec.msb_eq_decide, BitVec.toNat_setWidth, BitVec.toNat_ofNat]
  congr 1
  · cases neg
    · exact decide_eq_false (by simp only [Bool.false_eq_true, if_false]; omega)
    · exact decide_eq_true (by simp only [if_true]; omega)
  · cases neg
    · simp only [Bool.false_eq_true, if_false]; omega
    · simp only [if_true]; omega

theorem ScalarTy.wide_real {s : ScalarTy} {c : CInt} (h : s.cInt = some c) (a : s.Val) :
    s.real a = some (c.num (s.wide a) * 2 ^ 1074) := by
  have := (ScalarTy.wide_num h a).1
  cases s <;> first | exact congrArg (Option.map (· * 2 ^ 1074)) this | exact nomatch h

theorem float_wide (v : BitVec 32) : (v.setWidth 64).setWidth 32 = v :=
  (BitVec.setWidth_setWidth_of_le v (by decide)).trans (BitVec.setWidth_eq v)

/-- May an integer of the type be no number of the other type? -/
def ScalarTy.losesDigits (s t : ScalarTy) : Bool :=
  match s.cInt, t with
  | some _, .floatfixed => s != .boolean
  | some .int64, .doublefixed => true
  | some .uint64, .doublefixed => true
  | _, _ => false

theorem exact_log {s : ScalarTy} {c : CInt} (h : s.cInt = some c) (a : s.Val) :
    (s.losesDigits .floatfixed = false → (c.num (s.wide a)).natAbs.log2 ≤ 23) ∧
    (s.losesDigits .doublefixed = false → (c.num (s.wide a)).natAbs.log2 ≤ 52) := by
  have hr := (ScalarTy.wide_num h a).2
  constructor
  · intro hl
    have hb : s = .boolean := by
      unfold ScalarTy.losesDigits at hl
      rw [h] at hl
      simpa using hl
    subst hb
    injection h with h
    subst h
    cases a <;> decide
  · intro hl
    have small : (c.num (s.wide a)).natAbs < 2 ^ 33 := by
      unfold ScalarTy.losesDigits at hl
      rw [h] at hl
      cases c
      · simp only [CInt.InRange, CInt.num] at *; omega
      · simp only [CInt.InRange, CInt.num] at *; omega
      · exact nomatch hl
      · exact nomatch hl
    by_cases h0 : (c.num (s.wide a)).natAbs = 0
    · rw [h0]; decide
    · have := (Nat.log2_lt h0).mpr small
      omega

/-- An integer compared with a floating point number: it is rounded to a number of that type, which is on the same side of
every number of the type. -/
theorem ScalarTy.mixed {s t : ScalarTy} {c : CInt} (hs : s.cInt = some c) (ht : t = .floatfixed ∨ t = .doublefixed) (a : s.Val) :
    ∃ z n, s.real a = some n ∧
      (∀ op b, ScalarTy.compare op s t a b = op.holds (some z) (t.real b) ∧
        ScalarTy.compare op t s b a = op.holds (t.real b) (some z)) ∧
      (∃ v, t.real v = some z) ∧ (∀ b y, t.real b = some y → (n ≤ y → z ≤ y) ∧ (y ≤ n → y ≤ z)) ∧
      (s.losesDigits t = false → z = n) := by
  have hn := CInt.num_lt c (s.wide a)
  obtain ⟨x1, x2⟩ := exact_log hs a
  have hreal := ScalarTy.wide_real hs a
  rcases ht with rfl | rfl
  · obtain ⟨z, hz, hb, he⟩ := FBits.ofInt_real (p := 23) (.inl rfl) hn
    refine ⟨z, _, hreal, ?_, ?_, ?_, fun h => he (x1 h)⟩
    · intro op b
      have e1 : ScalarTy.compare op s .floatfixed a b =
          FBits.compare op (c.toFBits 23 (s.wide a)) (.float ((BitVec.setWidth 64 (w := 32) b).setWidth 32)) := by
        unfold ScalarTy.compare
        simp only [hs]
        rfl
      have e2 : ScalarTy.compare op .floatfixed s b a =
          FBits.compare op (.float ((BitVec.setWidth 64 (w := 32) b).setWidth 32)) (c.toFBits 23 (s.wide a)) := by
        unfold ScalarTy.compare
        simp only [hs]
        rfl
      rw [e1, e2, FBits.compare_real op _ _ (by rw [CInt.toFBits_eq]; rfl) (by rw [CInt.toFBits_eq]; exact .inl rfl),
        FBits.compare_real op _ _ (by rw [CInt.toFBits_eq]; rfl) (.inl rfl), FBits.float_real, float_wide, CInt.toFBits_eq, hz]
      exact ⟨rfl, rfl⟩
    · obtain ⟨v, hv⟩ := FBits.exists_float (decide (c.num (s.wide a) < 0)) (m := roundMag 23 (c.num (s.wide a)).natAbs)
        (Nat.lt_trans (round_between (.inl rfl) hn).1 (by decide))
      exact ⟨v, (FBits.float_real v).symm.trans (hv ▸ hz)⟩
    · intro b y hy
      exact hb (.float b) y rfl ((FBits.float_real b).trans hy)
  · obtain ⟨z, hz, hb, he⟩ := FBits.ofInt_real (p := 52) (.inr rfl) hn
    refine ⟨z, _, hreal, ?_, ?_, ?_, fun h => he (x2 h)⟩
    · intro op b
      have e1 : ScalarTy.compare op s .doublefixed a b = FBits.compare op (c.toFBits 52 (s.wide a)) (.double b) := by
        unfold ScalarTy.compare
        simp only [hs]
        rfl
      have e2 : ScalarTy.compare op .doublefixed s b a = FBits.compare op (.double b) (c.toFBits 52 (s.wide a)) := by
        unfold ScalarTy.compare
        simp only [hs]
        rfl
      rw [e1, e2, FBits.compare_real op _ _ (by rw [CInt.toFBits_eq]; rfl) (by rw [CInt.toFBits_eq]; exact .inr rfl),
        FBits.compare_real op _ _ (by rw [CInt.toFBits_eq]; rfl) (.inr rfl), FBits.double_real, CInt.toFBits_eq, hz]
      exact ⟨rfl, rfl⟩
    · obtain ⟨v, hv⟩ := FBits.exists_double (decide (c.num (s.wide a) < 0)) (m := roundMag 52 (c.num (s.wide a)).natAbs)
        (Nat.lt_trans (round_between (.inr rfl) hn).1 (by decide))
      exact ⟨v, (FBits.double_real v).symm.trans (hv ▸ hz)⟩
    · intro b y hy
      exact hb (.double b) y rfl ((FBits.double_real b).trans hy)

/-- Two floating point numbers. -/
theorem ScalarTy.floats (op : CmpOp) {s t : ScalarTy} (hs : s = .floatfixed ∨ s = .doublefixed)
    (ht : t = .floatfixed ∨ t = .doublefixed) (a : s.Val) (b : t.Val) :
    ScalarTy.compare op s t a b = op.holds (s.real a) (t.real b) := by
  have hd : ∀ v : BitVec 32, (FBits.float v).toDouble.real = ieeeReal 8 23 v.toNat := fun v => by
    rw [FBits.toDouble_real _ rfl (by
      show (v.setWidth 31).toNat < _
      exact (v.setWidth 31).isLt), FBits.float_real]
  rcases hs with rfl | rfl <;> rcases ht with rfl | rfl
  · refine (FBits.compare_real op (.float ((BitVec.setWidth 64 (w := 32) a).setWidth 32))
      (.float ((BitVec.setWidth 64 (w := 32) b).setWidth 32)) rfl (.inl rfl)).trans ?_
    rw [FBits.float_real, FBits.float_real, float_wide, float_wide]
    rfl
  · refine (FBits.compare_real op (FBits.float ((BitVec.setWidth 64 (w := 32) a).setWidth 32)).toDouble (.double b) rfl (.inr rfl)).trans ?_
    rw [hd, FBits.double_real, float_wide]
    rfl
  · refine (FBits.compare_real op (.double a) (FBits.float ((BitVec.setWidth 64 (w := 32) b).setWidth 32)).toDouble rfl (.inr rfl)).trans ?_
    rw [hd, FBits.double_real, float_wide]
    rfl
  · refine (FBits.compare_real op (.double a) (.double b) rfl (.inr rfl)).trans ?_
    rw [FBits.double_real, FBits.double_real]
    rfl

/-- The unit does not matter. -/
theorem CmpOp.holds_unit (op : CmpOp) (a b : Int) :
    op.holds (some (a * 2 ^ 1074)) (some (b * 2 ^ 1074)) = op.holds (some a) (some b) := by
  have hU : (0 : Int) < 2 ^ 1074 := Int.pow_pos (by decide)
  generalize (2 ^ 1074 : Int) = U at *
  have h1 : ∀ a b : Int, a * U < b * U ↔ a < b := fun a b => ⟨fun h => Int.lt_of_mul_lt_mul_right h (Int.le_of_lt hU),
    fun h => Int.mul_lt_mul_of_pos_right h hU⟩
  have h2 : ∀ a b : Int, a * U ≤ b * U ↔ a ≤ b := fun a b => by
    rw [← Int.not_lt, h1, Int.not_lt]
  have h3 : a * U = b * U ↔ a = b := by
    constructor
    · intro h
      have := (h2 a b).mp (Int.le_of_eq h)
      have := (h2 b a).mp (Int.le_of_eq h.symm)
      omega
    · exact fun h => h ▸ rfl
  cases op <;> simp only [CmpOp.holds, gt_iff_lt, ge_iff_le, h1, h2] <;>
    (rw [Bool.eq_iff_iff]; simp only [beq_iff_eq, bne_iff_ne, ne_eq, h3])

end EP
