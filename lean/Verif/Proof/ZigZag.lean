import Verif.Model.WireFormatter
import Verif.Spec.Wire

/-! # ZigZag -/

namespace EP
open Spec

theorem zigZagEncode_toNat {w : Nat} (hw : 0 < w) (n : BitVec w) :
    (zigZagEncode n).toNat =
      if n.toNat < 2 ^ (w - 1) then 2 * n.toNat else 2 ^ w - 1 - (2 * n.toNat - 2 ^ w) := by
  have hp : 2 ^ w = 2 * 2 ^ (w - 1) := by
    rw [← Nat.pow_succ']; congr 1; omega
  have hn := n.isLt
  have hsl : (n <<< 1).toNat = 2 * n.toNat % 2 ^ w := by
    simp [Nat.shiftLeft_eq, Nat.mul_comm]
  by_cases hm : n.toNat < 2 ^ (w - 1)
  · have hmsb : n.msb = false := by
      rw [BitVec.msb_eq_decide]; simpa using hm
    rw [zigZagEncode, BitVec.sshiftRight_eq_of_msb_false hmsb]
    have h0 : n >>> (w - 1) = 0#w := by
      apply BitVec.eq_of_toNat_eq
      simp [Nat.shiftRight_eq_div_pow, Nat.div_eq_of_lt hm]
    rw [h0, BitVec.xor_zero, hsl, if_pos hm, Nat.mod_eq_of_lt (by omega)]
  · have hmsb : n.msb = true := by
      rw [BitVec.msb_eq_decide]; simp; omega
    rw [zigZagEncode, BitVec.sshiftRight_eq_of_msb_true hmsb]
    have h0 : (~~~n) >>> (w - 1) = 0#w := by
      apply BitVec.eq_of_toNat_eq
      rw [BitVec.toNat_ushiftRight, BitVec.toNat_not, Nat.shiftRight_eq_div_pow,
        Nat.div_eq_of_lt (by omega)]
      simp
    rw [h0, BitVec.not_zero, BitVec.xor_allOnes, BitVec.toNat_not, hsl, if_neg hm]
    congr 1
    rw [Nat.mod_eq_sub_mod (by omega), Nat.mod_eq_of_lt (by omega)]

theorem zigZagDecode_toNat {w : Nat} (hw : 1 < w) (n : BitVec w) :
    (zigZagDecode n).toNat =
      if n.toNat % 2 = 0 then n.toNat / 2 else 2 ^ w - 1 - n.toNat / 2 := by
  have hn := n.isLt
  have h2 : 1 < 2 ^ w := Nat.one_lt_two_pow (by omega)
  have hand : (n &&& 1).toNat = n.toNat % 2 := by
    rw [BitVec.toNat_and]
    have : (1 : BitVec w).toNat = 1 := by simp [Nat.mod_eq_of_lt h2]
    rw [this, Nat.and_one_is_mod]
  have hsr : (n >>> 1).toNat = n.toNat / 2 := by
    simp [Nat.shiftRight_eq_div_pow]
  by_cases he : n.toNat % 2 = 0
  · have h0 : n &&& 1 = 0#w := by
      apply BitVec.eq_of_toNat_eq; rw [hand, he]; simp
    have h1 : ~~~(0#w) + 1 = 0#w := by
      apply BitVec.eq_of_toNat_eq
      simp [BitVec.toNat_add, Nat.mod_eq_of_lt h2, show 2 ^ w - 1 + 1 = 2 ^ w by omega]
    rw [zigZagDecode, h0, h1, BitVec.xor_zero, hsr, if_pos he]
  · have h0 : n &&& 1 = 1#w := by
      apply BitVec.eq_of_toNat_eq; rw [hand]; simp [Nat.mod_eq_of_lt h2]; omega
    have h1 : ~~~(1#w) + 1 = BitVec.allOnes w := by
      apply BitVec.eq_of_toNat_eq
      simp [BitVec.toNat_add, Nat.mod_eq_of_lt h2]
      rw [show 2 ^ w - 1 - 1 + 1 = 2 ^ w - 1 by omega, Nat.mod_eq_of_lt (by omega)]
    rw [zigZagDecode, h0, h1, BitVec.xor_allOnes, BitVec.toNat_not, hsr, if_neg he]

theorem zigZag_decode_encode {w : Nat} (hw : 1 < w) (n : BitVec w) :
    zigZagDecode (zigZagEncode n) = n := by
  have hp : 2 ^ w = 2 * 2 ^ (w - 1) := by
    rw [← Nat.pow_succ']; congr 1; omega
  have hn := n.isLt
  apply BitVec.eq_of_toNat_eq
  rw [zigZagDecode_toNat hw, zigZagEncode_toNat (by omega)]
  split <;> split <;> omega

theorem zigZag_encode_decode {w : Nat} (hw : 1 < w) (n : BitVec w) :
    zigZagEncode (zigZagDecode n) = n := by
  have hp : 2 ^ w = 2 * 2 ^ (w - 1) := by
    rw [← Nat.pow_succ']; congr 1; omega
  have hn := n.isLt
  apply BitVec.eq_of_toNat_eq
  rw [zigZagEncode_toNat (by omega), zigZagDecode_toNat hw]
  split <;> split <;> omega

theorem zigZagEncode_spec {w : Nat} (hw : 0 < w) (n : BitVec w) :
    (zigZagEncode n).toNat = zigzag n.toInt := by
  have hp : 2 ^ w = 2 * 2 ^ (w - 1) := by
    rw [← Nat.pow_succ']; congr 1; omega
  have hn := n.isLt
  rw [zigZagEncode_toNat hw, zigzag, BitVec.toInt_eq_toNat_cond]
  split
  · rw [if_pos (by omega), if_pos (by omega)]; omega
  · rw [if_neg (by omega), if_neg (by omega)]; omega

end EP
