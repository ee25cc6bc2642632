import Verif.Spec.Value
import Verif.Proof.WireEnc

/-! # Lemmas about values and encodings -/

namespace EP
open Spec

theorem tag_ne_nil (num : Nat) (wt : WireType) : tag num wt ≠ [] := varint_ne_nil _

theorem lenDelim_ne_nil (bs : List Byte) : lenDelim bs ≠ [] := by
  simp [lenDelim, varint_ne_nil]

theorem ScalarTy.isZero_iff {s : ScalarTy} {v : s.Val} : s.isZero v = true ↔ v = s.zero := by
  simp [ScalarTy.isZero]

theorem littleEndian_ne_nil (k n : Nat) : littleEndian (k + 1) n ≠ [] := by simp [littleEndian]

theorem ScalarTy.enc_ne_nil (s : ScalarTy) (v : s.Val) : s.enc v ≠ [] := by
  cases s <;> simp only [ScalarTy.enc] <;> first | exact varint_ne_nil _ | exact littleEndian_ne_nil _ _

mutual
theorem ElemTy.isDflt_iff : (t : ElemTy) → (v : t.Val) → (t.isDflt v = true ↔ v = t.dflt)
  | .scalar s, v => by simp only [ElemTy.isDflt, ElemTy.dflt]; exact ScalarTy.isZero_iff
  | .str cap, v => by simp only [ElemTy.isDflt, ElemTy.dflt]; exact List.isEmpty_iff
  | .msg fs os, v => by
    simp only [ElemTy.isDflt, ElemTy.dflt, Bool.and_eq_true, Fields.isDflt_iff fs v.1,
      Oneofs.isDflt_iff os v.2]
    exact (Prod.ext_iff (x := v) (y := (fs.dflt, os.dflt))).symm
theorem Fields.isDflt_iff : (fs : Fields) → (v : fs.Val) → (fs.isDflt v = true ↔ v = fs.dflt)
  | .nil, v => by simp only [Fields.isDflt, Fields.dflt]; exact ⟨fun _ => rfl, fun _ => trivial⟩
  | .plain _ t rest, v => by
    simp only [Fields.isDflt, Fields.dflt, Bool.and_eq_true, ElemTy.isDflt_iff t v.1,
      Fields.isDflt_iff rest v.2]
    exact (Prod.ext_iff (x := v) (y := (t.dflt, rest.dflt))).symm
  | .optional _ t rest, v => by
    simp only [Fields.isDflt, Fields.dflt, Bool.and_eq_true, Option.isNone_iff_eq_none,
      Fields.isDflt_iff rest v.2]
    exact (Prod.ext_iff (x := v) (y := (none, rest.dflt))).symm
  | .repeated _ _ t rest, v => by
    simp only [Fields.isDflt, Fields.dflt, Bool.and_eq_true, List.isEmpty_iff,
      Fields.isDflt_iff rest v.2]
    exact (Prod.ext_iff (x := v) (y := ([], rest.dflt))).symm
theorem Oneofs.isDflt_iff : (os : Oneofs) → (v : os.Val) → (os.isDflt v = true ↔ v = os.dflt)
  | .nil, v => by simp only [Oneofs.isDflt, Oneofs.dflt]; exact ⟨fun _ => rfl, fun _ => trivial⟩
  | .cons a rest, v => by
    simp only [Oneofs.isDflt, Oneofs.dflt, Bool.and_eq_true, Option.isNone_iff_eq_none,
      Oneofs.isDflt_iff rest v.2]
    exact (Prod.ext_iff (x := v) (y := (none, rest.dflt))).symm
end

theorem encodeRepeated_eq_nil {t : ElemTy} {num : Nat} {es : List (List Byte)} :
    encodeRepeated t num es = [] ↔ es = [] := by
  unfold encodeRepeated
  split
  · split
    · simp_all
    · rename_i h
      simp only [List.append_eq_nil_iff, tag_ne_nil, false_and, false_iff]
      simpa using h
  · cases es <;> simp [tag_ne_nil]

variable {sc : (s : ScalarTy) → s.Val → List Byte}

theorem Alts.encodeWith_ne_nil : (a : Alts) → (v : a.Val) → a.encodeWith sc v ≠ []
  | .nil, v => nomatch v
  | .cons _ _ _, .inl _ => by simp [Alts.encodeWith, tag_ne_nil]
  | .cons _ _ rest, .inr y => by simpa [Alts.encodeWith] using Alts.encodeWith_ne_nil rest y

theorem Fields.encodeWith_eq_nil : (fs : Fields) → (v : fs.Val) →
    (fs.encodeWith sc v = [] ↔ fs.isDflt v = true)
  | .nil, v => by simp [Fields.encodeWith, Fields.isDflt]
  | .plain num t rest, v => by
    have ih := Fields.encodeWith_eq_nil rest v.2
    simp only [Fields.encodeWith, Fields.isDflt, List.append_eq_nil_iff, Bool.and_eq_true, ih]
    cases t.isDflt v.1 <;> simp [tag_ne_nil]
  | .optional num t rest, v => by
    have ih := Fields.encodeWith_eq_nil rest v.2
    simp only [Fields.encodeWith, Fields.isDflt, List.append_eq_nil_iff, Bool.and_eq_true, ih]
    cases v.1 <;> simp [tag_ne_nil]
  | .repeated num cap t rest, v => by
    have ih := Fields.encodeWith_eq_nil rest v.2
    simp only [Fields.encodeWith, Fields.isDflt, List.append_eq_nil_iff, Bool.and_eq_true, ih,
      encodeRepeated_eq_nil, List.map_eq_nil_iff, List.isEmpty_iff]

theorem Oneofs.encodeWith_eq_nil : (os : Oneofs) → (v : os.Val) →
    (os.encodeWith sc v = [] ↔ os.isDflt v = true)
  | .nil, v => by simp [Oneofs.encodeWith, Oneofs.isDflt]
  | .cons a rest, v => by
    have ih := Oneofs.encodeWith_eq_nil rest v.2
    simp only [Oneofs.encodeWith, Oneofs.isDflt, List.append_eq_nil_iff, Bool.and_eq_true, ih]
    cases v.1 <;> simp [Alts.encodeWith_ne_nil]

theorem ElemTy.msg_encodeWith_eq_nil (fs : Fields) (os : Oneofs) (v : fs.Val × os.Val) :
    (ElemTy.msg fs os).encodeWith sc v = [] ↔ (ElemTy.msg fs os).isDflt v = true := by
  simp only [ElemTy.encodeWith, ElemTy.isDflt, List.append_eq_nil_iff, Fields.encodeWith_eq_nil,
    Oneofs.encodeWith_eq_nil, Bool.and_eq_true]

/-! ## Negative zero -/

theorem ScalarTy.numZero_zero (s : ScalarTy) : s.numZero s.zero = true := by
  cases s <;> rfl

theorem ElemTy.dropNegZero_dflt (t : ElemTy) : t.dropNegZero t.dflt = t.dflt := by
  cases t with
  | scalar s =>
    show (if s.numZero s.zero then s.zero else s.zero) = s.zero
    split <;> rfl
  | str => rfl
  | msg => rfl

mutual
theorem ElemTy.canon_dflt : (t : ElemTy) → t.canon t.dflt = t.dflt
  | .scalar _ => rfl
  | .str _ => rfl
  | .msg fs os => by
    show ((fs.canon fs.dflt, os.canon os.dflt) : fs.Val × os.Val) = (fs.dflt, os.dflt)
    rw [Fields.canon_dflt fs, Oneofs.canon_dflt os]
theorem Fields.canon_dflt : (fs : Fields) → fs.canon fs.dflt = fs.dflt
  | .nil => rfl
  | .plain _ t rest => by
    show ((t.dropNegZero (t.canon t.dflt), rest.canon rest.dflt) : t.Val × rest.Val) = (t.dflt, rest.dflt)
    rw [ElemTy.canon_dflt t, Fields.canon_dflt rest, ElemTy.dropNegZero_dflt]
  | .optional _ t rest => by
    show ((none, rest.canon rest.dflt) : Option t.Val × rest.Val) = (none, rest.dflt)
    rw [Fields.canon_dflt rest]
  | .repeated _ _ t rest => by
    show (([], rest.canon rest.dflt) : List t.Val × rest.Val) = ([], rest.dflt)
    rw [Fields.canon_dflt rest]
theorem Oneofs.canon_dflt : (os : Oneofs) → os.canon os.dflt = os.dflt
  | .nil => rfl
  | .cons a rest => by
    show ((none, rest.canon rest.dflt) : Option a.Val × rest.Val) = (none, rest.dflt)
    rw [Oneofs.canon_dflt rest]
end

/-- The code's test for the default value. -/
theorem and_low_eq_zero (v : BitVec 32) :
    ((v &&& (0x7FFFFFFF : BitVec 32)) == 0) = (v.toNat % 2 ^ 31 == 0) := by
  rw [Bool.eq_iff_iff, beq_iff_eq, beq_iff_eq, ← BitVec.toNat_inj, BitVec.toNat_and,
    show (0x7FFFFFFF : BitVec 32).toNat = 2 ^ 31 - 1 from rfl, Nat.and_two_pow_sub_one_eq_mod]
  rfl

theorem and_low_eq_zero64 (v : BitVec 64) :
    ((v &&& (0x7FFFFFFFFFFFFFFF : BitVec 64)) == 0) = (v.toNat % 2 ^ 63 == 0) := by
  rw [Bool.eq_iff_iff, beq_iff_eq, beq_iff_eq, ← BitVec.toNat_inj, BitVec.toNat_and,
    show (0x7FFFFFFFFFFFFFFF : BitVec 64).toNat = 2 ^ 63 - 1 from rfl, Nat.and_two_pow_sub_one_eq_mod]
  rfl

theorem ScalarTy.numZero_iff (s : ScalarTy) (v : s.Val) :
    s.numZero v = true ↔ v = s.zero ∨ s.negZero = some v := by
  have k32 : ∀ v : BitVec 32, v.toNat % 2 ^ 31 = 0 ↔ v = 0 ∨ (0x80000000 : BitVec 32) = v := by
    intro v
    have := v.isLt
    rw [← BitVec.toNat_inj, ← BitVec.toNat_inj,
      show (0 : BitVec 32).toNat = 0 from rfl, show (0x80000000 : BitVec 32).toNat = 2147483648 from rfl]
    omega
  have k64 : ∀ v : BitVec 64, v.toNat % 2 ^ 63 = 0 ↔ v = 0 ∨ (0x8000000000000000 : BitVec 64) = v := by
    intro v
    have := v.isLt
    rw [← BitVec.toNat_inj, ← BitVec.toNat_inj, show (0 : BitVec 64).toNat = 0 from rfl,
      show (0x8000000000000000 : BitVec 64).toNat = 9223372036854775808 from rfl]
    omega
  cases s <;> simp only [ScalarTy.numZero, ScalarTy.negZero, ScalarTy.zero, beq_iff_eq, reduceCtorEq,
    or_false, Option.some.injEq]
  · exact k64 v
  · exact k32 v

/-! ## Standard encoding -/

theorem ScalarTy.encStandard_eq (s : ScalarTy) (v : s.Val) (h : s.NonNeg v) :
    s.encStandard v = s.enc v := by
  have key : ∀ v : BitVec 32, 0 ≤ v.toInt → (v.signExtend 64).toNat = v.toNat := by
    intro v h
    rw [BitVec.toNat_signExtend, BitVec.msb_eq_toInt]
    simp [show ¬ v.toInt < 0 by omega]
    omega
  cases s <;> simp only [ScalarTy.encStandard]
  · simp only [ScalarTy.enc]; rw [key v h]
  · simp only [ScalarTy.enc]; rw [key v h]

mutual
theorem ElemTy.encodeStandard_eq : (t : ElemTy) → (v : t.Val) → t.NonNeg v →
    t.encodeWith ScalarTy.encStandard v = t.encodeWith ScalarTy.enc v
  | .scalar s, v, h => ScalarTy.encStandard_eq s v h
  | .str _, v, h => rfl
  | .msg fs os, v, h => by
    simp only [ElemTy.NonNeg] at h
    simp only [ElemTy.encodeWith, Fields.encodeStandard_eq fs v.1 h.1, Oneofs.encodeStandard_eq os v.2 h.2]
theorem Fields.encodeStandard_eq : (fs : Fields) → (v : fs.Val) → fs.NonNeg v →
    fs.encodeWith ScalarTy.encStandard v = fs.encodeWith ScalarTy.enc v
  | .nil, v, h => rfl
  | .plain num t rest, v, h => by
    simp only [Fields.NonNeg] at h
    simp only [Fields.encodeWith, ElemTy.encodeStandard_eq t v.1 h.1, Fields.encodeStandard_eq rest v.2 h.2]
  | .optional num t rest, ⟨none, v⟩, h => by
    simp only [Fields.NonNeg] at h
    simp only [Fields.encodeWith, Fields.encodeStandard_eq rest v h.2]
  | .optional num t rest, ⟨some x, v⟩, h => by
    simp only [Fields.NonNeg] at h
    simp only [Fields.encodeWith, ElemTy.encodeStandard_eq t x (h.1 x rfl),
      Fields.encodeStandard_eq rest v h.2]
  | .repeated num cap t rest, v, h => by
    simp only [Fields.NonNeg] at h
    simp only [Fields.encodeWith, Fields.encodeStandard_eq rest v.2 h.2]
    rw [List.map_congr_left (fun x hx => ElemTy.encodeStandard_eq t x (h.1 x hx))]
theorem Alts.encodeStandard_eq : (a : Alts) → (v : a.Val) → a.NonNeg v →
    a.encodeWith ScalarTy.encStandard v = a.encodeWith ScalarTy.enc v
  | .nil, v, h => rfl
  | .cons num t rest, .inl x, h => by
    simp only [Alts.NonNeg] at h
    simp only [Alts.encodeWith, ElemTy.encodeStandard_eq t x h]
  | .cons num t rest, .inr y, h => by
    simp only [Alts.NonNeg] at h
    simp only [Alts.encodeWith, Alts.encodeStandard_eq rest y h]
theorem Oneofs.encodeStandard_eq : (os : Oneofs) → (v : os.Val) → os.NonNeg v →
    os.encodeWith ScalarTy.encStandard v = os.encodeWith ScalarTy.enc v
  | .nil, v, h => rfl
  | .cons a rest, ⟨none, v⟩, h => by
    simp only [Oneofs.NonNeg] at h
    simp only [Oneofs.encodeWith, Oneofs.encodeStandard_eq rest v h.2]
  | .cons a rest, ⟨some x, v⟩, h => by
    simp only [Oneofs.NonNeg] at h
    simp only [Oneofs.encodeWith, Alts.encodeStandard_eq a x (h.1 x rfl),
      Oneofs.encodeStandard_eq rest v h.2]
end

end EP
