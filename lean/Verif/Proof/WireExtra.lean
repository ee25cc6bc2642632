import Verif.Proof.SpecMerge

/-! # More facts about varints and tags -/

namespace EP
open Spec

theorem groups_lt (bs : List Byte) : groups bs < 128 ^ bs.length := by
  induction bs with
  | nil => simp [groups]
  | cons b bs ih =>
    simp only [groups, List.length_cons, Nat.pow_succ]
    omega

theorem varint_getLast (n : Nat) (h : 0 < n) : (varint n).getLast? ≠ some 0 := by
  induction n using Nat.strongRecOn with
  | _ n ih =>
    by_cases hn : n < 128
    · rw [varint_lt hn]
      intro h0
      simp only [List.getLast?_singleton, Option.some.injEq] at h0
      have := congrArg BitVec.toNat h0
      simp at this
      omega
    · rw [varint_ge (by omega)]
      have hne : varint (n / 128) ≠ [] := varint_ne_nil _
      rw [List.getLast?_cons_of_ne_nil hne]
      exact ih (n / 128) (by omega) (by omega)

theorem varint_not_redundant (n : Nat) : ¬ Redundant (varint n) := by
  rintro ⟨h1, h2⟩
  rcases Nat.eq_zero_or_pos n with rfl | h
  · rw [varint_lt (by omega)] at h1; simp at h1
  · exact varint_getLast n h h2

theorem varint_shortest (k : Nat) (bs : List Byte) (h : IsVarint k bs) (n : Nat) (hg : groups bs = n) :
    (varint n).length ≤ bs.length :=
  varint_length_le bs.length n (hg ▸ groups_lt bs) h.length_pos

theorem varint_inj {m n : Nat} (h : varint m = varint n) : m = n := by
  rw [← groups_varint m, h, groups_varint]

theorem tag_inj {m n : Nat} {s t : WireType} (h : tag m s = tag n t) : m = n ∧ s = t := by
  have h := varint_inj h
  have h1 := wireNumber_lt s
  have h2 := wireNumber_lt t
  refine ⟨by omega, ?_⟩
  have : wireNumber s = wireNumber t := by omega
  have := congrArg WireType.ofNat? this
  rw [ofNat?_wireNumber, ofNat?_wireNumber] at this
  exact Option.some.inj this

theorem Spec.IsVarint.not_allCont {k : Nat} {bs : List Byte} (h : IsVarint k bs) : ¬ AllCont bs := by
  induction k generalizing bs with
  | zero => exact h.elim
  | succ k ih =>
    cases bs with
    | nil => exact h.elim
    | cons b bs =>
      rw [IsVarint] at h
      intro ha
      rw [if_pos (ha b (by simp))] at h
      exact ih h (fun c hc => ha c (by simp [hc]))

/-- A byte string has at most one varint as prefix. -/
theorem Spec.IsVarint.unique {k k' : Nat} {p q r s : List Byte} (hp : IsVarint k p) (hq : IsVarint k' q)
    (h : p ++ r = q ++ s) : p = q ∧ r = s := by
  induction k generalizing k' p q with
  | zero => exact hp.elim
  | succ k ih =>
    cases k' with
    | zero => exact hq.elim
    | succ k' =>
      cases p with
      | nil => exact hp.elim
      | cons a p =>
        cases q with
        | nil => exact hq.elim
        | cons b q =>
          simp only [List.cons_append, List.cons.injEq] at h
          obtain ⟨rfl, h⟩ := h
          rw [IsVarint] at hp hq
          split at hp
          · rename_i hc
            rw [if_pos hc] at hq
            obtain ⟨h1, h2⟩ := ih hp hq h
            exact ⟨by rw [h1], h2⟩
          · rename_i hc
            rw [if_neg hc] at hq
            subst hp hq
            exact ⟨rfl, h⟩

/-- The sign extended (10 byte for negative values) form of an `int32` is accepted. -/
theorem payload_signExtend (v : BitVec 32) :
    ScalarTy.int32.Payload (varint (v.signExtend 64).toNat) v := by
  refine ⟨(v.signExtend 64).toNat, varint_spec 64 _ (by decide) (v.signExtend 64).isLt, ?_⟩
  have : (v.signExtend 64).setWidth 32 = v := by
    apply BitVec.eq_of_getLsbD_eq
    intro i hi
    simp [BitVec.getLsbD_signExtend, hi]
    omega
  rw [← BitVec.setWidth_ofNat_of_le (by decide : 32 ≤ 64), BitVec.ofNat_toNat, BitVec.setWidth_eq]
  exact this.symm

theorem signExtend_neg_toNat (v : BitVec 32) (h : 2147483648 ≤ v.toNat) :
    (v.signExtend 64).toNat = 2 ^ 64 - 2 ^ 32 + v.toNat := by
  have hm : v.msb = true := by rw [BitVec.msb_eq_decide]; simpa using h
  rw [BitVec.toNat_signExtend, hm]
  have := v.isLt
  simp only [BitVec.toNat_setWidth, ↓reduceIte]
  omega

/-- Exact length of a varint. -/
theorem varint_length_eq (k n : Nat) (h : 128 ^ k ≤ n) (h' : n < 128 ^ (k + 1)) :
    (varint n).length = k + 1 := by
  induction k generalizing n with
  | zero => rw [varint_lt (by omega)]; rfl
  | succ k ih =>
    have hp : 0 < 128 ^ k := Nat.pow_pos (by decide)
    rw [Nat.pow_succ] at h
    rw [varint_ge (by omega), List.length_cons, ih (n / 128) (by omega) (by
      rw [Nat.pow_succ] at h' ⊢; omega)]

theorem littleEndian_getElem (k n i : Nat) (h : i < k) :
    (littleEndian k n)[i]? = some (BitVec.ofNat 8 (n / 256 ^ i)) := by
  induction k generalizing n i with
  | zero => omega
  | succ k ih =>
    cases i with
    | zero => simp [littleEndian]
    | succ i =>
      rw [littleEndian, List.getElem?_cons_succ, ih _ _ (by omega), Nat.div_div_eq_div_mul, Nat.pow_succ,
        Nat.mul_comm]

theorem scalar_enc_length (s : ScalarTy) (v : s.Val) : (s.enc v).length ≤ 10 := by
  have h32 : ∀ v : BitVec 32, (varint v.toNat).length ≤ 10 := fun v =>
    varint_length_le 10 _ (by have := v.isLt; omega) (by decide)
  have h64 : ∀ v : BitVec 64, (varint v.toNat).length ≤ 10 := fun v =>
    varint_length_le 10 _ (by have := v.isLt; omega) (by decide)
  cases s with
  | int32 => exact h32 v
  | uint32 => exact h32 v
  | enumeration => exact h32 v
  | int64 => exact h64 v
  | uint64 => exact h64 v
  | sint32 => show (varint (zigzag (BitVec.toInt (n := 32) v))).length ≤ 10
              rw [← zigZagEncode_spec (by decide)]; exact h32 _
  | sint64 => show (varint (zigzag (BitVec.toInt (n := 64) v))).length ≤ 10
              rw [← zigZagEncode_spec (by decide)]; exact h64 _
  | boolean => exact varint_length_le 10 _ (by split <;> decide) (by decide)
  | fixed32 => show (littleEndian 4 _).length ≤ 10; rw [littleEndian_length]; decide
  | sfixed32 => show (littleEndian 4 _).length ≤ 10; rw [littleEndian_length]; decide
  | floatfixed => show (littleEndian 4 _).length ≤ 10; rw [littleEndian_length]; decide
  | fixed64 => show (littleEndian 8 _).length ≤ 10; rw [littleEndian_length]; decide
  | sfixed64 => show (littleEndian 8 _).length ≤ 10; rw [littleEndian_length]; decide
  | doublefixed => show (littleEndian 8 _).length ≤ 10; rw [littleEndian_length]; decide

theorem scalar_enc_ne_nil (s : ScalarTy) (v : s.Val) : s.enc v ≠ [] := by
  cases s with
  | fixed32 => exact List.cons_ne_nil _ _
  | sfixed32 => exact List.cons_ne_nil _ _
  | floatfixed => exact List.cons_ne_nil _ _
  | fixed64 => exact List.cons_ne_nil _ _
  | sfixed64 => exact List.cons_ne_nil _ _
  | doublefixed => exact List.cons_ne_nil _ _
  | _ => exact varint_ne_nil _

end EP
