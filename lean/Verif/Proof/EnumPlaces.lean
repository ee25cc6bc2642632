import Verif.Proof.Places
import Verif.Proof.MaxSize
import Verif.Proof.Standard

/-!
# Places for enums, and how much longer the encoding of a standard encoder is
-/

namespace EP
open Spec

/-- Not a negative enum. -/
def ElemTy.leafEnum : Place → (t : ElemTy) → t.Val → Prop
  | _, .scalar s, v => s.NonNegEnum v
  | _, _, _ => True

mutual
theorem ElemTy.enum_all : ∀ (t : ElemTy) (p : Place) (v : t.Val), t.AllScalars ScalarTy.NonNegEnum v ↔ t.All ElemTy.leafEnum p v
  | .scalar _, p, _ => by cases p <;> rfl
  | .str _, p, _ => by cases p <;> rfl
  | .msg fs os, _, v => and_congr (Fields.enum_all fs v.1) (Oneofs.enum_all os v.2)
theorem Fields.enum_all : ∀ (fs : Fields) (v : fs.Val), fs.AllScalars ScalarTy.NonNegEnum v ↔ fs.All ElemTy.leafEnum v
  | .nil, _ => Iff.rfl
  | .plain _ t rest, v => and_congr (ElemTy.enum_all t _ v.1) (Fields.enum_all rest v.2)
  | .optional _ t rest, v => and_congr (forall_congr' fun x => imp_congr_right fun _ => ElemTy.enum_all t _ x)
      (Fields.enum_all rest v.2)
  | .repeated _ _ t rest, v => and_congr (forall_congr' fun x => imp_congr_right fun _ => ElemTy.enum_all t _ x)
      (Fields.enum_all rest v.2)
theorem Alts.enum_all : ∀ (a : Alts) (v : a.Val), a.AllScalars ScalarTy.NonNegEnum v ↔ a.All ElemTy.leafEnum v
  | .cons _ t _, .inl x => ElemTy.enum_all t _ x
  | .cons _ _ rest, .inr y => Alts.enum_all rest y
theorem Oneofs.enum_all : ∀ (os : Oneofs) (v : os.Val), os.AllScalars ScalarTy.NonNegEnum v ↔ os.All ElemTy.leafEnum v
  | .nil, _ => Iff.rfl
  | .cons a rest, v => and_congr (forall_congr' fun x => imp_congr_right fun _ => Alts.enum_all a x)
      (Oneofs.enum_all rest v.2)
end

theorem enum_leaves : Leaves EnumPlace ElemTy.leafEnum := by
  intro p t ht
  cases t with
  | msg => exact nomatch ht
  | str => exact ⟨fun _ _ _ => by cases p <;> trivial, fun _ => nofun⟩
  | scalar s =>
    constructor
    · intro h v _
      cases s with
      | enumeration => exact absurd rfl h
      | _ => cases p <;> trivial
    · intro h e
      injection e with e
      subst e
      have : 0 ≤ (0x80000000#32).toInt := by cases p <;> exact h 0x80000000#32 trivial
      exact absurd this (by decide)

/-! ## At most twice as long -/

theorem varint_length_double (m n : Nat) (h : m ≤ 2 * n) : (varint m).length ≤ 2 * (varint n).length := by
  have h1 := varint_length_mono m (128 * n) (by omega)
  have h2 := varint_length_pos n
  by_cases h0 : n = 0
  · subst h0
    rw [Nat.mul_zero] at h1
    omega
  · have e : (varint (128 * n)).length = (varint n).length + 1 := by
      rw [varint, if_neg (by omega), Nat.mul_div_cancel_left _ (by decide)]
      rfl
    omega

theorem ElemTy.record_double (num : Nat) (t : ElemTy) (a b : List Byte) (h : a.length ≤ 2 * b.length) :
    (tag num t.wire ++ t.wrap a).length ≤ 2 * (tag num t.wire ++ t.wrap b).length := by
  rw [t.record_length, t.record_length]
  unfold ElemTy.recordLen
  have := varint_length_double _ _ h
  split <;> omega

theorem flatten_double {α : Type} (f g : α → List Byte) (l : List α) (h : ∀ x ∈ l, (f x).length ≤ 2 * (g x).length) :
    (l.map f).flatten.length ≤ 2 * (l.map g).flatten.length := by
  induction l with
  | nil => exact Nat.zero_le _
  | cons x l ih =>
    have h1 := h x (List.mem_cons_self ..)
    have h2 := ih fun y hy => h y (List.mem_cons_of_mem _ hy)
    simp only [List.map_cons, List.flatten_cons, List.length_append]
    omega

theorem encodeRepeated_double {α : Type} (t : ElemTy) (num : Nat) (f g : α → List Byte) (l : List α)
    (h : ∀ x ∈ l, (f x).length ≤ 2 * (g x).length) :
    (encodeRepeated t num (l.map f)).length ≤ 2 * (encodeRepeated t num (l.map g)).length := by
  unfold encodeRepeated
  cases hs : t.isScalar
  · simp only [Bool.false_eq_true, if_false, List.map_map]
    refine flatten_double _ _ l fun x hx => ?_
    have h1 := h x hx
    have := varint_length_double _ _ h1
    simp only [Function.comp, lenDelim, List.length_append]
    omega
  · cases l with
    | nil => exact Nat.zero_le _
    | cons x l =>
      have h1 := flatten_double f g (x :: l) h
      have := varint_length_double _ _ h1
      simp only [if_true, List.map_cons, List.isEmpty_cons, Bool.false_eq_true, if_false] at h1 this ⊢
      simp only [lenDelim, List.length_append] at h1 this ⊢
      omega

section
variable {f g : (s : ScalarTy) → s.Val → List Byte}

mutual
theorem ElemTy.encodeWith_double (H : ∀ s v, (f s v).length ≤ 2 * (g s v).length) :
    (t : ElemTy) → (v : t.Val) → (t.encodeWith f v).length ≤ 2 * (t.encodeWith g v).length
  | .scalar s, v => H s v
  | .str _, v => by
    show List.length (α := Byte) v ≤ 2 * List.length (α := Byte) v
    omega
  | .msg fs os, v => by
    have h1 := fs.encodeWith_double H v.1
    have h2 := os.encodeWith_double H v.2
    simp only [ElemTy.encodeWith, List.length_append]
    omega
theorem Fields.encodeWith_double (H : ∀ s v, (f s v).length ≤ 2 * (g s v).length) :
    (fs : Fields) → (v : fs.Val) → (fs.encodeWith f v).length ≤ 2 * (fs.encodeWith g v).length
  | .nil, _ => Nat.zero_le _
  | .plain num t rest, v => by
    have h1 := t.record_double num _ _ (t.encodeWith_double H v.1)
    have h2 := rest.encodeWith_double H v.2
    simp only [Fields.encodeWith, List.length_append] at h1 ⊢
    split
    · simp only [List.length_nil]; omega
    · simp only [List.length_append]; omega
  | .optional num t rest, v => by
    have h2 := rest.encodeWith_double H v.2
    simp only [Fields.encodeWith]
    rw [List.length_append, List.length_append]
    cases v.1 with
    | none => simp only [List.length_nil]; omega
    | some x =>
      have h1 := t.record_double num _ _ (t.encodeWith_double H x)
      dsimp only
      omega
  | .repeated num _ t rest, v => by
    have h1 := encodeRepeated_double t num (t.encodeWith f) (t.encodeWith g) v.1 fun x _ => t.encodeWith_double H x
    have h2 := rest.encodeWith_double H v.2
    simp only [Fields.encodeWith]
    rw [List.length_append, List.length_append]
    omega
theorem Alts.encodeWith_double (H : ∀ s v, (f s v).length ≤ 2 * (g s v).length) :
    (a : Alts) → (v : a.Val) → (a.encodeWith f v).length ≤ 2 * (a.encodeWith g v).length
  | .cons num t _, .inl x => t.record_double num _ _ (t.encodeWith_double H x)
  | .cons _ _ rest, .inr y => rest.encodeWith_double H y
theorem Oneofs.encodeWith_double (H : ∀ s v, (f s v).length ≤ 2 * (g s v).length) :
    (os : Oneofs) → (v : os.Val) → (os.encodeWith f v).length ≤ 2 * (os.encodeWith g v).length
  | .nil, _ => Nat.zero_le _
  | .cons a rest, v => by
    have h2 := rest.encodeWith_double H v.2
    simp only [Oneofs.encodeWith]
    rw [List.length_append, List.length_append]
    cases v.1 with
    | none => simp only [List.length_nil]; omega
    | some x =>
      have h1 := a.encodeWith_double H x
      dsimp only
      omega
end
end

theorem ScalarTy.encStandard_double (s : ScalarTy) (v : s.Val) : (s.encStandard v).length ≤ 2 * (s.enc v).length := by
  have key : ∀ v : BitVec 32, (varint (v.signExtend 64).toNat).length ≤ 2 * (varint v.toNat).length := by
    intro v
    by_cases hn : v.msb = false
    · rw [BitVec.signExtend_eq_setWidth_of_msb_false hn, BitVec.toNat_setWidth_of_le (by decide)]
      omega
    · have h1 : (varint (v.signExtend 64).toNat).length ≤ 10 := varint_length_le 10 _ (by
        have := (v.signExtend 64).isLt
        omega) (by decide)
      have h2 : 2 ^ 31 ≤ v.toNat := by
        have := BitVec.msb_eq_decide v
        rw [this] at hn
        simpa using hn
      have h3 := varint_length_mono _ _ h2
      have h4 : (varint (2 ^ 31)).length = 5 := by decide +kernel
      omega
  cases s <;> first
    | exact key v
    | exact Nat.le_mul_of_pos_left _ (by decide)

/-- What a standard encoder writes is at most twice as long as the largest message of this library. -/
theorem ElemTy.encodeStandard_maxLen (t : ElemTy) (v : t.Val) (h : t.Fits v) : (t.encodeStandard v).length ≤ 2 * t.maxLen := by
  have h1 := t.encodeWith_double ScalarTy.encStandard_double v
  have h2 := t.encode_maxLen v h
  exact Nat.le_trans h1 (Nat.mul_le_mul_left 2 h2)

end EP
