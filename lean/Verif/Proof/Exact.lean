import Verif.Spec.NegZero
import Verif.Proof.ValueLemmas
import Verif.Proof.WireExtra
import Verif.Proof.MaxSize

/-! # When the encoding is the standard one -/

namespace EP
open Spec

/-! ## `-0.0` -/

theorem ScalarTy.drop_iff (s : ScalarTy) (v : s.Val) :
    (if s.numZero v then s.zero else v) = v ↔ s.negZero ≠ some v := by
  by_cases hz : s.numZero v = true
  · rw [if_pos hz]
    rcases (s.numZero_iff v).mp hz with h | h
    · constructor
      · intro _ hn
        rw [h] at hn
        cases s <;> simp only [ScalarTy.negZero, reduceCtorEq] at hn <;>
          exact absurd (Option.some.inj hn) (by decide)
      · intro _; exact h.symm
    · constructor
      · intro e hn
        rw [← e] at hn
        cases s <;> simp only [ScalarTy.negZero, reduceCtorEq] at hn <;>
          exact absurd (Option.some.inj hn) (by decide)
      · intro hn; exact absurd h hn
  · rw [if_neg hz]
    exact ⟨fun _ hn => hz ((s.numZero_iff v).mpr (Or.inr hn)), fun _ => rfl⟩

theorem ScalarTy.drop_nonzero (s : ScalarTy) (v : s.Val)
    (h : ¬ s.isZero (if s.numZero v then s.zero else v) = true) : ¬ s.numZero v = true := by
  intro hz
  rw [if_pos hz] at h
  exact h (ScalarTy.isZero_iff.mpr rfl)

theorem dropNegZero_canon_iff (t : ElemTy) (v : t.Val) (IH : t.canon v = v ↔ t.NoNegZero v) :
    t.dropNegZero (t.canon v) = v ↔ t.NotNegZero v ∧ t.NoNegZero v := by
  cases t with
  | scalar s =>
    exact (ScalarTy.drop_iff s v).trans ⟨fun h => ⟨h, trivial⟩, fun h => h.1⟩
  | str c => exact ⟨fun _ => ⟨trivial, trivial⟩, fun _ => rfl⟩
  | msg fs os => exact IH.trans ⟨fun h => ⟨trivial, h⟩, fun h => h.2⟩

theorem map_eq_self {α : Type} {f : α → α} (l : List α) : l.map f = l ↔ ∀ x ∈ l, f x = x := by
  induction l with
  | nil => simp
  | cons a l ih => simp [ih]

mutual
theorem ElemTy.canon_iff : (t : ElemTy) → (v : t.Val) → (t.canon v = v ↔ t.NoNegZero v)
  | .scalar _, _ => ⟨fun _ => trivial, fun _ => rfl⟩
  | .str _, _ => ⟨fun _ => trivial, fun _ => rfl⟩
  | .msg fs os, v => by
    have h1 := Fields.canon_iff fs v.1
    have h2 := Oneofs.canon_iff os v.2
    refine Iff.trans (Prod.ext_iff (x := ((fs.canon v.1, os.canon v.2) : fs.Val × os.Val)) (y := v)) ?_
    exact and_congr h1 h2
theorem Fields.canon_iff : (fs : Fields) → (v : fs.Val) → (fs.canon v = v ↔ fs.NoNegZero v)
  | .nil, _ => ⟨fun _ => trivial, fun _ => rfl⟩
  | .plain _ t rest, v => by
    have h1 := dropNegZero_canon_iff t v.1 (ElemTy.canon_iff t v.1)
    have h2 := Fields.canon_iff rest v.2
    refine Iff.trans (Prod.ext_iff
      (x := ((t.dropNegZero (t.canon v.1), rest.canon v.2) : t.Val × rest.Val)) (y := v)) ?_
    exact and_congr h1 h2
  | .optional _ t rest, ⟨o, v⟩ => by
    have IH := ElemTy.canon_iff t
    have h2 := Fields.canon_iff rest v
    refine Iff.trans (Prod.ext_iff
      (x := ((o.map t.canon, rest.canon v) : Option t.Val × rest.Val)) (y := (o, v))) ?_
    refine and_congr ?_ h2
    cases o with
    | none => simp
    | some x => simp [IH x]
  | .repeated _ _ t rest, ⟨l, v⟩ => by
    have IH := ElemTy.canon_iff t
    have h2 := Fields.canon_iff rest v
    refine Iff.trans (Prod.ext_iff
      (x := ((l.map t.canon, rest.canon v) : List t.Val × rest.Val)) (y := (l, v))) ?_
    refine and_congr ?_ h2
    exact (map_eq_self l).trans ⟨fun h x hx => (IH x).mp (h x hx), fun h x hx => (IH x).mpr (h x hx)⟩
theorem Alts.canon_iff : (a : Alts) → (v : a.Val) → (a.canon v = v ↔ a.NoNegZero v)
  | .nil, v => nomatch v
  | .cons _ t _, .inl x => 
    Iff.trans ⟨fun h => Sum.inl.inj h, fun h => congrArg Sum.inl h⟩ (ElemTy.canon_iff t x)
  | .cons _ _ rest, .inr y => 
    Iff.trans ⟨fun h => Sum.inr.inj h, fun h => congrArg Sum.inr h⟩ (Alts.canon_iff rest y)
theorem Oneofs.canon_iff : (os : Oneofs) → (v : os.Val) → (os.canon v = v ↔ os.NoNegZero v)
  | .nil, _ => ⟨fun _ => trivial, fun _ => rfl⟩
  | .cons a rest, ⟨o, v⟩ => by
    have IH := Alts.canon_iff a
    have h2 := Oneofs.canon_iff rest v
    refine Iff.trans (Prod.ext_iff
      (x := ((o.map a.canon, rest.canon v) : Option a.Val × rest.Val)) (y := (o, v))) ?_
    refine and_congr ?_ h2
    cases o with
    | none => simp
    | some x => simp [IH x]
end

/-! ## Lengths -/

/-- `a` is at most as long as `b`, and shorter unless `P`. -/
def Shorter (a b : List Byte) (P : Prop) : Prop :=
  a.length ≤ b.length ∧ (a.length = b.length → P)

theorem Shorter.append {a b c d : List Byte} {P Q : Prop} (h1 : Shorter a b P) (h2 : Shorter c d Q) :
    Shorter (a ++ c) (b ++ d) (P ∧ Q) := by
  unfold Shorter at *
  simp only [List.length_append]
  refine ⟨by omega, fun h => ⟨h1.2 (by omega), h2.2 (by omega)⟩⟩

theorem Shorter.mono {a b : List Byte} {P Q : Prop} (h : Shorter a b P) (f : P → Q) : Shorter a b Q :=
  ⟨h.1, fun e => f (h.2 e)⟩

theorem Shorter.refl (a : List Byte) {P : Prop} (h : P) : Shorter a a P := ⟨Nat.le_refl _, fun _ => h⟩

theorem Shorter.tag (num : Nat) (wt : WireType) {a b : List Byte} {P : Prop} (h : Shorter a b P) :
    Shorter (Spec.tag num wt ++ a) (Spec.tag num wt ++ b) P :=
  ((Shorter.refl (Spec.tag num wt) trivial).append h).mono And.right

theorem Shorter.lenDelim {a b : List Byte} {P : Prop} (h : Shorter a b P) :
    Shorter (Spec.lenDelim a) (Spec.lenDelim b) P := by
  unfold Shorter at *
  simp only [Spec.lenDelim, List.length_append]
  have := varint_length_mono _ _ h.1
  exact ⟨by omega, fun e => h.2 (by omega)⟩

theorem Shorter.wrap (t : ElemTy) {a b : List Byte} {P : Prop} (h : Shorter a b P) :
    Shorter (t.wrap a) (t.wrap b) P := by
  cases t with
  | scalar => exact h
  | str => exact h.lenDelim
  | msg => exact h.lenDelim

theorem Shorter.flatten {α : Type} {f g : α → List Byte} {P : α → Prop} (l : List α)
    (h : ∀ x ∈ l, Shorter (f x) (g x) (P x)) :
    Shorter (l.map f).flatten (l.map g).flatten (∀ x ∈ l, P x) := by
  induction l with
  | nil => exact Shorter.refl _ (by simp)
  | cons a l ih =>
    simp only [List.map_cons, List.flatten_cons]
    exact ((h a (by simp)).append (ih fun x hx => h x (by simp [hx]))).mono (by
      rintro ⟨h1, h2⟩ x hx
      rcases List.mem_cons.mp hx with rfl | hx
      · exact h1
      · exact h2 x hx)

theorem shorter_repeated {α : Type} (t : ElemTy) (num : Nat) {f g : α → List Byte} {P : α → Prop}
    (l : List α) (h : ∀ x ∈ l, Shorter (f x) (g x) (P x)) :
    Shorter (encodeRepeated t num (l.map f)) (encodeRepeated t num (l.map g)) (∀ x ∈ l, P x) := by
  unfold encodeRepeated
  split
  · cases l with
    | nil => exact Shorter.refl _ (by simp)
    | cons a l =>
      simp only [List.map_cons, List.isEmpty_cons, Bool.false_eq_true, ↓reduceIte]
      exact ((Shorter.flatten (a :: l) h).lenDelim).tag _ _
  · simp only [List.map_map]
    exact Shorter.flatten l fun x hx => ((h x hx).lenDelim).tag _ _

theorem ScalarTy.shorter_enc (s : ScalarTy) (v : s.Val) : Shorter (s.enc v) (s.encStandard v) (s.NonNeg v) := by
  have key : ∀ v : BitVec 32, Shorter (varint v.toNat) (varint (v.signExtend 64).toNat) (0 ≤ v.toInt) := by
    intro v
    have hlt := v.isLt
    by_cases h : 2147483648 ≤ v.toNat
    · rw [signExtend_neg_toNat v h]
      have h1 := varint_length_eq 4 v.toNat (by omega) (by omega)
      have h2 := varint_length_eq 9 (2 ^ 64 - 2 ^ 32 + v.toNat) (by omega) (by omega)
      exact ⟨by omega, fun e => by omega⟩
    · have hn : 0 ≤ v.toInt := by
        rw [BitVec.toInt_eq_toNat_cond]
        split <;> omega
      have := ScalarTy.encStandard_eq .int32 v hn
      have he : varint (v.signExtend 64).toNat = varint v.toNat := this
      rw [he]
      exact Shorter.refl _ hn
  cases s
  case int32 => exact key v
  case enumeration => exact key v
  all_goals exact Shorter.refl _ trivial

mutual
theorem ElemTy.nonNeg_dflt : (t : ElemTy) → t.NonNeg t.dflt
  | .scalar s => by cases s <;> first | trivial | (show (0 : Int) ≤ BitVec.toInt (0 : BitVec 32); decide)
  | .str _ => trivial
  | .msg fs os => And.intro (Fields.nonNeg_dflt fs) (Oneofs.nonNeg_dflt os)
theorem Fields.nonNeg_dflt : (fs : Fields) → fs.NonNeg fs.dflt
  | .nil => trivial
  | .plain _ t rest => And.intro (ElemTy.nonNeg_dflt t) (Fields.nonNeg_dflt rest)
  | .optional _ _ rest => And.intro (fun _ h => nomatch h) (Fields.nonNeg_dflt rest)
  | .repeated _ _ _ rest => And.intro (fun _ h => nomatch h) (Fields.nonNeg_dflt rest)
theorem Oneofs.nonNeg_dflt : (os : Oneofs) → os.NonNeg os.dflt
  | .nil => trivial
  | .cons _ rest => And.intro (fun _ h => nomatch h) (Oneofs.nonNeg_dflt rest)
end

/-- A singular field without presence. -/
theorem shorter_plain (num : Nat) (t : ElemTy) (v : t.Val)
    (IH : Shorter (t.encode (t.canon v)) (t.encodeStandard v) (t.NonNeg v ∧ t.NoNegZero v)) :
    Shorter
      (if t.isDflt (t.dropNegZero (t.canon v)) then []
        else Spec.tag num t.wire ++ t.wrap (t.encode (t.dropNegZero (t.canon v))))
      (if t.isDflt v then [] else Spec.tag num t.wire ++ t.wrap (t.encodeStandard v))
      (t.NonNeg v ∧ t.NotNegZero v ∧ t.NoNegZero v) := by
  by_cases hd : t.isDflt v = true
  · have hv := (ElemTy.isDflt_iff t v).mp hd
    subst hv
    have hc : t.dropNegZero (t.canon t.dflt) = t.dflt := by rw [ElemTy.canon_dflt, ElemTy.dropNegZero_dflt]
    rw [hc, if_pos hd, if_pos hd]
    exact Shorter.refl _ ⟨ElemTy.nonNeg_dflt t,
      (dropNegZero_canon_iff t t.dflt (ElemTy.canon_iff t t.dflt)).mp hc⟩
  · rw [if_neg hd]
    by_cases hc : t.isDflt (t.dropNegZero (t.canon v)) = true
    · rw [if_pos hc]
      have := List.length_pos_iff.mpr (tag_ne_nil num t.wire)
      constructor
      · simp
      · intro e
        rw [List.length_append, List.length_nil] at e
        omega
    · rw [if_neg hc]
      refine Shorter.tag _ _ (Shorter.wrap t ?_)
      cases t with
      | str c => exact IH.mono fun h => ⟨h.1, trivial, h.2⟩
      | msg fs os => exact IH.mono fun h => ⟨h.1, trivial, h.2⟩
      | scalar s =>
        have hz := ScalarTy.drop_nonzero s v hc
        have hn : s.negZero ≠ some v := fun hn => hz ((s.numZero_iff v).mpr (Or.inr hn))
        have he : (ElemTy.scalar s).dropNegZero ((ElemTy.scalar s).canon v) = v :=
          (ScalarTy.drop_iff s v).mpr hn
        rw [he]
        exact (ScalarTy.shorter_enc s v).mono fun h =>
          And.intro h (And.intro hn trivial)

mutual
theorem ElemTy.shorter : (t : ElemTy) → (v : t.Val) →
    Shorter (t.encode (t.canon v)) (t.encodeStandard v) (t.NonNeg v ∧ t.NoNegZero v)
  | .scalar s, v => (ScalarTy.shorter_enc s v).mono fun h => And.intro h trivial
  | .str _, _ => Shorter.refl _ (And.intro trivial trivial)
  | .msg fs os, v =>
    ((Fields.shorter fs v.1).append (Oneofs.shorter os v.2)).mono fun h =>
      And.intro (And.intro h.1.1 h.2.1) (And.intro h.1.2 h.2.2)
theorem Fields.shorter : (fs : Fields) → (v : fs.Val) →
    Shorter (fs.encode (fs.canon v)) (fs.encodeWith ScalarTy.encStandard v) (fs.NonNeg v ∧ fs.NoNegZero v)
  | .nil, _ => Shorter.refl _ (And.intro trivial trivial)
  | .plain num t rest, v =>
    ((shorter_plain num t v.1 (ElemTy.shorter t v.1)).append (Fields.shorter rest v.2)).mono fun h =>
      And.intro (And.intro h.1.1 h.2.1) (And.intro h.1.2 h.2.2)
  | .optional num t rest, ⟨none, v⟩ =>
    ((Shorter.refl [] trivial).append (Fields.shorter rest v)).mono fun h =>
      And.intro (And.intro (fun _ e => nomatch e) h.2.1) (And.intro (fun _ e => nomatch e) h.2.2)
  | .optional num t rest, ⟨some x, v⟩ =>
    ((((ElemTy.shorter t x).wrap t).tag num t.wire).append (Fields.shorter rest v)).mono fun h =>
      And.intro (And.intro (fun _ e => by cases e; exact h.1.1) h.2.1)
        (And.intro (fun _ e => by cases e; exact h.1.2) h.2.2)
  | .repeated num cap t rest, ⟨l, v⟩ => by
    have IH := ElemTy.shorter t
    have h1 := (shorter_repeated t num l fun x _ => IH x).append (Fields.shorter rest v)
    have he : Fields.encode (.repeated num cap t rest) (Fields.canon (.repeated num cap t rest) (l, v)) =
      encodeRepeated t num (l.map fun x => t.encode (t.canon x)) ++ rest.encode (rest.canon v) := by
      show encodeRepeated t num ((l.map t.canon).map t.encode) ++ _ = _
      rw [List.map_map]
      rfl
    rw [he]
    exact h1.mono fun h =>
      And.intro (And.intro (fun x hx => (h.1 x hx).1) h.2.1) (And.intro (fun x hx => (h.1 x hx).2) h.2.2)
theorem Alts.shorter : (a : Alts) → (v : a.Val) →
    Shorter (a.encode (a.canon v)) (a.encodeWith ScalarTy.encStandard v) (a.NonNeg v ∧ a.NoNegZero v)
  | .nil, v => nomatch v
  | .cons num t _, .inl x => ((ElemTy.shorter t x).wrap t).tag num t.wire
  | .cons _ _ rest, .inr y => Alts.shorter rest y
theorem Oneofs.shorter : (os : Oneofs) → (v : os.Val) →
    Shorter (os.encode (os.canon v)) (os.encodeWith ScalarTy.encStandard v) (os.NonNeg v ∧ os.NoNegZero v)
  | .nil, _ => Shorter.refl _ (And.intro trivial trivial)
  | .cons a rest, ⟨none, v⟩ =>
    ((Shorter.refl [] trivial).append (Oneofs.shorter rest v)).mono fun h =>
      And.intro (And.intro (fun _ e => nomatch e) h.2.1) (And.intro (fun _ e => nomatch e) h.2.2)
  | .cons a rest, ⟨some x, v⟩ =>
    ((Alts.shorter a x).append (Oneofs.shorter rest v)).mono fun h =>
      And.intro (And.intro (fun _ e => by cases e; exact h.1.1) h.2.1)
        (And.intro (fun _ e => by cases e; exact h.1.2) h.2.2)
end

/-- The bytes are those of a standard encoder exactly if there is no negative `int32` or enum and no
`-0.0` in a field without presence. -/
theorem ElemTy.encode_standard_iff (t : ElemTy) (v : t.Val) :
    t.encode (t.canon v) = t.encodeStandard v ↔ t.NonNeg v ∧ t.NoNegZero v := by
  constructor
  · intro h
    exact (ElemTy.shorter t v).2 (congrArg List.length h)
  · intro ⟨h1, h2⟩
    rw [(ElemTy.canon_iff t v).mpr h2]
    exact (ElemTy.encodeStandard_eq t v h1).symm

end EP
