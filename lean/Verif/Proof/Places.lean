import Verif.Spec.Places
import Verif.Spec.NegZero
import Verif.Spec.Standard
import Verif.Spec.Alias
import Verif.Proof.Fits

/-! # Declarations of which every value has a property -/

namespace EP
open Spec

section
variable {P : Place → ElemTy → Prop} {G : Place → (t : ElemTy) → t.Val → Prop}

/-- For scalars and strings. -/
def Leaves (P : Place → ElemTy → Prop) (G : Place → (t : ElemTy) → t.Val → Prop) : Prop :=
  ∀ p t, t.isMsg = false → (P p t ↔ ∀ v, t.Fits v → G p t v)

mutual
theorem ElemTy.all_of_every (hL : Leaves P G) : ∀ (t : ElemTy) (p : Place), t.Every P p → ∀ v : t.Val, t.Fits v → t.All G p v
  | .scalar s, p, h, v, hf => (hL p (.scalar s) rfl).mp h v hf
  | .str cap, p, h, v, hf => (hL p (.str cap) rfl).mp h v hf
  | .msg fs os, _, h, v, hf => ⟨Fields.all_of_every hL fs h.1 v.1 hf.1, Oneofs.all_of_every hL os h.2 v.2 hf.2⟩
theorem Fields.all_of_every (hL : Leaves P G) : ∀ (fs : Fields), fs.Every P → ∀ v : fs.Val, fs.Fits v → fs.All G v
  | .nil, _, _, _ => trivial
  | .plain _ t rest, h, v, hf => ⟨ElemTy.all_of_every hL t _ h.1 v.1 hf.1, Fields.all_of_every hL rest h.2 v.2 hf.2⟩
  | .optional _ t rest, h, v, hf =>
    ⟨fun x hx => ElemTy.all_of_every hL t _ h.1 x (hf.1 x hx), Fields.all_of_every hL rest h.2 v.2 hf.2⟩
  | .repeated _ cap t rest, h, v, hf => by
    refine ⟨fun x hx => ?_, Fields.all_of_every hL rest h.2 v.2 hf.2⟩
    rcases h.1 with hc | hc
    · have := hf.1.1
      have : v.1 = [] := List.eq_nil_of_length_eq_zero (by omega)
      rw [this] at hx
      exact nomatch hx
    · exact ElemTy.all_of_every hL t _ hc x (hf.1.2 x hx)
theorem Alts.all_of_every (hL : Leaves P G) : ∀ (a : Alts), a.Every P → ∀ v : a.Val, a.Fits v → a.All G v
  | .cons _ t _, h, .inl v, hf => ElemTy.all_of_every hL t _ h.1 v hf
  | .cons _ _ rest, h, .inr v, hf => Alts.all_of_every hL rest h.2 v hf
theorem Oneofs.all_of_every (hL : Leaves P G) : ∀ (os : Oneofs), os.Every P → ∀ v : os.Val, os.Fits v → os.All G v
  | .nil, _, _, _ => trivial
  | .cons a rest, h, v, hf =>
    ⟨fun w hw => Alts.all_of_every hL a h.1 w (hf.1 w hw), Oneofs.all_of_every hL rest h.2 v.2 hf.2⟩
end

mutual
theorem ElemTy.every_of_all (hL : Leaves P G) : ∀ (t : ElemTy) (p : Place), (∀ v : t.Val, t.Fits v → t.All G p v) → t.Every P p
  | .scalar s, p, h => (hL p (.scalar s) rfl).mpr h
  | .str cap, p, h => (hL p (.str cap) rfl).mpr h
  | .msg fs os, _, h =>
    ⟨Fields.every_of_all hL fs fun v hv => (h (v, os.dflt) ⟨hv, os.fits_dflt⟩).1,
      Oneofs.every_of_all hL os fun v hv => (h (fs.dflt, v) ⟨fs.fits_dflt, hv⟩).2⟩
theorem Fields.every_of_all (hL : Leaves P G) : ∀ (fs : Fields), (∀ v : fs.Val, fs.Fits v → fs.All G v) → fs.Every P
  | .nil, _ => trivial
  | .plain _ t rest, h =>
    ⟨ElemTy.every_of_all hL t _ fun v hv => (h (v, rest.dflt) ⟨hv, rest.fits_dflt⟩).1,
      Fields.every_of_all hL rest fun v hv => (h (t.dflt, v) ⟨t.fits_dflt, hv⟩).2⟩
  | .optional _ t rest, h =>
    ⟨ElemTy.every_of_all hL t _ fun v hv =>
        (h (some v, rest.dflt) ⟨fun x hx => (by injection hx with hx; exact hx ▸ hv), rest.fits_dflt⟩).1 v rfl,
      Fields.every_of_all hL rest fun v hv => (h (none, v) ⟨fun _ hx => (nomatch hx), hv⟩).2⟩
  | .repeated num cap t rest, h => by
    refine ⟨?_, Fields.every_of_all hL rest fun v hv => (h ([], v) ⟨⟨Nat.zero_le _, fun _ hx => (nomatch hx)⟩, hv⟩).2⟩
    by_cases hc : cap = 0
    · exact .inl hc
    · refine .inr (ElemTy.every_of_all hL t _ fun v hv => ?_)
      refine (h ([v], rest.dflt) ⟨⟨?_, fun x hx => ?_⟩, rest.fits_dflt⟩).1 v List.mem_cons_self
      · show List.length [v] ≤ cap
        simp; omega
      · obtain rfl := List.mem_singleton.mp hx
        exact hv
theorem Alts.every_of_all (hL : Leaves P G) : ∀ (a : Alts), (∀ v : a.Val, a.Fits v → a.All G v) → a.Every P
  | .nil, _ => trivial
  | .cons _ t rest, h =>
    ⟨ElemTy.every_of_all hL t _ fun v hv => h (.inl v) hv, Alts.every_of_all hL rest fun v hv => h (.inr v) hv⟩
theorem Oneofs.every_of_all (hL : Leaves P G) : ∀ (os : Oneofs), (∀ v : os.Val, os.Fits v → os.All G v) → os.Every P
  | .nil, _ => trivial
  | .cons a rest, h =>
    ⟨Alts.every_of_all hL a fun v hv =>
        (h (some v, rest.dflt) ⟨fun x hx => (by injection hx with hx; exact hx ▸ hv), rest.fits_dflt⟩).1 v rfl,
      Oneofs.every_of_all hL rest fun v hv => (h (none, v) ⟨fun _ hx => (nomatch hx), hv⟩).2⟩
end

theorem ElemTy.every_iff (hL : Leaves P G) (t : ElemTy) (p : Place) :
    (∀ v : t.Val, t.Fits v → t.All G p v) ↔ t.Every P p := ⟨t.every_of_all hL p, t.all_of_every hL p⟩

end

/-! ## The properties of values that matter -/

/-- Not `-0.0`, in a field without presence. -/
def ElemTy.leafZero : Place → (t : ElemTy) → t.Val → Prop
  | .plain, .scalar s, v => s.negZero ≠ some v
  | _, _, _ => True

/-- Not a negative `int32` or enum. -/
def ElemTy.leafNonNeg : Place → (t : ElemTy) → t.Val → Prop
  | _, .scalar s, v => s.NonNeg v
  | _, _, _ => True

/-- An empty string, outside arrays. -/
def ElemTy.leafEmpty : Place → (t : ElemTy) → t.Val → Prop
  | .element, .str _, _ => True
  | _, .str _, v => List.length (α := Byte) v = 0
  | _, _, _ => True

mutual
theorem ElemTy.nonNeg_all : ∀ (t : ElemTy) (p : Place) (v : t.Val), t.NonNeg v ↔ t.All ElemTy.leafNonNeg p v
  | .scalar _, p, _ => by cases p <;> rfl
  | .str _, p, _ => by cases p <;> rfl
  | .msg fs os, _, v => and_congr (Fields.nonNeg_all fs v.1) (Oneofs.nonNeg_all os v.2)
theorem Fields.nonNeg_all : ∀ (fs : Fields) (v : fs.Val), fs.NonNeg v ↔ fs.All ElemTy.leafNonNeg v
  | .nil, _ => Iff.rfl
  | .plain _ t rest, v => and_congr (ElemTy.nonNeg_all t _ v.1) (Fields.nonNeg_all rest v.2)
  | .optional _ t rest, v => and_congr (forall_congr' fun x => imp_congr_right fun _ => ElemTy.nonNeg_all t _ x)
      (Fields.nonNeg_all rest v.2)
  | .repeated _ _ t rest, v => and_congr (forall_congr' fun x => imp_congr_right fun _ => ElemTy.nonNeg_all t _ x)
      (Fields.nonNeg_all rest v.2)
theorem Alts.nonNeg_all : ∀ (a : Alts) (v : a.Val), a.NonNeg v ↔ a.All ElemTy.leafNonNeg v
  | .cons _ t _, .inl x => ElemTy.nonNeg_all t _ x
  | .cons _ _ rest, .inr y => Alts.nonNeg_all rest y
theorem Oneofs.nonNeg_all : ∀ (os : Oneofs) (v : os.Val), os.NonNeg v ↔ os.All ElemTy.leafNonNeg v
  | .nil, _ => Iff.rfl
  | .cons a rest, v => and_congr (forall_congr' fun x => imp_congr_right fun _ => Alts.nonNeg_all a x)
      (Oneofs.nonNeg_all rest v.2)
end

mutual
theorem ElemTy.noNegZero_all : ∀ (t : ElemTy) (p : Place) (v : t.Val),
    ((p = .plain → t.NotNegZero v) ∧ t.NoNegZero v) ↔ t.All ElemTy.leafZero p v
  | .scalar _, p, _ => by
    cases p with
    | plain => exact ⟨fun h => h.1 rfl, fun h => ⟨fun _ => h, trivial⟩⟩
    | present => exact ⟨fun _ => trivial, fun _ => ⟨nofun, trivial⟩⟩
    | element => exact ⟨fun _ => trivial, fun _ => ⟨nofun, trivial⟩⟩
  | .str _, p, _ => by cases p <;> exact ⟨fun _ => trivial, fun _ => ⟨fun _ => trivial, trivial⟩⟩
  | .msg fs os, _, v => by
    have := and_congr (Fields.noNegZero_all fs v.1) (Oneofs.noNegZero_all os v.2)
    exact ⟨fun h => this.mp h.2, fun h => ⟨fun _ => trivial, this.mpr h⟩⟩
theorem Fields.noNegZero_all : ∀ (fs : Fields) (v : fs.Val), fs.NoNegZero v ↔ fs.All ElemTy.leafZero v
  | .nil, _ => Iff.rfl
  | .plain _ t rest, v => by
    refine and_congr (Iff.trans ?_ (ElemTy.noNegZero_all t .plain v.1)) (Fields.noNegZero_all rest v.2)
    exact ⟨fun h => ⟨fun _ => h.1, h.2⟩, fun h => ⟨h.1 rfl, h.2⟩⟩
  | .optional _ t rest, v => by
    refine and_congr (forall_congr' fun x => imp_congr_right fun _ => Iff.trans ?_ (ElemTy.noNegZero_all t .present x))
      (Fields.noNegZero_all rest v.2)
    exact ⟨fun h => ⟨nofun, h⟩, fun h => h.2⟩
  | .repeated _ _ t rest, v => by
    refine and_congr (forall_congr' fun x => imp_congr_right fun _ => Iff.trans ?_ (ElemTy.noNegZero_all t .element x))
      (Fields.noNegZero_all rest v.2)
    exact ⟨fun h => ⟨nofun, h⟩, fun h => h.2⟩
theorem Alts.noNegZero_all : ∀ (a : Alts) (v : a.Val), a.NoNegZero v ↔ a.All ElemTy.leafZero v
  | .cons _ t _, .inl x => by
    refine Iff.trans ?_ (ElemTy.noNegZero_all t .present x)
    exact ⟨fun h => ⟨nofun, h⟩, fun h => h.2⟩
  | .cons _ _ rest, .inr y => Alts.noNegZero_all rest y
theorem Oneofs.noNegZero_all : ∀ (os : Oneofs) (v : os.Val), os.NoNegZero v ↔ os.All ElemTy.leafZero v
  | .nil, _ => Iff.rfl
  | .cons a rest, v => and_congr (forall_congr' fun x => imp_congr_right fun _ => Alts.noNegZero_all a x)
      (Oneofs.noNegZero_all rest v.2)
end

theorem opt_any_false {α : Type} {f : α → Bool} {o : Option α} : o.any f = false ↔ ∀ x, o = some x → f x = false := by
  cases o with
  | none => exact ⟨fun _ _ h => (nomatch h), fun _ => rfl⟩
  | some a => exact ⟨fun h x hx => by injection hx with hx; exact hx ▸ h, fun h => h a rfl⟩

mutual
theorem ElemTy.text_all : ∀ (t : ElemTy) (p : Place) (v : t.Val),
    ((t.isMsg = true ∨ p ≠ .element) → t.hasText v = false) ↔ t.All ElemTy.leafEmpty p v
  | .scalar _, p, _ => by cases p <;> exact ⟨fun _ => trivial, fun _ _ => rfl⟩
  | .str _, p, v => by
    have e : (!List.isEmpty (α := Byte) v) = false ↔ List.length (α := Byte) v = 0 := by
      cases (v : List Byte) <;> simp
    cases p with
    | plain => exact ⟨fun h => e.mp (h (.inr nofun)), fun h _ => e.mpr h⟩
    | present => exact ⟨fun h => e.mp (h (.inr nofun)), fun h _ => e.mpr h⟩
    | element => exact ⟨fun _ => trivial, fun _ h => (h.elim nofun fun h => absurd rfl h)⟩
  | .msg fs os, _, v => by
    have := and_congr (Fields.text_all fs v.1) (Oneofs.text_all os v.2)
    refine Iff.trans ?_ this
    show (_ → (fs.hasText v.1 || os.hasText v.2) = false) ↔ _
    rw [Bool.or_eq_false_iff]
    exact ⟨fun h => h (.inl rfl), fun h _ => h⟩
theorem Fields.text_all : ∀ (fs : Fields) (v : fs.Val), fs.hasText v = false ↔ fs.All ElemTy.leafEmpty v
  | .nil, _ => ⟨fun _ => trivial, fun _ => rfl⟩
  | .plain _ t rest, v => by
    show (t.hasText v.1 || rest.hasText v.2) = false ↔ _
    rw [Bool.or_eq_false_iff]
    refine and_congr (Iff.trans ?_ (ElemTy.text_all t .plain v.1)) (Fields.text_all rest v.2)
    exact ⟨fun h _ => h, fun h => h (.inr nofun)⟩
  | .optional _ t rest, v => by
    show (v.1.any t.hasText || rest.hasText v.2) = false ↔ _
    rw [Bool.or_eq_false_iff, opt_any_false]
    refine and_congr (forall_congr' fun x => imp_congr_right fun _ => Iff.trans ?_ (ElemTy.text_all t .present x))
      (Fields.text_all rest v.2)
    exact ⟨fun h _ => h, fun h => h (.inr nofun)⟩
  | .repeated _ _ t rest, v => by
    show ((t.isMsg && v.1.any t.hasText) || rest.hasText v.2) = false ↔ _
    rw [Bool.or_eq_false_iff]
    refine and_congr ?_ (Fields.text_all rest v.2)
    have : (∀ x ∈ v.1, t.All ElemTy.leafEmpty .element x) ↔ ∀ x ∈ v.1, t.isMsg = true → t.hasText x = false :=
      forall_congr' fun x => imp_congr_right fun _ => (ElemTy.text_all t .element x).symm.trans
        ⟨fun h hm => h (.inl hm), fun h hm => hm.elim h fun h => absurd rfl h⟩
    refine Iff.trans ?_ this.symm
    cases t.isMsg with
    | false => exact ⟨fun _ _ _ h => (nomatch h), fun _ => rfl⟩
    | true =>
      rw [Bool.true_and, List.any_eq_false]
      exact ⟨fun h x hx _ => by simpa using h x hx, fun h x hx => by simpa using h x hx rfl⟩
theorem Alts.text_all : ∀ (a : Alts) (v : a.Val), a.hasText v = false ↔ a.All ElemTy.leafEmpty v
  | .cons _ t _, .inl x => by
    refine Iff.trans ?_ (ElemTy.text_all t .present x)
    exact ⟨fun h _ => h, fun h => h (.inr nofun)⟩
  | .cons _ _ rest, .inr y => Alts.text_all rest y
theorem Oneofs.text_all : ∀ (os : Oneofs) (v : os.Val), os.hasText v = false ↔ os.All ElemTy.leafEmpty v
  | .nil, _ => ⟨fun _ => trivial, fun _ => rfl⟩
  | .cons a rest, v => by
    show (v.1.any a.hasText || rest.hasText v.2) = false ↔ _
    rw [Bool.or_eq_false_iff, opt_any_false]
    exact and_congr (forall_congr' fun x => imp_congr_right fun _ => Alts.text_all a x) (Oneofs.text_all rest v.2)
end

/-! ## The places where they can be missing -/

theorem zero_leaves : Leaves ZeroPlace ElemTy.leafZero := by
  intro p t ht
  cases t with
  | msg => exact nomatch ht
  | str => exact ⟨fun _ _ _ => by cases p <;> trivial, fun _ _ => ⟨nofun, nofun⟩⟩
  | scalar s =>
    cases p with
    | present => exact ⟨fun _ _ _ => trivial, fun _ => nofun⟩
    | element => exact ⟨fun _ _ _ => trivial, fun _ => nofun⟩
    | plain =>
      constructor
      · intro h v _ e
        cases s with
        | floatfixed => exact (h rfl).1 rfl
        | doublefixed => exact (h rfl).2 rfl
        | _ => exact nomatch e
      · intro h _
        constructor
        · intro e
          injection e with e
          subst e
          exact h _ trivial rfl
        · intro e
          injection e with e
          subst e
          exact h _ trivial rfl

theorem sign_leaves : Leaves SignPlace ElemTy.leafNonNeg := by
  intro p t ht
  cases t with
  | msg => exact nomatch ht
  | str => exact ⟨fun _ _ _ => by cases p <;> trivial, fun _ => ⟨nofun, nofun⟩⟩
  | scalar s =>
    constructor
    · intro h v _
      cases s with
      | int32 => exact absurd rfl h.1
      | enumeration => exact absurd rfl h.2
      | _ => cases p <;> trivial
    · intro h
      constructor
      · intro e
        injection e with e
        subst e
        have : 0 ≤ (0x80000000#32).toInt := by cases p <;> exact h 0x80000000#32 trivial
        exact absurd this (by decide)
      · intro e
        injection e with e
        subst e
        have : 0 ≤ (0x80000000#32).toInt := by cases p <;> exact h 0x80000000#32 trivial
        exact absurd this (by decide)

theorem text_leaves : Leaves TextPlace ElemTy.leafEmpty := by
  intro p t ht
  cases t with
  | msg => exact nomatch ht
  | scalar => exact ⟨fun _ _ _ => by cases p <;> trivial, fun _ _ _ => nofun⟩
  | str cap =>
    have key : (cap = 0) ↔ ∀ v : List Byte, v.length ≤ cap → v.length = 0 := by
      constructor
      · intro h v hv
        omega
      · intro h
        have := h (List.replicate cap 0) (by simp)
        simpa using this
    cases p with
    | plain => exact ⟨fun h => key.mp (h nofun cap rfl), fun h _ _ e => by injection e with e; exact e ▸ key.mpr h⟩
    | present => exact ⟨fun h => key.mp (h nofun cap rfl), fun h _ _ e => by injection e with e; exact e ▸ key.mpr h⟩
    | element => exact ⟨fun _ _ _ => trivial, fun _ h => absurd rfl h⟩

end EP
