import Verif.Props.Decode
import Verif.Proof.Syntax
import Verif.Proof.SyntaxEnc

/-!
# Decoding well formed messages: C40, C45, C54

`T` is any well formed declaration `message { fs os }`, `x` any object of it a program can have, and
`bs` any well formed message (`Spec/Syntax.lean`), whether or not it fits into the arrays of `x`.
-/

namespace EP
open Spec

section
variable {β : Type} [ReadBuffer β] (M : ReadModel β) (fs : Fields) (os : Oneofs)
local notation "T" => ElemTy.msg fs os

/-! ## C54 -/

/-- **C54**.  Decoding a well formed message ends, with `NO_ERRORS` and the whole input consumed, or
with `ARRAY_FULL`. -/
theorem C54_wellFormed (x : (T).Obj) (b : β) (fuel : Nat) (h : (T).WF) (hx : (T).Reach x) (hb : M.Inv b)
    (hw : WellFormed fs os (M.view b)) (hf : (M.view b).length < fuel) :
    ∃ e b' y, (T).cls.deserialize fuel b x = .ok (e, b', y) ∧
      (e = .noErrors ∧ M.view b' = [] ∨ e = .arrayFull) ∧ M.Inv b' ∧ (T).Fits ((T).abs y) := by
  obtain ⟨e, y, he, hy, hall⟩ := decode_wellFormed fs os h hw x (ElemTy.reach_inv _ h hx)
  obtain ⟨b', q1, q2, q3⟩ := hall β M fuel b hb rfl hf
  refine ⟨e, b', y, q1, ?_, q2, ElemTy.fits_abs _ _ hy⟩
  rcases he with he | he
  · exact Or.inl ⟨he, q3 he⟩
  · exact Or.inr he

/-- **C54** for encodings, of any value: the sender may have longer arrays than the receiver. -/
theorem C54_encodings (x : (T).Obj) (v : (T).Val) (b : β) (fuel : Nat) (h : (T).WF) (hx : (T).Reach x)
    (hb : M.Inv b) (hv : M.view b = (T).encode v) (hf : (M.view b).length < fuel) :
    ∃ e b' y, (T).cls.deserialize fuel b x = .ok (e, b', y) ∧
      (e = .noErrors ∧ M.view b' = [] ∨ e = .arrayFull) ∧ M.Inv b' ∧ (T).Fits ((T).abs y) := by
  have l := M.view_lt b hb
  exact C54_wellFormed M fs os x b fuel h hx hb
    (by rw [hv] at l ⊢; exact encode_wellFormed readable_enc fs os h v l) hf

/-! ## C40 -/

/-- **C40**.  Decoding the concatenation of two well formed messages: the first is decoded with some
result `e₁` and object `y`.  If `e₁` is `NO_ERRORS`, decoding the second into `y` and decoding the
concatenation into the original object have the same result and leave the same object.  Otherwise
decoding the concatenation has result `e₁` and leaves `y`. -/
theorem C40_concat {β₁ β₂ : Type} [ReadBuffer β₁] [ReadBuffer β₂] (M₁ : ReadModel β₁) (M₂ : ReadModel β₂)
    (x : (T).Obj) (b₁ : β₁) (b₂ : β₂) (b₁₂ : β) (fuel : Nat) (h : (T).WF) (hx : (T).Reach x)
    (h₁ : M₁.Inv b₁) (h₂ : M₂.Inv b₂) (h₁₂ : M.Inv b₁₂) (hw₁ : WellFormed fs os (M₁.view b₁))
    (hw₂ : WellFormed fs os (M₂.view b₂)) (hv : M.view b₁₂ = M₁.view b₁ ++ M₂.view b₂)
    (hf : (M.view b₁₂).length < fuel) :
    ∃ e₁ c₁ y, (T).cls.deserialize fuel b₁ x = .ok (e₁, c₁, y) ∧
      (e₁ = .noErrors → ∃ e c₂ c₁₂ z, (T).cls.deserialize fuel b₂ y = .ok (e, c₂, z) ∧
        (T).cls.deserialize fuel b₁₂ x = .ok (e, c₁₂, z)) ∧
      (e₁ ≠ .noErrors → ∃ c₁₂, (T).cls.deserialize fuel b₁₂ x = .ok (e₁, c₁₂, y)) := by
  rw [hv, List.length_append] at hf
  obtain ⟨e₁, y, he₁, hy, hs₁⟩ := stream_wellFormed fs os h hw₁ x (ElemTy.reach_inv _ h hx)
  obtain ⟨c₁, q1, _⟩ := hs₁.body he₁ M₁ fuel fuel b₁ h₁ rfl (by omega) (by omega)
  obtain ⟨e₂, z, he₂, hz, hs₂⟩ := stream_wellFormed fs os h hw₂ y hy
  obtain ⟨c₂, q2, _⟩ := hs₂.body he₂ M₂ fuel fuel b₂ h₂ rfl (by omega) (by omega)
  have hs := hs₁.append hs₂
  have hfine : Fine (if e₁ = .noErrors then e₂ else e₁) := by split <;> assumption
  obtain ⟨c₁₂, q3, _⟩ := hs.body hfine M fuel fuel b₁₂ h₁₂ hv (by simp; omega) (by simp; omega)
  refine ⟨e₁, c₁, y, q1, fun he => ?_, fun he => ?_⟩
  · rw [if_pos he, if_pos he] at q3
    exact ⟨e₂, c₂, c₁₂, z, q2, q3⟩
  · rw [if_neg he, if_neg he] at q3
    exact ⟨c₁₂, q3⟩

/-- **C40** for the encodings of any two values. -/
theorem C40_concat_encodings {β₁ β₂ : Type} [ReadBuffer β₁] [ReadBuffer β₂] (M₁ : ReadModel β₁)
    (M₂ : ReadModel β₂) (x : (T).Obj) (u v : (T).Val) (b₁ : β₁) (b₂ : β₂) (b₁₂ : β) (fuel : Nat)
    (h : (T).WF) (hx : (T).Reach x) (h₁ : M₁.Inv b₁) (h₂ : M₂.Inv b₂) (h₁₂ : M.Inv b₁₂)
    (hv₁ : M₁.view b₁ = (T).encode u) (hv₂ : M₂.view b₂ = (T).encode v)
    (hv : M.view b₁₂ = (T).encode u ++ (T).encode v) (hf : (M.view b₁₂).length < fuel) :
    ∃ e₁ c₁ y, (T).cls.deserialize fuel b₁ x = .ok (e₁, c₁, y) ∧
      (e₁ = .noErrors → ∃ e c₂ c₁₂ z, (T).cls.deserialize fuel b₂ y = .ok (e, c₂, z) ∧
        (T).cls.deserialize fuel b₁₂ x = .ok (e, c₁₂, z)) ∧
      (e₁ ≠ .noErrors → ∃ c₁₂, (T).cls.deserialize fuel b₁₂ x = .ok (e₁, c₁₂, y)) := by
  have l₁ := M₁.view_lt b₁ h₁
  have l₂ := M₂.view_lt b₂ h₂
  exact C40_concat M fs os M₁ M₂ x b₁ b₂ b₁₂ fuel h hx h₁ h₂ h₁₂
    (by rw [hv₁] at l₁ ⊢; exact encode_wellFormed readable_enc fs os h u l₁)
    (by rw [hv₂] at l₂ ⊢; exact encode_wellFormed readable_enc fs os h v l₂)
    (by rw [hv, hv₁, hv₂]) hf

/-! ## C45 -/

/-- **C45**.  For a well formed message, the error code and the object are the same for any two buffers
holding it (and any two amounts of fuel large enough). -/
theorem C45_buffers {β₂ : Type} [ReadBuffer β₂] (M₂ : ReadModel β₂) (x : (T).Obj) (b₁ : β) (b₂ : β₂)
    (fuel₁ fuel₂ : Nat) (h : (T).WF) (hx : (T).Reach x) (h₁ : M.Inv b₁) (h₂ : M₂.Inv b₂)
    (hv : M.view b₁ = M₂.view b₂) (hw : WellFormed fs os (M.view b₁))
    (hf₁ : (M.view b₁).length < fuel₁) (hf₂ : (M.view b₁).length < fuel₂) :
    ∃ e c₁ c₂ y, (T).cls.deserialize fuel₁ b₁ x = .ok (e, c₁, y) ∧
      (T).cls.deserialize fuel₂ b₂ x = .ok (e, c₂, y) ∧ (e = .noErrors → M.view c₁ = [] ∧ M₂.view c₂ = []) := by
  obtain ⟨e, y, he, hy, hall⟩ := decode_wellFormed fs os h hw x (ElemTy.reach_inv _ h hx)
  obtain ⟨c₁, q1, _, q3⟩ := hall β M fuel₁ b₁ h₁ rfl hf₁
  obtain ⟨c₂, r1, _, r3⟩ := hall β₂ M₂ fuel₂ b₂ h₂ hv.symm hf₂
  exact ⟨e, c₁, c₂, y, q1, r1, fun he => ⟨q3 he, r3 he⟩⟩

end

/-! ## Examples -/

/-- The encoding of the sample value is a well formed message. -/
example : ∃ fs os, Sample.outer = .msg fs os ∧ WellFormed fs os (Sample.outer.encode Sample.value) :=
  ⟨_, _, rfl, encode_wellFormed readable_enc _ _ Sample.outer_wf Sample.value (by decide +kernel)⟩

/-- `message { repeated int32 a = 1 [maxLength = 2]; string b = 2 [maxLength = 1]; }` -/
abbrev smallArrays : ElemTy := .msg (.repeated 1 2 (.scalar .int32) (.plain 2 (.str 1) .nil)) .nil

theorem smallArrays_wf : smallArrays.WF := by
  simp [ElemTy.WF, Fields.WF, Oneofs.WF, Fields.numbers, Oneofs.numbers]

/-- `{a = [1, 2, 3], b = ""}` does not fit; its encoding is well formed, and is refused with
`ARRAY_FULL`. -/
example : ∃ v : smallArrays.Val, ¬ smallArrays.Fits v ∧
    WellFormed (.repeated 1 2 (.scalar .int32) (.plain 2 (.str 1) .nil)) .nil (smallArrays.encode v) ∧
    ∃ b' y, smallArrays.cls.deserialize 9 (ReadFixed.holding 8 (smallArrays.encode v)) smallArrays.cls.init =
      .ok (.arrayFull, b', y) :=
  ⟨(([1#32, 2#32, 3#32], [], ()), ()),
    fun hf => absurd hf.1.1.1 (by decide),
    encode_wellFormed readable_enc _ _ smallArrays_wf _ (by decide +kernel),
    by
      have e : smallArrays.encode (([1#32, 2#32, 3#32], [], ()), ()) = [0x0A, 3, 1, 2, 3] := by
        decide +kernel
      rw [e]
      exact ⟨_, _, rfl⟩⟩

end EP
