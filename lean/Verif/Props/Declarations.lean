import Verif.Proof.Places
import Verif.Proof.TextPlaces
import Verif.Proof.EnumPlaces
import Verif.Props.Interop
import Verif.Props.Exact
import Verif.Props.Alias
import Verif.Props.Values

/-!
# For which declarations: C13, C16, C17, C34, C61 and C65

`Props/Exact.lean`, `C16_exactly`, `C61_iff_partial` and `C65_exact` say for which values these claims hold.  By C98 an object can hold every value within its
lengths, so the declarations for which they hold of every object are those without a place for one of the other values.
-/

namespace EP
open Spec

section
variable (fs : Fields) (os : Oneofs)
local notation "T" => ElemTy.msg fs os

/-- An object with a given value, and its encoding in a buffer of the largest size. -/
theorem exists_serialized (h : (T).WF) (hm : (T).maxLen < 2 ^ 31 - 1) (v : (T).Val) (hv : (T).Fits v) :
    ∃ x w, (T).Reach x ∧ (T).abs x = v ∧ ((T).encode ((T).canon v)).length < 2 ^ 31 ∧
      (T).cls.serialize x (WriteFixed.new (2 ^ 31 - 1)) = .ok (.noErrors, w) := by
  obtain ⟨x, hx, rfl⟩ := (C98_values h v).mpr hv
  have hl := Nat.lt_of_le_of_lt ((T).encode_maxLen _ ((T).fits_canon _ hv)) hm
  have hn := C14_size_of_encoding fs os x h hx (by omega)
  have hw := WriteFixed.new_rep (2 ^ 31 - 1) (by decide)
  obtain ⟨e, w, h1, _, h3⟩ := C16_exactly fs os x _ _ _ _ h hx hw (by omega) hn
  have he : e = .noErrors := by
    refine h3.mpr ?_
    have : WriteBuffer.getAvailableSize (WriteFixed.new (2 ^ 31 - 1)) = 2 ^ 31 - 1 := rfl
    rw [this]
    split <;> omega
  subst he
  exact ⟨x, w, hx, rfl, by omega, h1⟩

theorem lt_of_maxLen (h : (T).WF) (hm : (T).maxLen < 2 ^ 31 - 1) {x : (T).Obj} (hx : (T).Reach x) :
    ((T).encode ((T).canon ((T).abs x))).length < 2 ^ 32 := by
  have := (T).encode_maxLen _ ((T).fits_canon _ ((T).fits_abs x (ElemTy.reach_inv T h hx)))
  omega

/-- The declarations of which no value has `-0.0` in a field without presence. -/
theorem noNegZero_places : (∀ v, (T).Fits v → (T).NoNegZero v) ↔ (T).Every ZeroPlace .plain := by
  refine Iff.trans (forall_congr' fun v => imp_congr_right fun _ => ?_) ((T).every_iff zero_leaves .plain)
  exact Iff.trans ⟨fun h => ⟨fun _ => trivial, h⟩, fun h => h.2⟩ ((T).noNegZero_all .plain v)

/-- **C13**, the declarations: all objects are written as by a standard encoder if and only if there is no place for an `int32`
or an enum, and no `float` or `double` without presence. -/
theorem C13_declarations (h : (T).WF) (hm : (T).maxLen < 2 ^ 31 - 1) :
    (∀ x cap w, (T).Reach x → cap < 2 ^ 31 → (T).cls.serialize x (WriteFixed.new cap) = .ok (.noErrors, w) →
      w.bytes = (T).encodeStandard ((T).abs x)) ↔ (T).Every SignPlace .plain ∧ (T).Every ZeroPlace .plain := by
  have hs : (∀ v, (T).Fits v → (T).NonNeg v) ↔ (T).Every SignPlace .plain :=
    Iff.trans (forall_congr' fun v => imp_congr_right fun _ => (T).nonNeg_all .plain v) ((T).every_iff sign_leaves .plain)
  rw [← hs, ← noNegZero_places]
  constructor
  · intro hx
    have key : ∀ v, (T).Fits v → (T).NonNeg v ∧ (T).NoNegZero v := by
      intro v hv
      obtain ⟨x, w, hr, rfl, hl, e⟩ := exists_serialized fs os h hm v hv
      exact (C13_standard_iff fs os x _ w h hr (by decide) (by omega) e).mp (hx x _ w hr (by decide) e)
    exact ⟨fun v hv => (key v hv).1, fun v hv => (key v hv).2⟩
  · rintro ⟨h1, h2⟩ x cap w hr hc e
    have hv := (T).fits_abs x (ElemTy.reach_inv T h hr)
    exact (C13_standard_iff fs os x cap w h hr hc (lt_of_maxLen fs os h hm hr) e).mpr ⟨h1 _ hv, h2 _ hv⟩

/-- **C16**, the declarations: every object fits in a buffer of its size if and only if there is no place for a string that can
hold anything. -/
theorem C16_declarations (h : (T).WF) (hm : (T).maxLen < 2 ^ 31) : C16_Statement fs os ↔ (T).Every RoomPlace .plain := by
  constructor
  · intro hx
    refine (T).every_of_noText .plain fun v hv => ?_
    obtain ⟨x, hr, rfl⟩ := (C98_values h v).mpr hv
    have hl := Nat.lt_of_le_of_lt ((T).encode_maxLen _ ((T).fits_canon _ hv)) hm
    have hn := C14_size_of_encoding fs os x h hr (by omega)
    have hw := WriteFixed.new_rep ((T).encode ((T).canon ((T).abs x))).length hl
    have ha : WriteBuffer.getAvailableSize (WriteFixed.new ((T).encode ((T).canon ((T).abs x))).length) =
      ((T).encode ((T).canon ((T).abs x))).length := by
      obtain ⟨r1, r2, r3, r4, r5⟩ := hw
      exact (u32sub_of_le r2 (by omega)).trans r5.symm
    obtain ⟨w', hs⟩ := hx x _ _ _ _ h hr hw hn (by omega) (Nat.le_of_eq ha.symm)
    obtain ⟨e, w, h1, _, h3⟩ := C16_exactly fs os x _ _ _ _ h hr hw (by omega) hn
    rw [hs] at h1
    cases h1
    have h3 := h3.mp rfl
    rw [ha] at h3
    cases ht : (T).endsInText ((T).canon ((T).abs x)) with
    | false => rfl
    | true =>
      rw [if_pos ht] at h3
      exact absurd h3 (Nat.lt_irrefl _)
  · intro hs x w c room n _ hr hw hn hl hf
    obtain ⟨e, w', h1, _, h3⟩ := C16_exactly fs os x w c room n h hr hw hl hn
    have ht := (T).noText_of_every .plain hs _ ((T).fits_canon _ ((T).fits_abs x (ElemTy.reach_inv T h hr)))
    have he : e = .noErrors := h3.mpr (by rw [ht]; exact hf)
    subst he
    exact ⟨w', h1⟩

/-- **C17**, the declarations: every object comes back as it was if and only if there is no `float` or `double` without
presence. -/
theorem C17_declarations (h : (T).WF) (hm : (T).maxLen < 2 ^ 31 - 1) :
    (∀ x cap w, (T).Reach x → cap < 2 ^ 31 → (T).cls.serialize x (WriteFixed.new cap) = .ok (.noErrors, w) →
      ∀ (β : Type) [ReadBuffer β] (M : ReadModel β) (b : β) (fuel : Nat), M.Inv b → M.view b = w.bytes →
        w.bytes.length < fuel → ∃ b' z, (T).cls.deserialize fuel b (T).cls.init = .ok (.noErrors, b', z) ∧
          (T).abs z = (T).abs x) ↔ (T).Every ZeroPlace .plain := by
  rw [← noNegZero_places]
  have key : ∀ x cap w, (T).Reach x → cap < 2 ^ 31 → (T).cls.serialize x (WriteFixed.new cap) = .ok (.noErrors, w) →
      ∀ (β : Type) [ReadBuffer β] (M : ReadModel β) (b : β) (fuel : Nat), M.Inv b → M.view b = w.bytes →
        w.bytes.length < fuel → ∃ b' z, (T).cls.deserialize fuel b (T).cls.init = .ok (.noErrors, b', z) ∧
          ((T).abs z = (T).abs x ↔ (T).NoNegZero ((T).abs x)) := by
    intro x cap w hr hc e β _ M b fuel hb hv hf
    obtain ⟨bs, room', h1, h2⟩ := C17_exact_iff WriteFixed.model fs os x _ _ w _ _ h hr (Or.inl rfl)
      (WriteFixed.new_rep cap hc) (lt_of_maxLen fs os h hm hr) e
    have hbs : w.bytes = bs := by simpa using h1.2.2.2.1
    obtain ⟨b', z, h3, _, h4⟩ := h2 β M b fuel hb (hv.trans hbs) (hbs ▸ hf)
    exact ⟨b', z, h3, h4⟩
  constructor
  · intro hx v hv
    obtain ⟨x, w, hr, rfl, hl, e⟩ := exists_serialized fs os h hm v hv
    have hw := serialized_bytes fs os x _ w h hr (by decide) (by omega) e
    have hlen : w.bytes.length < 2 ^ 32 := by rw [hw]; omega
    have hb := ReadFixed.holding_inv w.bytes.length hlen w.bytes (Nat.le_refl _)
    have hview := ReadFixed.holding_view w.bytes.length hlen w.bytes
    obtain ⟨b1, z1, e1, i1⟩ := key x _ w hr (by decide) e _ (ReadFixed.model _ hlen) _ (w.bytes.length + 1) hb hview (by omega)
    obtain ⟨b2, z2, e2, i2⟩ := hx x _ w hr (by decide) e _ (ReadFixed.model _ hlen) _ (w.bytes.length + 1) hb hview (by omega)
    rw [e1] at e2
    cases e2
    exact i1.mp i2
  · intro hz x cap w hr hc e β _ M b fuel hb hv hf
    obtain ⟨b', z, h1, h2⟩ := key x cap w hr hc e β M b fuel hb hv hf
    exact ⟨b', z, h1, h2.mpr (hz _ ((T).fits_abs x (ElemTy.reach_inv T h hr)))⟩

/-- **C34**, the declarations: different values always have different encodings if and only if there is no `float` or `double`
without presence. -/
theorem C34_declarations (h : (T).WF) (hm : (T).maxLen < 2 ^ 31 - 1) :
    (∀ x y cap wx wy, (T).Reach x → (T).Reach y → cap < 2 ^ 31 →
      (T).cls.serialize x (WriteFixed.new cap) = .ok (.noErrors, wx) →
      (T).cls.serialize y (WriteFixed.new cap) = .ok (.noErrors, wy) →
      wx.bytes = wy.bytes → (T).abs x = (T).abs y) ↔ (T).Every ZeroPlace .plain := by
  rw [← noNegZero_places]
  constructor
  · intro hxy v hv
    obtain ⟨x, wx, hx, ex, lx, sx⟩ := exists_serialized fs os h hm v hv
    obtain ⟨y, wy, hy, ey, ly, sy⟩ := exists_serialized fs os h hm _ ((T).fits_canon v hv)
    have := hxy x y _ wx wy hx hy (by decide) sx sy ((C34_injective_iff fs os x y _ wx wy h hx hy (by decide)
      (by rw [ex]; omega) (by rw [ey]; omega) sx sy).mpr (by rw [ex, ey, (T).canon_idem]))
    rw [ex, ey] at this
    exact ((T).canon_iff v).mp this.symm
  · intro hz x y cap wx wy hx hy hc sx sy e
    exact (C34_exact_partial fs os x y cap wx wy h hx hy hc (lt_of_maxLen fs os h hm hx) (lt_of_maxLen fs os h hm hy)
      (hz _ ((T).fits_abs x (ElemTy.reach_inv T h hx))) (hz _ ((T).fits_abs y (ElemTy.reach_inv T h hy))) sx sy).mp e

/-- **C61**, the declarations: everything a standard encoder writes is understood if and only if there is no place for an enum.
(A declaration with enums can be used with standard encoders as long as all numbers in use are non-negative.) -/
theorem C61_declarations (h : (T).WF) (hm : (T).maxLen < 2 ^ 31) : C61_Statement fs os ↔ (T).Every EnumPlace .plain := by
  have he : (∀ v, (T).Fits v → (T).AllScalars ScalarTy.NonNegEnum v) ↔ (T).Every EnumPlace .plain :=
    Iff.trans (forall_congr' fun v => imp_congr_right fun _ => (T).enum_all .plain v) ((T).every_iff enum_leaves .plain)
  rw [← he]
  constructor
  · intro hx v hv
    have hl := (T).encodeStandard_maxLen v hv
    have hlen : ((T).encodeStandard v).length < 2 ^ 32 := by omega
    have hb := ReadFixed.holding_inv _ hlen ((T).encodeStandard v) (Nat.le_refl _)
    have hview := ReadFixed.holding_view _ hlen ((T).encodeStandard v)
    exact (C61_iff_partial (ReadFixed.model _ hlen) fs os v (T).cls.init _ _ h (Or.inl rfl) hv hb hview
      (Nat.lt_succ_self _)).mp (hx _ (ReadFixed.model _ hlen) v _ _ _ h (Or.inl rfl) hv hb hview (Nat.lt_succ_self _))
  · intro hz β _ M v y b fuel _ hy hv hb hview hf
    exact (C61_iff_partial M fs os v y b fuel h hy hv hb hview hf).mpr (hz v hv)

/-- **C65**, the declarations: assigning an object to itself is always defined if and only if there is no place for a string
that can hold anything, outside arrays of strings. -/
theorem C65_declarations (h : (T).WF) :
    (∀ x, (T).Reach x → (T).selfAssign x ≠ .ub) ↔ (T).Every TextPlace .plain := by
  have ht : (∀ v, (T).Fits v → (T).hasText v = false) ↔ (T).Every TextPlace .plain := by
    refine Iff.trans (forall_congr' fun v => imp_congr_right fun _ => ?_) ((T).every_iff text_leaves .plain)
    exact Iff.trans ⟨fun h _ => h, fun h => h (.inl rfl)⟩ ((T).text_all .plain v)
  rw [← ht]
  constructor
  · intro hx v hv
    obtain ⟨x, hr, rfl⟩ := (C98_values h v).mpr hv
    have e := C65_exact T x h hr
    cases hb : (T).hasText ((T).abs x) with
    | false => rfl
    | true =>
      rw [if_pos ⟨rfl, hb⟩] at e
      exact absurd e (hx x hr)
  · intro hf x hr
    rw [C65_exact T x h hr, if_neg (by rw [hf _ ((T).fits_abs x (ElemTy.reach_inv T h hr))]; exact fun h => nomatch h.2)]
    exact nofun

end

/-! ## Examples -/

namespace DeclarationsExample

/-- `optional float a = 1; repeated double b = 2; sint32 c = 3; repeated string d = 4; oneof o { uint32 e = 5; }` -/
def fields : Fields := .optional 1 (.scalar .floatfixed) (.repeated 2 3 (.scalar .doublefixed) (.plain 3 (.scalar .sint32)
  (.repeated 4 2 (.str 8) .nil)))
def oneofs : Oneofs := .cons (.cons 5 (.scalar .uint32) .nil) .nil

theorem wf : (ElemTy.msg fields oneofs).WF := by
  refine ⟨⟨trivial, by decide, trivial, trivial, by decide, ⟨by decide, by decide⟩, trivial⟩, ⟨⟨trivial, trivial⟩, trivial⟩, ?_, ?_⟩ <;>
    decide

theorem small : (ElemTy.msg fields oneofs).maxLen < 2 ^ 31 - 1 := by decide +kernel

example : (ElemTy.msg fields oneofs).Every SignPlace .plain ∧ (ElemTy.msg fields oneofs).Every ZeroPlace .plain ∧
    (ElemTy.msg fields oneofs).Every TextPlace .plain := by
  refine ⟨⟨⟨⟨nofun, nofun⟩, .inr ⟨nofun, nofun⟩, ⟨nofun, nofun⟩, .inr ⟨nofun, nofun⟩, trivial⟩, ⟨⟨nofun, nofun⟩, trivial⟩, trivial⟩,
    ⟨⟨nofun, .inr nofun, fun _ => ⟨nofun, nofun⟩, .inr nofun, trivial⟩, ⟨nofun, trivial⟩, trivial⟩,
    ⟨⟨fun _ _ => nofun, .inr fun _ _ => nofun, fun _ _ => nofun, .inr fun h => absurd rfl h, trivial⟩, ⟨fun _ _ => nofun, trivial⟩, trivial⟩⟩

/-- With `float a = 1;` the round trip is not always right, and an object with a string cannot always be assigned to itself. -/
example : ¬ (ElemTy.msg (.plain 1 (.scalar .floatfixed) .nil) .nil).Every ZeroPlace .plain ∧
    ¬ ∀ x, (ElemTy.msg (.plain 1 (.str 1) .nil) .nil).Reach x → (ElemTy.msg (.plain 1 (.str 1) .nil) .nil).selfAssign x ≠ .ub := by
  constructor
  · exact fun h => (h.1.1 rfl).1 rfl
  · intro h
    have hw : (ElemTy.msg (.plain 1 (.str 1) .nil) .nil).WF := by
      refine ⟨⟨⟨by decide, by decide⟩, trivial⟩, trivial, ?_, ?_⟩ <;> decide
    have := (C65_declarations _ _ hw).mp h
    exact absurd (this.1.1 nofun 1 rfl) (by decide)

/-- An array of strings, which has room for one: not every object fits in a buffer of its size.  Without room it does. -/
example : (¬ C16_Statement (.repeated 1 1 (.str 1) .nil) .nil) ∧ C16_Statement (.repeated 1 0 (.str 1) .nil) .nil := by
  constructor
  · intro h
    have hw : (ElemTy.msg (.repeated 1 1 (.str 1) .nil) .nil).WF := by
      refine ⟨⟨by decide, ⟨by decide, by decide⟩, trivial⟩, trivial, ?_, ?_⟩ <;> decide
    rcases ((C16_declarations _ _ hw (by decide +kernel)).mp h).1.1 with h | h
    · exact nomatch h
    · exact nomatch h 1 rfl
  · have hw : (ElemTy.msg (.repeated 1 0 (.str 1) .nil) .nil).WF := by
      refine ⟨⟨by decide, ⟨by decide, by decide⟩, trivial⟩, trivial, ?_, ?_⟩ <;> decide
    exact (C16_declarations _ _ hw (by decide +kernel)).mpr ⟨⟨.inl rfl, trivial⟩, trivial⟩

/-- The first declaration has no enum; `int32` is understood as well, but `repeated E e = 1;` is not, if there is room for one. -/
example : C61_Statement fields oneofs ∧ C61_Statement (.plain 1 (.scalar .int32) .nil) .nil ∧
    ¬ C61_Statement (.repeated 1 1 (.scalar .enumeration) .nil) .nil := by
  refine ⟨(C61_declarations _ _ wf (by decide +kernel)).mpr
    ⟨⟨nofun, .inr nofun, nofun, .inr nofun, trivial⟩, ⟨nofun, trivial⟩, trivial⟩, ?_, ?_⟩
  · have hw : (ElemTy.msg (.plain 1 (.scalar .int32) .nil) .nil).WF := by
      refine ⟨⟨trivial, trivial⟩, trivial, ?_, ?_⟩ <;> decide
    exact (C61_declarations _ _ hw (by decide +kernel)).mpr ⟨⟨nofun, trivial⟩, trivial⟩
  · intro h
    have hw : (ElemTy.msg (.repeated 1 1 (.scalar .enumeration) .nil) .nil).WF := by
      refine ⟨⟨by decide, trivial, trivial⟩, trivial, ?_, ?_⟩ <;> decide
    rcases ((C61_declarations _ _ hw (by decide +kernel)).mp h).1.1 with h | h
    · exact nomatch h
    · exact h rfl

end DeclarationsExample

end EP
