import Verif.Proof.Made
import Verif.Props.Size

/-!
# C98: the values that an object can hold
-/

namespace EP
open Spec

section
variable {fs : Fields} {os : Oneofs}

local notation "T" => ElemTy.msg fs os

/-- **C98**: the values that objects hold are exactly those within the maximum lengths of the declaration. -/
theorem C98_values (h : (T).WF) (v : (T).Val) : (∃ x, (T).Reach x ∧ (T).abs x = v) ↔ (T).Fits v := by
  constructor
  · rintro ⟨x, hx, rfl⟩
    exact (T).fits_abs x (ElemTy.reach_inv T h hx)
  · intro hv
    obtain ⟨x, hx, e⟩ := (T).made h v hv
    exact ⟨x, hx.reach, e⟩

/-- **C98**, with the setters only: every such value is that of an object made by setting its fields and adding to its arrays. -/
theorem C98_setters (h : (T).WF) (v : (T).Val) : (∃ x, Made T x ∧ (T).abs x = v) ↔ (T).Fits v := by
  constructor
  · rintro ⟨x, hx, rfl⟩
    exact (T).fits_abs x (ElemTy.reach_inv T h hx.reach)
  · exact (T).made h v

/-- **C98**, by receiving only: so is every value of which the encoding is shorter than 2^32 bytes. -/
theorem C98_received (h : (T).WF) (v : (T).Val) (hl : ((T).encode v).length < 2 ^ 32) (hv : (T).Fits v) :
    ∃ x, (T).Received x ∧ (T).abs x = v := by
  have hb := ReadFixed.holding_inv ((T).encode v).length hl ((T).encode v) (Nat.le_refl _)
  obtain ⟨b', z, h1, _, h3⟩ := decode_fresh fs os (ReadFixed.model _ hl) v (T).cls.init _ (((T).encode v).length + 1) h
    (Or.inl rfl) hv hb (ReadFixed.holding_view ..) (by omega)
  refine ⟨z, .step (R := fun _ => False) (f := fun x => ((T).cls.deserialize (((T).encode v).length + 1)
    (ReadFixed.holding ((T).encode v).length ((T).encode v)) x).object) (fun _ h => h.elim)
    (Or.inr ⟨⟨ReadFixed, ReadFixed.model _ hl, _, hb⟩, _, rfl⟩) .init ?_, h3⟩
  show ((T).cls.deserialize _ _ _).object = _
  rw [h1]
  rfl

end

/-! ## Examples -/

namespace C98Example

def fields : Fields := .plain 1 (.str 2) (.repeated 2 2 (.scalar .floatfixed) .nil)

theorem fields_wf : (ElemTy.msg fields .nil).WF := by
  refine ⟨⟨⟨by decide, by decide⟩, by decide, trivial, trivial⟩, trivial, ?_, ?_⟩ <;> decide

/-- Two values, the second of which has three elements for two places. -/
example : (∃ x, (ElemTy.msg fields .nil).Reach x ∧
      (ElemTy.msg fields .nil).abs x = (([0x61#8, 0x00#8], [0x80000000#32, 0x7F800000#32], ()), ())) ∧
    ¬ ∃ x, (ElemTy.msg fields .nil).Reach x ∧ (ElemTy.msg fields .nil).abs x = (([], [1#32, 2#32, 3#32], ()), ()) := by
  constructor
  · refine (C98_values fields_wf _).mpr ?_
    exact ⟨⟨show List.length [_, _] ≤ 2 from by decide, ⟨show List.length [_, _] ≤ 2 from by decide, fun _ _ => trivial⟩, trivial⟩,
      trivial⟩
  · intro h
    have := (C98_values fields_wf _).mp h
    exact absurd (show List.length [1#32, 2#32, 3#32] ≤ 2 from this.1.2.1.1) (by decide)

/-- The same value made with `set_s(…)`, `add_n(…)` and `add_n(…)`. -/
example : ∃ x, Made (.msg fields .nil) x ∧
    (ElemTy.msg fields .nil).abs x = (([0x61#8, 0x00#8], [0x80000000#32, 0x7F800000#32], ()), ()) :=
  (C98_setters fields_wf _).mpr
    ⟨⟨show List.length [_, _] ≤ 2 from by decide, ⟨show List.length [_, _] ≤ 2 from by decide, fun _ _ => trivial⟩, trivial⟩, trivial⟩

/-- And received. -/
example : ∃ x, (ElemTy.msg fields .nil).Received x ∧
    (ElemTy.msg fields .nil).abs x = (([0x61#8, 0x00#8], [0x80000000#32, 0x7F800000#32], ()), ()) :=
  C98_received fields_wf _ (by decide +kernel)
    ⟨⟨show List.length [_, _] ≤ 2 from by decide, ⟨show List.length [_, _] ≤ 2 from by decide, fun _ _ => trivial⟩, trivial⟩, trivial⟩

end C98Example

end EP
