import Verif.Spec.Standard
import Verif.Proof.SpecMerge
import Verif.Proof.WireExtra

/-!
# Encodings of scalars that agree on a value
-/

namespace EP
open Spec

section
set_option linter.unusedSectionVars false
variable {P : (s : ScalarTy) → s.Val → Prop} {sc sc' : (s : ScalarTy) → s.Val → List Byte}
  (hp : ∀ s v, P s v → sc s v = sc' s v)
include hp

mutual
theorem ElemTy.encodeWith_congr : (t : ElemTy) → (v : t.Val) → t.AllScalars P v → t.encodeWith sc v = t.encodeWith sc' v
  | .scalar s, v, h => by
    simp only [ElemTy.AllScalars] at h
    exact hp s v h
  | .str _, v, h => rfl
  | .msg fs os, v, h => by
    simp only [ElemTy.AllScalars] at h
    simp only [ElemTy.encodeWith, Fields.encodeWith_congr fs v.1 h.1, Oneofs.encodeWith_congr os v.2 h.2]
theorem Fields.encodeWith_congr : (fs : Fields) → (v : fs.Val) → fs.AllScalars P v →
    fs.encodeWith sc v = fs.encodeWith sc' v
  | .nil, v, h => rfl
  | .plain num t rest, v, h => by
    simp only [Fields.AllScalars] at h
    simp only [Fields.encodeWith, ElemTy.encodeWith_congr t v.1 h.1, Fields.encodeWith_congr rest v.2 h.2]
  | .optional num t rest, ⟨none, v⟩, h => by
    simp only [Fields.AllScalars] at h
    simp only [Fields.encodeWith, Fields.encodeWith_congr rest v h.2]
  | .optional num t rest, ⟨some x, v⟩, h => by
    simp only [Fields.AllScalars] at h
    simp only [Fields.encodeWith, ElemTy.encodeWith_congr t x (h.1 x rfl), Fields.encodeWith_congr rest v h.2]
  | .repeated num cap t rest, v, h => by
    simp only [Fields.AllScalars] at h
    simp only [Fields.encodeWith, Fields.encodeWith_congr rest v.2 h.2]
    rw [List.map_congr_left (fun x hx => ElemTy.encodeWith_congr t x (h.1 x hx))]
theorem Alts.encodeWith_congr : (a : Alts) → (v : a.Val) → a.AllScalars P v → a.encodeWith sc v = a.encodeWith sc' v
  | .nil, v, h => rfl
  | .cons num t rest, .inl x, h => by
    simp only [Alts.AllScalars] at h
    simp only [Alts.encodeWith, ElemTy.encodeWith_congr t x h]
  | .cons num t rest, .inr y, h => by
    simp only [Alts.AllScalars] at h
    simp only [Alts.encodeWith, Alts.encodeWith_congr rest y h]
theorem Oneofs.encodeWith_congr : (os : Oneofs) → (v : os.Val) → os.AllScalars P v →
    os.encodeWith sc v = os.encodeWith sc' v
  | .nil, v, h => rfl
  | .cons a rest, ⟨none, v⟩, h => by
    simp only [Oneofs.AllScalars] at h
    simp only [Oneofs.encodeWith, Oneofs.encodeWith_congr rest v h.2]
  | .cons a rest, ⟨some x, v⟩, h => by
    simp only [Oneofs.AllScalars] at h
    simp only [Oneofs.encodeWith, Alts.encodeWith_congr a x (h.1 x rfl), Oneofs.encodeWith_congr rest v h.2]
end
end

/-- The standard encoding, with enums as this library writes them. -/
def ScalarTy.encEnum5 (s : ScalarTy) (v : s.Val) : List Byte := if s = .enumeration then s.enc v else s.encStandard v

theorem readable_encEnum5 : Readable ScalarTy.encEnum5 := by
  intro s v
  unfold ScalarTy.encEnum5
  split
  · exact readable_enc s v
  · rename_i h
    cases s <;> first
      | exact absurd rfl h
      | exact readable_enc _ v
      | skip
    exact payload_signExtend v

theorem encEnum5_eq (s : ScalarTy) (v : s.Val) (h : s.NonNegEnum v) : s.encStandard v = s.encEnum5 v := by
  unfold ScalarTy.encEnum5
  split
  · rename_i hs
    subst hs
    exact ScalarTy.encStandard_eq _ v h
  · rfl

end EP
