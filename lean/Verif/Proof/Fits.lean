import Verif.Proof.ValueLemmas
import Verif.Spec.Observe

/-! # Objects hold values that fit; normalising `-0.0` -/

namespace EP
open Spec

/-! ## The value of an object fits -/

mutual
theorem ElemTy.fits_abs : (t : ElemTy) → (x : t.Obj) → t.Inv x → t.Fits (t.abs x)
  | .scalar _, _, _ => trivial
  | .str cap, x, h => by
    have h : StrObj.WF cap x := h
    show (StrObj.chars x).length ≤ cap
    simp only [StrObj.chars, List.length_take]
    have := h.2
    omega
  | .msg fs os, x, h => by
    obtain ⟨_, h1, h2⟩ := h
    exact ⟨Fields.fits_abs fs 0 _ _ h1, Oneofs.fits_abs os _ h2⟩
theorem Fields.fits_abs : (fs : Fields) → (idx : Nat) → (has : Nat → Bool) → (x : (fs.cls idx).State) →
    (fs.spec idx).Inv has x → fs.Fits ((fs.spec idx).abs has x)
  | .nil, _, _, _, _ => trivial
  | .plain _ t rest, idx, has, x, h => ⟨ElemTy.fits_abs t _ h.1, Fields.fits_abs rest idx has _ h.2⟩
  | .optional _ t rest, idx, has, x, h => by
    refine ⟨?_, Fields.fits_abs rest (idx + 1) has _ h.2⟩
    intro v hv
    have hv : (if has idx then some (t.abs x.1) else none) = some v := hv
    split at hv
    · cases hv; exact ElemTy.fits_abs t _ h.1.1
    · cases hv
  | .repeated _ cap t rest, idx, has, x, h => by
    refine ⟨⟨?_, ?_⟩, Fields.fits_abs rest idx has _ h.2⟩
    · obtain ⟨⟨_, h2, _⟩, _⟩ := h
      show ((RepObj.elems x.1).map t.abs).length ≤ cap
      simp only [RepObj.elems, List.length_map, List.length_take]
      exact Nat.le_trans (Nat.min_le_left _ _) h2
    · obtain ⟨⟨_, _, h3⟩, _⟩ := h
      intro v hv
      have hv : v ∈ (RepObj.elems x.1).map t.abs := hv
      obtain ⟨d, hd, rfl⟩ := List.mem_map.mp hv
      exact ElemTy.fits_abs t _ (h3 d (List.mem_of_mem_take hd))
theorem Alts.fits_abs : (a : Alts) → (x : a.cls.U) → a.spec.Inv x → a.Fits (a.spec.abs x)
  | .nil, x, _ => nomatch x
  | .cons _ t _, .inl x, h => ElemTy.fits_abs t x h
  | .cons _ _ rest, .inr x, h => Alts.fits_abs rest x h
theorem Oneofs.fits_abs : (os : Oneofs) → (x : os.cls.State) → os.spec.Inv x → os.Fits (os.spec.abs x)
  | .nil, _, _ => trivial
  | .cons a rest, x, h => by
    refine ⟨?_, Oneofs.fits_abs rest _ h.2⟩
    intro v hv
    obtain ⟨h1, _⟩ := h
    have hv : x.1.live.map a.spec.abs = some v := hv
    have h1 : a.spec.ObjInv x.1 := h1
    unfold AltsSpec.ObjInv at h1
    cases hl : x.1.live with
    | none => rw [hl] at hv; cases hv
    | some y =>
      rw [hl] at hv h1
      cases hv
      exact Alts.fits_abs a y h1.2
end

/-! ## `canon` -/

theorem ElemTy.fits_dropNegZero (t : ElemTy) (v : t.Val) (h : t.Fits v) : t.Fits (t.dropNegZero v) := by
  cases t <;> first | trivial | exact h

mutual
theorem ElemTy.fits_canon : (t : ElemTy) → (v : t.Val) → t.Fits v → t.Fits (t.canon v)
  | .scalar _, _, h => h
  | .str _, _, h => h
  | .msg fs os, v, h => ⟨Fields.fits_canon fs v.1 h.1, Oneofs.fits_canon os v.2 h.2⟩
theorem Fields.fits_canon : (fs : Fields) → (v : fs.Val) → fs.Fits v → fs.Fits (fs.canon v)
  | .nil, _, h => h
  | .plain _ t rest, v, h =>
    ⟨ElemTy.fits_dropNegZero t _ (ElemTy.fits_canon t v.1 h.1), Fields.fits_canon rest v.2 h.2⟩
  | .optional _ t rest, v, h => by
    refine ⟨?_, Fields.fits_canon rest v.2 h.2⟩
    intro x hx
    have hx : v.1.map t.canon = some x := hx
    obtain ⟨y, hy, rfl⟩ := Option.map_eq_some_iff.mp hx
    exact ElemTy.fits_canon t y (h.1 y hy)
  | .repeated _ cap t rest, v, h => by
    refine ⟨⟨?_, ?_⟩, Fields.fits_canon rest v.2 h.2⟩
    · show (v.1.map t.canon).length ≤ cap
      rw [List.length_map]; exact h.1.1
    · intro x hx
      have hx : x ∈ v.1.map t.canon := hx
      obtain ⟨y, hy, rfl⟩ := List.mem_map.mp hx
      exact ElemTy.fits_canon t y (h.1.2 y hy)
theorem Alts.fits_canon : (a : Alts) → (v : a.Val) → a.Fits v → a.Fits (a.canon v)
  | .nil, v, _ => nomatch v
  | .cons _ t _, .inl x, h => ElemTy.fits_canon t x h
  | .cons _ _ rest, .inr x, h => Alts.fits_canon rest x h
theorem Oneofs.fits_canon : (os : Oneofs) → (v : os.Val) → os.Fits v → os.Fits (os.canon v)
  | .nil, _, h => h
  | .cons a rest, v, h => by
    refine ⟨?_, Oneofs.fits_canon rest v.2 h.2⟩
    intro x hx
    have hx : v.1.map a.canon = some x := hx
    obtain ⟨y, hy, rfl⟩ := Option.map_eq_some_iff.mp hx
    exact Alts.fits_canon a y (h.1 y hy)
end

theorem ElemTy.fits_dflt_scalar (s : ScalarTy) (v : s.Val) : (ElemTy.scalar s).Fits v := trivial

mutual
theorem ElemTy.fits_dflt : (t : ElemTy) → t.Fits t.dflt
  | .scalar _ => trivial
  | .str _ => Nat.zero_le _
  | .msg fs os => ⟨Fields.fits_dflt fs, Oneofs.fits_dflt os⟩
theorem Fields.fits_dflt : (fs : Fields) → fs.Fits fs.dflt
  | .nil => trivial
  | .plain _ t rest => ⟨ElemTy.fits_dflt t, Fields.fits_dflt rest⟩
  | .optional _ _ rest => ⟨fun _ h => (nomatch h), Fields.fits_dflt rest⟩
  | .repeated _ _ _ rest => ⟨⟨Nat.zero_le _, fun _ h => (nomatch h)⟩, Fields.fits_dflt rest⟩
theorem Oneofs.fits_dflt : (os : Oneofs) → os.Fits os.dflt
  | .nil => trivial
  | .cons _ rest => ⟨fun _ h => (nomatch h), Oneofs.fits_dflt rest⟩
end

/-! ### Idempotence -/

theorem ElemTy.dropNegZero_idem (t : ElemTy) (v : t.Val) :
    t.dropNegZero (t.dropNegZero v) = t.dropNegZero v := by
  cases t with
  | scalar s =>
    show (if s.numZero (if s.numZero v then s.zero else v) then s.zero else
      if s.numZero v then s.zero else v) = if s.numZero v then s.zero else v
    cases h : s.numZero v
    · simp [h]; rfl
    · simp [ScalarTy.numZero_zero]
  | str _ => rfl
  | msg _ _ => rfl

theorem ElemTy.canon_dropNegZero (t : ElemTy) (v : t.Val) :
    t.canon (t.dropNegZero v) = t.dropNegZero (t.canon v) := by
  cases t <;> rfl

mutual
theorem ElemTy.canon_idem : (t : ElemTy) → (v : t.Val) → t.canon (t.canon v) = t.canon v
  | .scalar _, _ => rfl
  | .str _, _ => rfl
  | .msg fs os, v => by
    show (fs.canon (fs.canon v.1), os.canon (os.canon v.2)) = (fs.canon v.1, os.canon v.2)
    rw [Fields.canon_idem fs v.1, Oneofs.canon_idem os v.2]
theorem Fields.canon_idem : (fs : Fields) → (v : fs.Val) → fs.canon (fs.canon v) = fs.canon v
  | .nil, _ => rfl
  | .plain _ t rest, v => by
    show (t.dropNegZero (t.canon (t.dropNegZero (t.canon v.1))), rest.canon (rest.canon v.2)) =
      (t.dropNegZero (t.canon v.1), rest.canon v.2)
    rw [ElemTy.canon_dropNegZero, ElemTy.dropNegZero_idem, ElemTy.canon_idem t v.1,
      Fields.canon_idem rest v.2]
  | .optional _ t rest, v => by
    show ((v.1.map t.canon).map t.canon, rest.canon (rest.canon v.2)) = (v.1.map t.canon, rest.canon v.2)
    rw [Fields.canon_idem rest v.2, Option.map_map,
      show t.canon ∘ t.canon = t.canon from funext (ElemTy.canon_idem t)]
  | .repeated _ _ t rest, v => by
    show ((v.1.map t.canon).map t.canon, rest.canon (rest.canon v.2)) = (v.1.map t.canon, rest.canon v.2)
    rw [Fields.canon_idem rest v.2, List.map_map,
      show t.canon ∘ t.canon = t.canon from funext (ElemTy.canon_idem t)]
theorem Alts.canon_idem : (a : Alts) → (v : a.Val) → a.canon (a.canon v) = a.canon v
  | .nil, v => nomatch v
  | .cons _ t _, .inl x => congrArg Sum.inl (ElemTy.canon_idem t x)
  | .cons _ _ rest, .inr x => congrArg Sum.inr (Alts.canon_idem rest x)
theorem Oneofs.canon_idem : (os : Oneofs) → (v : os.Val) → os.canon (os.canon v) = os.canon v
  | .nil, _ => rfl
  | .cons a rest, v => by
    show ((v.1.map a.canon).map a.canon, rest.canon (rest.canon v.2)) = (v.1.map a.canon, rest.canon v.2)
    rw [Oneofs.canon_idem rest v.2, Option.map_map,
      show a.canon ∘ a.canon = a.canon from funext (Alts.canon_idem a)]
end

end EP
