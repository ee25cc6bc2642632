import Verif.Props.Shelf
import Verif.Props.Values
import Verif.Props.Copies

/-!
# For which types and maximum lengths: C31, C32, C78

Whatever the type of the elements, as soon as it has a value that is not the default, and whatever the maximum length, as soon
as there is room for one element: one element is added, the contents are replaced by nothing, and element 0 is looked at.  It is
the old one.
-/

namespace EP
open Spec

section
variable {t : ElemTy} {cap : Nat}

/-- The object after the three calls shows the element that was removed. -/
theorem C31_never (v : t.cls.State) (h : t.WF) (h0 : 0 < cap) (hc : cap < 2147483648) (hv : t.Reach v) :
    ∃ y, RepCall.runAll cap [.add v, .setData [], .touch 0] (repeatedClass t.cls cap).init =
        .ok ([.noErrors, .noErrors, .noErrors], y) ∧ (repSpec t.spec cap).abs y = [t.abs v] := by
  obtain ⟨y, e1, e2⟩ := C31_exact (cap := cap) [.add v, .setData [], .touch 0] h hc (by
    intro c hm
    rcases List.mem_cons.mp hm with rfl | hm
    · exact hv
    rcases List.mem_cons.mp hm with rfl | hm
    · exact fun _ hw => absurd hw List.not_mem_nil
    rcases List.mem_cons.mp hm with rfl | hm
    · exact h0
    · exact absurd hm List.not_mem_nil)
  obtain ⟨n, rfl⟩ : ∃ n, cap = n + 1 := ⟨cap - 1, by omega⟩
  refine ⟨y, e1.trans ?_, e2.trans ?_⟩ <;>
    simp [ShelfOp.runAll, ShelfOp.run, RepCall.shelfOp, Shelf.new, Shelf.shown, List.replicate_succ]

/-- **C31** is false for every type with a value that is not the default, and every maximum length but 0. -/
theorem C31_never_false (v : t.cls.State) (h : t.WF) (h0 : 0 < cap) (hc : cap < 2147483648) (hv : t.Reach v)
    (hd : t.abs v ≠ t.dflt) : ¬ C31_Statement t cap := by
  intro hC
  obtain ⟨y, e1, e2⟩ := C31_never (cap := cap) v h h0 hc hv
  obtain ⟨z, f1, f2⟩ := hC [.add v, .setData [], .touch 0] h hc (by
    intro c hm
    rcases List.mem_cons.mp hm with rfl | hm
    · exact hv
    rcases List.mem_cons.mp hm with rfl | hm
    · exact fun _ hw => absurd hw List.not_mem_nil
    rcases List.mem_cons.mp hm with rfl | hm
    · exact h0
    · exact absurd hm List.not_mem_nil)
  have hyz : y = z := by
    have := e1.symm.trans f1
    injection this with this
    exact congrArg Prod.snd this
  rw [← hyz, e2] at f2
  have : [t.abs v] = [t.dflt] := f2.trans (by
    simp [ListOp.runAll, ListOp.run, RepCall.op, grow])
  injection this with this _
  exact hd this

/-- Histories of objects of which every cell, used or not, has the default value. -/
theorem RepCall.runAll_dflt (h : t.WF) (hc : cap < 2147483648)
    (hd : ∀ x : RepObj t.cls.State, (repSpec t.spec cap).Inv x → ∀ v ∈ x.shelf.cells, v = t.dflt) :
    (cs : List (RepCall t)) → (x : RepObj t.cls.State) → (∀ c ∈ cs, c.Legal cap) → (repSpec t.spec cap).Inv x →
    ∃ y, RepCall.runAll cap cs x =
        .ok ((ListOp.runAll cap t.dflt (cs.map (RepCall.op cap)) ((repSpec t.spec cap).abs x)).1, y) ∧
      (repSpec t.spec cap).abs y = (ListOp.runAll cap t.dflt (cs.map (RepCall.op cap)) ((repSpec t.spec cap).abs x)).2
  | [], x, _, _ => ⟨x, rfl, rfl⟩
  | c :: cs, x, hl, hx => by
    have hlc := hl c (List.mem_cons_self ..)
    obtain ⟨y, e1, e2, e3⟩ := RepCall.run_shelf h hc c hlc hx
    have hcl : c.shelfOp.Clean cap t.dflt x.shelf := by
      intro v hv
      refine hd x hx v ?_
      cases c with
      | set i w => exact List.mem_of_mem_take (List.mem_of_mem_drop hv)
      | touch i => exact List.mem_of_mem_take (List.mem_of_mem_drop hv)
      | _ => exact absurd hv List.not_mem_nil
    have hk := (ShelfOp.right_iff (d := t.dflt) (RepCall.shelfOp_ok hlc) (RepObj.shelf_ok hx)).mpr hcl
    have he := ShelfOp.run_error (d := t.dflt) (o := c.shelfOp) (RepObj.shelf_ok hx)
    rw [← e3, RepCall.shelfOp_op (cap := cap), RepObj.shelf_shown (cap := cap), RepObj.shelf_shown (cap := cap)] at hk
    rw [RepCall.shelfOp_op (cap := cap), RepObj.shelf_shown (cap := cap)] at he
    obtain ⟨z, f1, f2⟩ := RepCall.runAll_dflt h hc hd cs y (fun c hc => hl c (List.mem_cons_of_mem _ hc)) e2
    rw [hk] at f1 f2
    rw [he] at e1
    refine ⟨z, ?_, f2⟩
    show (c.run cap x >>= fun r => RepCall.runAll cap cs r.2 >>= fun q => pure (r.1 :: q.1, q.2)) = _
    rw [e1]
    show (RepCall.runAll cap cs y >>= fun q => pure (_ :: q.1, q.2)) = _
    rw [f1]
    rfl

/-- **C31**, exactly the types and maximum lengths: it holds for arrays without room, and for types that have the default value
only. -/
theorem C31_types (h : t.WF) (hc : cap < 2147483648) :
    C31_Statement t cap ↔ cap = 0 ∨ ∀ v, t.Reach v → t.abs v = t.dflt := by
  constructor
  · intro hC
    rcases Nat.eq_zero_or_pos cap with h0 | h0
    · exact Or.inl h0
    · exact Or.inr fun v hv => Classical.byContradiction fun hd => C31_never_false v h h0 hc hv hd hC
  · intro hor cs _ _ hl
    have hb := ElemTy.base t h
    have hi := (rep_base (cap := cap) hb).init_abs
    have := RepCall.runAll_dflt h hc (fun x hx v hv => by
      obtain ⟨d, hdm, rfl⟩ := List.mem_map.mp hv
      rcases hor with rfl | hall
      · rw [List.length_eq_zero_iff.mp hx.1] at hdm
        exact absurd hdm List.not_mem_nil
      · obtain ⟨w, hw, ew⟩ := ElemTy.made t h (t.abs d) (ElemTy.fits_abs t d (hx.2.2 d hdm))
        rw [← ew]
        exact hall w hw.reach) cs (repeatedClass t.cls cap).init hl (rep_base (cap := cap) hb).init_inv
    rw [hi] at this
    exact this

/-- A message without fields has the default value only. -/
example : C31_Statement (.msg .nil .nil) 3 :=
  (C31_types (t := .msg .nil .nil) (cap := 3) ⟨trivial, trivial, by decide, by decide⟩ (by decide)).mpr (Or.inr fun _ _ => rfl)

/-- The type of the elements is `uint32`. -/
example : ¬ C31_Statement (.scalar .uint32) 1 :=
  C31_never_false (t := .scalar .uint32) (cap := 1) 5#32 trivial (by decide) (by decide) (scalar_value_reach .uint32 _)
    (show (5#32 : BitVec 32) ≠ 0#32 by decide)

end

section
variable {cap : Nat}

/-- A string of which a character was removed shows it again. -/
theorem C32_never (b : Byte) (h0 : 0 < cap) (hc : cap < 2147483648) :
    ∃ y, StrCall.runAll cap [.setData [b], .setData [], .touch 0] (StrObj.init cap) =
        .ok ([.noErrors, .noErrors, .noErrors], y) ∧ y.chars = [b] := by
  obtain ⟨y, e1, e2⟩ := C32_exact (cap := cap) [.setData [b], .setData [], .touch 0] h0 hc (by
    intro c hm
    rcases List.mem_cons.mp hm with rfl | hm
    · trivial
    rcases List.mem_cons.mp hm with rfl | hm
    · trivial
    rcases List.mem_cons.mp hm with rfl | hm
    · trivial
    · exact absurd hm List.not_mem_nil)
  obtain ⟨n, rfl⟩ : ∃ n, cap = n + 1 := ⟨cap - 1, by omega⟩
  refine ⟨y, e1.trans ?_, e2.trans ?_⟩ <;>
    simp [ShelfOp.runAll, ShelfOp.run, StrCall.shelfOp, Shelf.new, Shelf.shown, List.replicate_succ]

/-- **C32** is false for exactly the maximum lengths there are. -/
theorem C32_lengths : C32_Statement cap ↔ ¬ (0 < cap ∧ cap < 2147483648) := by
  constructor
  · rintro hC ⟨h0, hc⟩
    obtain ⟨y, e1, e2⟩ := C32_never (cap := cap) 0x61 h0 hc
    obtain ⟨z, f1, f2⟩ := hC [.setData [0x61], .setData [], .touch 0] h0 hc (by
      intro c hm
      rcases List.mem_cons.mp hm with rfl | hm
      · trivial
      rcases List.mem_cons.mp hm with rfl | hm
      · trivial
      rcases List.mem_cons.mp hm with rfl | hm
      · trivial
      · exact absurd hm List.not_mem_nil)
    have hyz : y = z := by
      have := e1.symm.trans f1
      injection this with this
      exact congrArg Prod.snd this
    rw [← hyz, e2] at f2
    have : [(0x61 : Byte)] = [0] := f2.trans (by
      simp [ListOp.runAll, ListOp.run, StrCall.op, grow])
    exact absurd this (by decide)
  · exact fun h _ h0 hc => absurd ⟨h0, hc⟩ h

/-- The shortest string. -/
example : ¬ C32_Statement 1 := fun h => C32_lengths.mp h ⟨by decide, by decide⟩

/-- **C78** for strings, exactly the maximum lengths: that of the target is not less than that of the source. -/
theorem C78_lengths {cap' : Nat} (h0 : 0 < cap) (hc : cap < 2147483648) (h0' : 0 < cap') (hc' : cap' < 2147483648) :
    C78_Statement cap cap' ↔ cap' ≤ cap := by
  constructor
  · intro hC
    refine Nat.le_of_not_lt fun hlt => ?_
    obtain ⟨y, hy, e⟩ := ElemTy.made (.str cap') ⟨h0', hc'⟩ (List.replicate cap' (0x61 : Byte))
      (show (List.replicate cap' (0x61 : Byte)).length ≤ cap' by rw [List.length_replicate]; exact Nat.le_refl _)
    have ey : StrObj.chars y = List.replicate cap' (0x61 : Byte) := e
    obtain ⟨z, e1, e2⟩ := hC (StrObj.init cap) y h0 hc h0' hc' .init hy.reach
    have ex := (C78_string_exact (StrObj.init cap) y h0 hc h0' hc' .init hy.reach).2
      (by rw [ey, List.length_replicate]; exact hlt)
    have := ex.symm.trans e1
    injection this with this
    have h1 : z.chars = [] := by rw [← this]; rfl
    rw [h1, ey] at e2
    have := congrArg List.length e2
    rw [List.length_replicate] at this
    exact absurd this (by simp only [List.length_nil]; omega)
  · exact fun h x y a b c d hx hy => C78_string_partial h x y a b c d hx hy

/-- From three characters to five, and not back. -/
example : C78_Statement 5 3 ∧ ¬ C78_Statement 3 5 :=
  ⟨(C78_lengths (by decide) (by decide) (by decide) (by decide)).mpr (by decide),
    fun h => absurd ((C78_lengths (by decide) (by decide) (by decide) (by decide)).mp h) (by decide)⟩

end

end EP
