import Verif.Proof.Bounded
import Verif.Props.Support
import Verif.Props.Shelf

/-!
# Copies between fields of different maximum length: property C78
-/

namespace EP
open Spec

section
variable {t : ElemTy} {cap cap' : Nat}

/-- The state of a repeated field constructed from a smaller one. -/
theorem rep_copyOf (h : t.WF) {x : RepObj t.cls.State} (hx : (repSpec t.spec cap').Inv x) (hle : cap' ≤ cap) :
    ∃ y, RepObj.copyOf (E := t.cls) cap x = .ok y ∧ (repSpec t.spec cap).Inv y ∧
      (repSpec t.spec cap).abs y = (repSpec t.spec cap').abs x ∧ y.Fresh t.spec t.dflt cap' := by
  have hb := ElemTy.base t h
  obtain ⟨h1, h2, h3⟩ := id hx
  obtain ⟨data, e, zs, hz1, hz2, hz3, hz4, _⟩ := (copyElems_post hb (List.replicate cap t.cls.init) 0 x.data
    (by simp; omega) (fun y hy => by rw [List.eq_of_mem_replicate hy]; exact hb.init_inv) h3).exists
  rw [List.take_zero, List.nil_append, Nat.zero_add, List.drop_replicate] at hz1
  have habs : (data.take x.len).map t.spec.abs = (x.data.take x.len).map t.spec.abs := by
    rw [hz1, List.take_append_of_le_length (by omega), List.map_take, List.map_take, hz4]
  refine ⟨⟨x.len, data⟩, ?_, ⟨?_, ?_, ?_⟩, habs, ?_, ?_⟩
  · rw [RepObj.copyOf, e]; rfl
  · rw [hz1]; simp; omega
  · dsimp only; omega
  · rw [hz1]
    intro y hy
    rcases List.mem_append.mp hy with hy | hy
    · exact hz3 y hy
    · rw [List.eq_of_mem_replicate hy]; exact hb.init_inv
  · exact h2
  · intro y hy
    dsimp only at hy
    rw [hz1, List.drop_append_of_le_length (by omega), List.drop_eq_nil_of_le (by omega), List.nil_append] at hy
    rw [List.eq_of_mem_replicate hy]
    exact hb.init_abs

/-- **C78** for repeated fields: one constructed from another of the same or a smaller maximum length has the same
elements, and assigning it gives a field of its class these elements. -/
theorem C78_repeated (x : RepObj t.cls.State) (h : t.WF) (hle : cap' ≤ cap) (hc : cap < 2147483648)
    (hx : t.RepReach cap' x) :
    ∃ y, RepObj.copyOf (E := t.cls) cap x = .ok y ∧ y.len = x.len ∧
      (∀ (i : Nat) (v : t.cls.State), x.getConstChecked i = .ok (.ok v) →
        ∃ w, y.getConstChecked i = .ok (.ok w) ∧ t.abs w = t.abs v) ∧
      (∀ z, t.RepReach cap z → ∃ z', z.assign y = .ok z' ∧
        (repSpec t.spec cap).abs z' = (repSpec t.spec cap').abs x) := by
  have hb := ElemTy.base t h
  have ix : (repSpec t.spec cap').Inv x :=
    ReachGen.keeps (ElemTy.rep_api_law h (by omega)) (rep_base (cap := cap') hb).init_inv hx
  obtain ⟨y, e1, e2, e3, _⟩ := rep_copyOf (cap := cap) h ix hle
  have hlen : y.len = x.len := by
    have := congrArg List.length e3
    rw [abs_length e2, abs_length ix] at this
    exact this
  refine ⟨y, e1, hlen, ?_, ?_⟩
  · intro i v hv
    by_cases hi : i < x.len
    · have hxl : i < x.data.length := by have := ix.1; have := ix.2.1; omega
      have hyl : i < y.data.length := by have := e2.1; have := e2.2.1; omega
      rw [RepObj.getConstChecked, if_pos hi, arrayGet_of_lt hxl, Res.ok_bind] at hv
      injection hv with hv
      injection hv with hv
      refine ⟨y.data[i], ?_, ?_⟩
      · rw [RepObj.getConstChecked, if_pos (by omega), arrayGet_of_lt hyl]
        rfl
      · have := congrArg (fun l : List t.Val => l[i]?) (show (y.data.take y.len).map t.spec.abs = (x.data.take x.len).map t.spec.abs from e3)
        rw [List.getElem?_map, List.getElem?_map, List.getElem?_take, List.getElem?_take, if_pos (by omega), if_pos hi,
          List.getElem?_eq_getElem hyl, List.getElem?_eq_getElem hxl] at this
        injection this with this
        rw [← hv]
        exact this
    · rw [RepObj.getConstChecked, if_neg hi] at hv
      injection hv with hv
      exact nomatch hv
  · intro z hz
    have iz : (repSpec t.spec cap).Inv z :=
      ReachGen.keeps (ElemTy.rep_api_law h hc) (rep_base (cap := cap) hb).init_inv hz
    obtain ⟨z', f1, _, f2, _⟩ := (rep_assign hb z y iz e2).exists
    exact ⟨z', f1, f2.trans e3⟩

/-- **C78**: every further history of calls on such a copy gives the results on the list of the elements copied.  As in
C31 no access may leave a gap beyond the end where elements were in use before; the copy has the unused elements of
the original. -/
theorem C78_history_partial (x : RepObj t.cls.State) (cs : List (RepCall t)) (h : t.WF) (hle : cap' ≤ cap)
    (hc : cap < 2147483648) (hx : t.RepReach cap' x) (hl : ∀ c ∈ cs, c.Legal cap)
    (ht : ListOp.AllTame cap t.dflt (cs.map (RepCall.op cap)) ((repSpec t.spec cap').abs x) cap') :
    ∃ y z, RepObj.copyOf (E := t.cls) cap x = .ok y ∧
      RepCall.runAll cap cs y =
        .ok ((ListOp.runAll cap t.dflt (cs.map (RepCall.op cap)) ((repSpec t.spec cap').abs x)).1, z) ∧
      (repSpec t.spec cap).abs z =
        (ListOp.runAll cap t.dflt (cs.map (RepCall.op cap)) ((repSpec t.spec cap').abs x)).2 := by
  have hb := ElemTy.base t h
  have ix : (repSpec t.spec cap').Inv x :=
    ReachGen.keeps (ElemTy.rep_api_law h (by omega)) (rep_base (cap := cap') hb).init_inv hx
  obtain ⟨y, e1, e2, e3, e4⟩ := rep_copyOf (cap := cap) h ix hle
  obtain ⟨z, f1, f2⟩ := RepCall.runAll_spec h hc cs y cap' hl e2 e4 (e3 ▸ ht)
  rw [e3] at f1 f2
  exact ⟨y, z, e1, f1, f2⟩

/-- The array of the copy: that of the original, and default values behind. -/
def Shelf.extended (s : Spec.Shelf t.Val) (cap : Nat) : Spec.Shelf t.Val :=
  ⟨s.len, s.cells ++ List.replicate (cap - s.cells.length) t.dflt⟩

theorem copyOf_shelf (h : t.WF) {x : RepObj t.cls.State} (hx : (repSpec t.spec cap').Inv x) (hle : cap' ≤ cap) :
    ∃ y, RepObj.copyOf (E := t.cls) cap x = .ok y ∧ (repSpec t.spec cap).Inv y ∧ y.shelf = Shelf.extended x.shelf cap := by
  have hb := ElemTy.base t h
  obtain ⟨h1, h2, h3⟩ := id hx
  obtain ⟨y, e1, e2, _, _⟩ := rep_copyOf (cap := cap) h hx hle
  refine ⟨y, e1, e2, ?_⟩
  obtain ⟨data, e, zs, hz1, hz2, hz3, hz4, _⟩ := (copyElems_post hb (List.replicate cap t.cls.init) 0 x.data
    (by simp; omega) (fun y hy => by rw [List.eq_of_mem_replicate hy]; exact hb.init_inv) h3).exists
  rw [List.take_zero, List.nil_append, Nat.zero_add, List.drop_replicate] at hz1
  rw [RepObj.copyOf, e] at e1
  cases e1
  have hd : t.abs t.cls.init = t.dflt := hb.init_abs
  have hz : zs.map t.abs = x.data.map t.abs := hz4
  show (⟨x.len, data.map t.abs⟩ : Spec.Shelf t.Val) =
    ⟨x.len, x.data.map t.abs ++ List.replicate (cap - (x.data.map t.abs).length) t.dflt⟩
  rw [hz1, List.map_append, List.map_replicate, hd, hz, List.length_map]

/-- **C78**, exactly: every further history of calls on the copy, without a restriction. -/
theorem C78_history_exact (x : RepObj t.cls.State) (cs : List (RepCall t)) (h : t.WF) (hle : cap' ≤ cap)
    (hc : cap < 2147483648) (hx : t.RepReach cap' x) (hl : ∀ c ∈ cs, c.Legal cap) :
    ∃ y z, RepObj.copyOf (E := t.cls) cap x = .ok y ∧
      RepCall.runAll cap cs y =
        .ok ((ShelfOp.runAll cap t.dflt (cs.map RepCall.shelfOp) (Shelf.extended x.shelf cap)).1, z) ∧
      (repSpec t.spec cap).abs z =
        (ShelfOp.runAll cap t.dflt (cs.map RepCall.shelfOp) (Shelf.extended x.shelf cap)).2.shown := by
  have hb := ElemTy.base t h
  have ix : (repSpec t.spec cap').Inv x :=
    ReachGen.keeps (ElemTy.rep_api_law h (by omega)) (rep_base (cap := cap') hb).init_inv hx
  obtain ⟨y, e1, e2, e3⟩ := copyOf_shelf (cap := cap) h ix hle
  obtain ⟨z, f1, f2⟩ := RepCall.runAll_shelf h hc cs y hl e2
  rw [e3] at f1 f2
  exact ⟨y, z, e1, f1, by rw [← RepObj.shelf_shown, f2]⟩

/-- **C78**: the history behaves like one of a list if and only if nothing but default values is uncovered. -/
theorem C78_history_iff (x : RepObj t.cls.State) (cs : List (RepCall t)) (h : t.WF) (hle : cap' ≤ cap)
    (hc : cap < 2147483648) (hx : t.RepReach cap' x) (hl : ∀ c ∈ cs, c.Legal cap) :
    ∃ y, RepObj.copyOf (E := t.cls) cap x = .ok y ∧
      (RepCall.Right cap cs y ↔ ShelfOp.AllClean cap t.dflt (cs.map RepCall.shelfOp) (Shelf.extended x.shelf cap)) := by
  have hb := ElemTy.base t h
  have ix : (repSpec t.spec cap').Inv x :=
    ReachGen.keeps (ElemTy.rep_api_law h (by omega)) (rep_base (cap := cap') hb).init_inv hx
  obtain ⟨y, e1, e2, e3⟩ := copyOf_shelf (cap := cap) h ix hle
  exact ⟨y, e1, e3 ▸ RepCall.right_iff h hc cs y hl e2⟩

end

section
variable {cap cap' : Nat}

/-- Full statement of **C78** for strings and bytes: after `a = b` the contents of `a` are those of `b`. -/
def C78_Statement (cap cap' : Nat) : Prop :=
  ∀ x y : StrObj, 0 < cap → cap < 2147483648 → 0 < cap' → cap' < 2147483648 → (ElemTy.str cap).Reach x →
    (ElemTy.str cap').Reach y → ∃ z, x.assignOther cap y = .ok z ∧ z.chars = y.chars

/-- **C78** for strings and bytes, exactly: the contents are taken over if they fit, and otherwise nothing happens and
nothing is reported. -/
theorem C78_string_exact (x y : StrObj) (h0 : 0 < cap) (hc : cap < 2147483648) (h0' : 0 < cap')
    (hc' : cap' < 2147483648) (hx : (ElemTy.str cap).Reach x) (hy : (ElemTy.str cap').Reach y) :
    (y.chars.length ≤ cap → ∃ z, x.assignOther cap y = .ok z ∧ z.chars = y.chars) ∧
    (cap < y.chars.length → x.assignOther cap y = .ok x) := by
  have ix : x.WF cap := ElemTy.reach_inv (.str cap) ⟨h0, hc⟩ hx
  have iy : y.WF cap' := ElemTy.reach_inv (.str cap') ⟨h0', hc'⟩ hy
  have hlen : y.len ≤ y.data.length := by have := iy.1; have := iy.2; omega
  unfold StrObj.assignOther StrObj.setFrom
  rw [if_pos hlen]
  constructor
  · intro hle
    rw [show y.data.take y.len = y.chars from rfl, StrObj.setData_eq cap x y.chars ix hle]
    exact ⟨_, rfl, List.take_left' rfl⟩
  · intro hlt
    rw [StrObj.setData, if_neg (by rw [show y.data.take y.len = y.chars from rfl]; omega)]
    rfl

/-- **C78** for strings and bytes when the maximum length is not smaller. -/
theorem C78_string_partial (hle : cap' ≤ cap) : C78_Statement cap cap' := by
  intro x y h0 hc h0' hc' hx hy
  have iy : y.WF cap' := ElemTy.reach_inv (.str cap') ⟨h0', hc'⟩ hy
  exact (C78_string_exact x y h0 hc h0' hc' hx hy).1 (by rw [iy.chars_length]; exact Nat.le_trans iy.2 hle)

end

/-- A string of maximum length 3 that holds "abc". -/
theorem threeChars_reach : (ElemTy.str 3).Reach ⟨3, [0x61, 0x62, 0x63]⟩ :=
  .step (R := fun _ => False) (fun _ h => h.elim) (Or.inr (Or.inl ⟨[0x61, 0x62, 0x63], rfl⟩)) .init rfl

/-- **C78** is false: a longer string is not assigned, and no error is returned. -/
theorem C78_false : ¬ ∀ cap cap', C78_Statement cap cap' := fun h => by
  obtain ⟨z, e1, e2⟩ := h 2 3 (StrObj.init 2) ⟨3, [0x61, 0x62, 0x63]⟩ (by decide) (by decide) (by decide) (by decide)
    .init threeChars_reach
  have e : (StrObj.init 2).assignOther 2 ⟨3, [0x61, 0x62, 0x63]⟩ = .ok ⟨0, [0, 0]⟩ := rfl
  rw [e] at e1
  injection e1 with e1
  rw [← e1] at e2
  exact nomatch e2

/-- The string fits in a field of maximum length 5. -/
example : ∃ z, (StrObj.init 5).assignOther 5 ⟨3, [0x61, 0x62, 0x63]⟩ = .ok z ∧ z.chars = [0x61, 0x62, 0x63] :=
  C78_string_partial (cap := 5) (cap' := 3) (by decide) _ _ (by decide) (by decide) (by decide) (by decide) .init
    threeChars_reach

/-- A field of two numbers copied into one of three, which then takes another. -/
example : ∃ x y, (ElemTy.scalar .uint32).RepReach 2 x ∧ RepObj.copyOf (E := scalarClass .uint32) 3 x = .ok y ∧
    y.add (E := scalarClass .uint32) 3 7#32 = .ok (.noErrors, ⟨2, [5#32, 7#32, 0#32]⟩) :=
  ⟨⟨1, [5#32, 0#32]⟩, ⟨1, [5#32, 0#32, 0#32]⟩,
    .step (R := fun _ => False) (fun _ h => h.elim) (Or.inr (Or.inl ⟨5#32,
      .step (R := fun _ => False) (f := fun _ => .ok 5#32) (fun _ h => h.elim) (Or.inr ⟨5#32, rfl⟩) .init rfl, rfl⟩))
      .init rfl, rfl, rfl⟩

/-- A field of three numbers the last of which was overwritten, copied into one of five: `set(3, …)` is right, as only
default values are between; `set(2, …)` after the list was made shorter shows what was there before. -/
example : ShelfOp.AllClean 5 0#32 [ShelfOp.set 4 9#32] ⟨3, [1#32, 2#32, 3#32] ++ List.replicate 2 0#32⟩ ∧
    ¬ ShelfOp.AllClean 5 0#32 [ShelfOp.set 4 9#32] ⟨1, [1#32, 2#32, 3#32] ++ List.replicate 2 0#32⟩ := by
  refine ⟨⟨fun v hv => ?_, trivial⟩, ?_⟩
  · have : v ∈ [0#32] := hv
    exact List.mem_singleton.mp this
  · rintro ⟨h, _⟩
    exact absurd (h 2#32 (List.mem_cons_self ..)) (by decide)

end EP
