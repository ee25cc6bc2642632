import Verif.Proof.Bounded
import Verif.Props.Support

/-!
# Repeated fields as lists and strings as byte strings: properties C31, C32, C50
-/

namespace EP
open Spec

/-! ## C31 -/

section
variable {t : ElemTy} {cap : Nat}

/-- Full statement of **C31**: every history of calls on a new repeated field returns the results of the same
operations on a bounded list and leaves its contents. -/
def C31_Statement (t : ElemTy) (cap : Nat) : Prop :=
  ∀ cs : List (RepCall t), t.WF → cap < 2147483648 → (∀ c ∈ cs, c.Legal cap) →
    ∃ y, RepCall.runAll cap cs (repeatedClass t.cls cap).init =
        .ok ((ListOp.runAll cap t.dflt (cs.map (RepCall.op cap)) []).1, y) ∧
      (repSpec t.spec cap).abs y = (ListOp.runAll cap t.dflt (cs.map (RepCall.op cap)) []).2

/-- **C31** for histories in which no access beyond the end leaves a gap over elements that were in use
before the list was made shorter.  Missing: `set(i, v)` and `get(i)` with `i` beyond the end after
`set_data` or assignment made the list shorter, where the old elements come back (`C31_false`). -/
theorem C31_history_partial (cs : List (RepCall t)) (h : t.WF) (hc : cap < 2147483648)
    (hl : ∀ c ∈ cs, c.Legal cap) (ht : ListOp.AllTame cap t.dflt (cs.map (RepCall.op cap)) [] 0) :
    ∃ y, RepCall.runAll cap cs (repeatedClass t.cls cap).init =
        .ok ((ListOp.runAll cap t.dflt (cs.map (RepCall.op cap)) []).1, y) ∧
      (repSpec t.spec cap).abs y = (ListOp.runAll cap t.dflt (cs.map (RepCall.op cap)) []).2 := by
  have hb := ElemTy.base t h
  have hi := (rep_base (cap := cap) hb).init_abs
  have := RepCall.runAll_spec h hc cs (repeatedClass t.cls cap).init 0 hl (rep_base (cap := cap) hb).init_inv
    ⟨Nat.le_refl _, fun y hy => by
      have : y = t.cls.init := List.eq_of_mem_replicate (List.mem_of_mem_drop hy)
      rw [this]
      exact hb.init_abs⟩ (by rw [hi]; exact ht)
  rw [hi] at this
  exact this

/-- **C31** for one call on any repeated field a program can have, decoded ones included: `set(i, v)` may be at
the end, not beyond it. -/
theorem C31_call_partial (c : RepCall t) (x : RepObj t.cls.State) (h : t.WF)
    (hc : cap < 2147483648) (hl : c.Legal cap) (hx : t.RepReach cap x)
    (hs : ∀ i v, c = .set i v → min i (cap - 1) ≤ x.len) (hg : ∀ i, c = .touch i → min i (cap - 1) < x.len) :
    ∃ y, c.run cap x = .ok (((c.op cap).run cap t.dflt ((repSpec t.spec cap).abs x)).1, y) ∧
      (repSpec t.spec cap).abs y = ((c.op cap).run cap t.dflt ((repSpec t.spec cap).abs x)).2 := by
  have hb := ElemTy.base t h
  have ix : (repSpec t.spec cap).Inv x :=
    ReachGen.keeps (ElemTy.rep_api_law h hc) (rep_base (cap := cap) hb).init_inv hx
  have hal := abs_length ix
  obtain ⟨y, e1, _, e2, _⟩ := RepCall.run_spec h hc (peak := cap) c hl ix
    ⟨ix.2.1, fun y hy => absurd hy (by rw [List.drop_eq_nil_of_le (Nat.le_of_eq ix.1)]; exact List.not_mem_nil)⟩ (by
      cases c with
      | set i v => exact Or.inl (by rw [hal]; exact hs i v rfl)
      | touch i => exact Or.inl (by rw [hal]; exact hg i rfl)
      | _ => trivial)
  exact ⟨y, e1, e2⟩

/-- **C31**: a call that reports an error leaves the object exactly as it was. -/
theorem C31_error (c : RepCall t) (x y : RepObj t.cls.State) (e : Error) (h : t.WF)
    (hc : cap < 2147483648) (hl : c.Legal cap) (hx : t.RepReach cap x) (hr : c.run cap x = .ok (e, y))
    (he : e ≠ .noErrors) : y = x ∧ e = .arrayFull := by
  have hb := ElemTy.base t h
  have ix : (repSpec t.spec cap).Inv x :=
    ReachGen.keeps (ElemTy.rep_api_law h hc) (rep_base (cap := cap) hb).init_inv hx
  have key : ∀ (ht : (c.op cap).Tame cap ((repSpec t.spec cap).abs x) cap), y = x ∧
      e = ((c.op cap).run cap t.dflt ((repSpec t.spec cap).abs x)).1 := by
    intro ht
    obtain ⟨z, e1, _, _, _, e2⟩ := RepCall.run_spec h hc (peak := cap) c hl ix
      ⟨ix.2.1, fun y hy => absurd hy (by rw [List.drop_eq_nil_of_le (Nat.le_of_eq ix.1)]; exact List.not_mem_nil)⟩ ht
    rw [e1] at hr
    injection hr with hr
    injection hr with hr1 hr2
    subst hr1 hr2
    exact ⟨e2 he, rfl⟩
  cases c with
  | add v =>
    obtain ⟨k1, k2⟩ := key trivial
    refine ⟨k1, ?_⟩
    rw [k2] at he ⊢
    simp only [RepCall.op, ListOp.run] at he ⊢
    split at he
    · exact absurd rfl he
    · rw [if_neg ‹_›]
  | setData vs =>
    obtain ⟨k1, k2⟩ := key trivial
    refine ⟨k1, ?_⟩
    rw [k2] at he ⊢
    simp only [RepCall.op, ListOp.run] at he ⊢
    split at he
    · exact absurd rfl he
    · rw [if_neg ‹_›]
  | set i v =>
    exfalso
    simp only [RepCall.run] at hr
    cases hs : x.setAt cap i v with
    | ok z => rw [hs] at hr; injection hr with hr; injection hr with hr; exact he hr.symm
    | ub => rw [hs] at hr; exact nomatch hr
    | diverge => rw [hs] at hr; exact nomatch hr
  | touch i =>
    exfalso
    simp only [RepCall.run] at hr
    cases hs : x.modifyAt cap i pure with
    | ok z => rw [hs] at hr; injection hr with hr; injection hr with hr; exact he hr.symm
    | ub => rw [hs] at hr; exact nomatch hr
    | diverge => rw [hs] at hr; exact nomatch hr
  | clear => exact absurd (key trivial).2 he
  | assign r =>
    exfalso
    simp only [RepCall.run] at hr
    cases hs : x.assign r with
    | ok z => rw [hs] at hr; injection hr with hr; injection hr with hr; exact he hr.symm
    | ub => rw [hs] at hr; exact nomatch hr
    | diverge => rw [hs] at hr; exact nomatch hr

/-- **C31**: reading.  `get_const(i, value)` gives element `i` of the list, or `INDEX_OUT_OF_BOUND`;
`get_const(i)` and `x[i]` on a `const` object give element `i` when there is one. -/
theorem C31_get (x : RepObj t.cls.State) (i : Nat) (h : t.WF) (hc : cap < 2147483648)
    (hx : t.RepReach cap x) :
    (∀ v, ((repSpec t.spec cap).abs x)[i]? = some v →
      ∃ z, x.getConstChecked i = .ok (.ok z) ∧ x.getConst cap i = .ok z ∧ t.abs z = v) ∧
    (((repSpec t.spec cap).abs x)[i]? = none → x.getConstChecked i = .ok (.error .indexOutOfBound)) := by
  have hb := ElemTy.base t h
  have ix : (repSpec t.spec cap).Inv x :=
    ReachGen.keeps (ElemTy.rep_api_law h hc) (rep_base (cap := cap) hb).init_inv hx
  have hal := abs_length ix
  obtain ⟨h1, h2, h3⟩ := id ix
  unfold RepObj.getConstChecked RepObj.getConst
  constructor
  · intro v hv
    obtain ⟨hi, hv⟩ := List.getElem?_eq_some_iff.mp hv
    rw [hal] at hi
    have hid : i < x.data.length := by omega
    refine ⟨x.data[i], ?_, ?_, ?_⟩
    · rw [if_pos hi, arrayGet_of_lt hid]; rfl
    · rw [RepObj.limit_val (by omega) hc, show min i (cap - 1) = i by omega, arrayGet_of_lt hid]
    · rw [← hv]
      show t.abs x.data[i] = (x.elems.map t.spec.abs)[i]
      simp only [RepObj.elems, List.getElem_map, List.getElem_take]
  · intro hn
    have := List.getElem?_eq_none_iff.mp hn
    rw [hal] at this
    rw [if_neg (by omega)]
    rfl

/-- **C31**: changing an element through the reference returned by `get(i)` or `x[i]` changes that element
and nothing else.  Missing: `i` beyond the end, where the length grows over elements with old contents. -/
theorem C31_access_partial (x : RepObj t.cls.State) (i : Nat) (g : t.cls.State → Res t.cls.State)
    (y : RepObj t.cls.State) (h : t.WF) (hc : cap < 2147483648)
    (hx : t.RepReach cap x) (hi : i < x.len) (hr : x.modifyAt cap i g = .ok y) :
    ∃ old z, x.getConstChecked i = .ok (.ok old) ∧ g old = .ok z ∧
      (repSpec t.spec cap).abs y = List.set (α := t.Val) ((repSpec t.spec cap).abs x) i (t.abs z) := by
  have hb := ElemTy.base t h
  have ix : (repSpec t.spec cap).Inv x :=
    ReachGen.keeps (ElemTy.rep_api_law h hc) (rep_base (cap := cap) hb).init_inv hx
  obtain ⟨h1, h2, h3⟩ := id ix
  have hm : min i (cap - 1) = i := by omega
  have hid : i < x.data.length := by omega
  obtain ⟨hk, e⟩ := modifyAt_eq (by omega) hc ix i g
  simp only [hm] at e
  rw [e] at hr
  refine ⟨x.data[i], ?_⟩
  unfold RepObj.getConstChecked
  cases hz : g x.data[i] with
  | ub => rw [hz] at hr; exact nomatch hr
  | diverge => rw [hz] at hr; exact nomatch hr
  | ok z =>
    rw [hz] at hr
    injection hr with hr
    subst hr
    refine ⟨z, by rw [if_pos hi, arrayGet_of_lt hid]; rfl, rfl, ?_⟩
    show ((x.data.set i z).take (max x.len (i + 1))).map t.spec.abs = _
    rw [show max x.len (i + 1) = x.len by omega, List.take_set, List.map_set]
    rfl

end

/-- The list after `add(5)`, `add(6)`, `set_data([7])`, `set(2, 9)` is `[7, 6, 9]`: the element 6, removed by
`set_data`, is back. -/
theorem C31_stale : ∃ y, RepCall.runAll (t := .scalar .uint32) 3
    [.add 5#32, .add 6#32, .setData [7#32], .set 2 9#32] (repeatedClass (scalarClass .uint32) 3).init =
    .ok ([.noErrors, .noErrors, .noErrors, .noErrors], y) ∧
    (repSpec (ElemTy.scalar .uint32).spec 3).abs y = [7#32, 6#32, 9#32] := ⟨_, rfl, rfl⟩

theorem scalar_value_reach (s : ScalarTy) (v : (scalarClass s).State) : (ElemTy.scalar s).Reach v :=
  .step (R := fun _ => False) (f := fun _ => .ok v) (fun _ h => h.elim) (Or.inr ⟨v, rfl⟩) .init rfl

/-- **C31** is false. -/
theorem C31_false : ¬ ∀ t cap, C31_Statement t cap := fun h => by
  obtain ⟨y, e1, e2⟩ := h (.scalar .uint32) 3 [.add 5#32, .add 6#32, .setData [7#32], .set 2 9#32]
    trivial (by decide) (by
      intro c hc
      rcases List.mem_cons.mp hc with rfl | hc
      · exact scalar_value_reach _ _
      rcases List.mem_cons.mp hc with rfl | hc
      · exact scalar_value_reach _ _
      rcases List.mem_cons.mp hc with rfl | hc
      · exact fun _ _ => scalar_value_reach _ _
      rcases List.mem_cons.mp hc with rfl | hc
      · exact ⟨by decide, scalar_value_reach _ _⟩
      · exact nomatch hc)
  obtain ⟨y', e1', e2'⟩ := C31_stale
  have : y = y' := by
    have := e1.symm.trans e1'
    injection this with this
    injection this
  subst this
  have : ([7#32, 0#32, 9#32] : List (BitVec 32)) = [7#32, 6#32, 9#32] := e2.symm.trans e2'
  exact absurd this (by decide)

/-- A history that meets the conditions of `C31_history_partial`: filling, refused `add`, growing by `set`,
shortening, appending by `set`, copying. -/
def containerCalls : List (RepCall (.scalar .uint32)) :=
  [.add 5#32, .set 2 9#32, .add 1#32, .add 1#32, .setData [7#32], .set 1 4#32, .touch 1, .clear, .touch 1]

example : ListOp.AllTame 3 0#32 (containerCalls.map (RepCall.op 3)) [] 0 ∧
    ListOp.runAll 3 0#32 (containerCalls.map (RepCall.op 3)) [] =
    ([.noErrors, .noErrors, .arrayFull, .arrayFull, .noErrors, .noErrors, .noErrors, .noErrors, .noErrors],
      [0#32, 0#32]) := by
  refine ⟨?_, rfl⟩
  exact ⟨trivial, Or.inr (by decide), trivial, trivial, trivial, Or.inl (by decide), Or.inl (by decide), trivial,
    Or.inr (by decide), trivial⟩

/-! ## C32 -/

section
variable {cap : Nat}

/-- Full statement of **C32**, for a new string or bytes field of maximum length `cap`. -/
def C32_Statement (cap : Nat) : Prop :=
  ∀ cs : List StrCall, 0 < cap → cap < 2147483648 → (∀ c ∈ cs, c.Legal cap) →
    ∃ y, StrCall.runAll cap cs (StrObj.init cap) = .ok ((ListOp.runAll cap 0 (cs.map StrCall.op) []).1, y) ∧
      y.chars = (ListOp.runAll cap 0 (cs.map StrCall.op) []).2

theorem StrObj.init_wf (cap : Nat) : (StrObj.init cap).WF cap := ⟨by simp [StrObj.init], by simp [StrObj.init]⟩

theorem StrObj.init_fresh (cap : Nat) : (StrObj.init cap).Fresh 0 :=
  ⟨Nat.le_refl _, fun _ hb => List.eq_of_mem_replicate (List.mem_of_mem_drop hb)⟩

/-- **C32** for histories in which no access beyond the end leaves a gap over bytes that were in use before
the string was made shorter.  Missing: those, where the old bytes come back (`C32_false`). -/
theorem C32_history_partial (cs : List StrCall) (h0 : 0 < cap) (hc : cap < 2147483648)
    (hl : ∀ c ∈ cs, c.Legal cap) (ht : ListOp.AllTame cap 0 (cs.map StrCall.op) [] 0) :
    ∃ y, StrCall.runAll cap cs (StrObj.init cap) = .ok ((ListOp.runAll cap 0 (cs.map StrCall.op) []).1, y) ∧
      y.chars = (ListOp.runAll cap 0 (cs.map StrCall.op) []).2 := by
  obtain ⟨y, e1, _, e2, _⟩ := StrCall.runAll_spec h0 hc cs (StrObj.init cap) 0 hl (StrObj.init_wf cap)
    (StrObj.init_fresh cap) ht
  exact ⟨y, e1, e2⟩

theorem StrObj.WF.fresh {x : StrObj} (hx : x.WF cap) : x.Fresh cap :=
  ⟨hx.2, fun b hb => absurd hb (by rw [List.drop_eq_nil_of_le (Nat.le_of_eq hx.1)]; exact List.not_mem_nil)⟩

/-- **C32** for one call on any string a program can have, decoded ones included. -/
theorem C32_call_partial (c : StrCall) (x : StrObj) (h0 : 0 < cap) (hc : cap < 2147483648) (hl : c.Legal cap)
    (hx : (ElemTy.str cap).Reach x) (hs : ∀ i v, c = .set i v → min i (cap - 1) ≤ x.len)
    (hg : ∀ i, c = .touch i → min i (cap - 1) < x.len) :
    ∃ y, c.run cap x = .ok ((c.op.run cap 0 x.chars).1, y) ∧ y.chars = (c.op.run cap 0 x.chars).2 ∧
      ((c.op.run cap 0 x.chars).1 ≠ .noErrors → y = x) := by
  have ix : x.WF cap := ElemTy.reach_inv (.str cap) ⟨h0, hc⟩ hx
  obtain ⟨y, e1, _, e2, _, e3⟩ := StrCall.run_spec h0 hc c hl ix ix.fresh (by
    cases c with
    | set i v => exact Or.inl (by rw [ix.chars_length]; exact hs i v rfl)
    | touch i => exact Or.inl (by rw [ix.chars_length]; exact hg i rfl)
    | _ => trivial)
  exact ⟨y, e1, e2, e3⟩

/-- **C32**: reading. -/
theorem C32_get (x : StrObj) (i : Nat) (h0 : 0 < cap) (hc : cap < 2147483648) (hx : (ElemTy.str cap).Reach x) :
    (∀ b, x.chars[i]? = some b → x.getConstChecked i = .ok (.ok b) ∧ x.getConst cap i = .ok b ∧
      x.getAt cap i = .ok (b, x)) ∧
    (x.chars[i]? = none → x.getConstChecked i = .ok (.error .indexOutOfBound)) := by
  have ix : x.WF cap := ElemTy.reach_inv (.str cap) ⟨h0, hc⟩ hx
  have hal := ix.chars_length
  obtain ⟨h1, h2⟩ := id ix
  unfold StrObj.getConstChecked StrObj.getConst StrObj.getAt
  rw [u32sub_of_le (by omega) (by omega)]
  constructor
  · intro b hb
    obtain ⟨hi, hb⟩ := List.getElem?_eq_some_iff.mp hb
    rw [hal] at hi
    have hid : i < x.data.length := by omega
    have hv : x.data[i] = b := by rw [← hb]; simp [StrObj.chars]
    simp only [show min i (cap - 1) = i by omega, arrayGet_of_lt hid, hv]
    refine ⟨by rw [if_pos hi]; rfl, trivial, ?_⟩
    rw [if_neg (by omega)]
    rfl
  · intro hn
    have := List.getElem?_eq_none_iff.mp hn
    rw [hal] at this
    rw [if_neg (by omega)]
    rfl

end

/-- After `set("abc", 3)`, `set("x", 1)`, `s[2] = 'z'` the string is "xbz". -/
theorem C32_stale : StrCall.runAll 4 [.setData [0x61, 0x62, 0x63], .setData [0x78], .set 2 0x7A] (StrObj.init 4) =
    .ok ([.noErrors, .noErrors, .noErrors], ⟨3, [0x78, 0x62, 0x7A, 0]⟩) := by decide

/-- **C32** is false. -/
theorem C32_false : ¬ ∀ cap, C32_Statement cap := fun h => by
  obtain ⟨y, e1, e2⟩ := h 4 [.setData [0x61, 0x62, 0x63], .setData [0x78], .set 2 0x7A] (by decide) (by decide)
    (by
      intro c hc
      rcases List.mem_cons.mp hc with rfl | hc
      · trivial
      rcases List.mem_cons.mp hc with rfl | hc
      · trivial
      rcases List.mem_cons.mp hc with rfl | hc
      · trivial
      · exact nomatch hc)
  rw [C32_stale] at e1
  injection e1 with e1
  injection e1 with _ e1
  subst e1
  exact absurd e2 (by decide)

/-- A history that meets the conditions of `C32_history_partial`. -/
example : ListOp.AllTame 4 0 (([.setCStr [0x61, 0x62], .set 3 0x64, .setData [1, 2, 3, 4, 5], .setCStr [0x78], .set 1 0x79,
      .clear, .touch 1] : List StrCall).map StrCall.op) [] 0 ∧
    ListOp.runAll 4 0 (([.setCStr [0x61, 0x62], .set 3 0x64, .setData [1, 2, 3, 4, 5], .setCStr [0x78], .set 1 0x79,
      .clear, .touch 1] : List StrCall).map StrCall.op) [] =
    ([.noErrors, .noErrors, .arrayFull, .noErrors, .noErrors, .noErrors, .noErrors], [0, 0]) := by
  refine ⟨?_, by decide⟩
  simp [ListOp.AllTame, StrCall.op, ListOp.Tame, ListOp.run, setGrow, grow, ListOp.peak]

/-! ## C50 -/

section
variable {cap : Nat}

/-- Full statement of **C50**: after any history of calls that leaves a string without NUL characters, that
string is what the C accessor shows. -/
def C50_Statement (cap : Nat) : Prop :=
  ∀ (cs : List StrCall) (es : List Error) (y : StrObj), 0 < cap → cap < 2147483648 → (∀ c ∈ cs, c.Legal cap) →
    StrCall.runAll cap cs (StrObj.init cap) = .ok (es, y) → 0 ∉ y.chars → y.cText = .ok y.chars

/-- **C50**, exactly when the C accessor shows the string: the string is shorter than the maximum length,
contains no NUL, and the byte after it happens to be NUL. -/
theorem C50_iff (x : StrObj) (hx : x.WF cap) :
    x.cText = .ok x.chars ↔ 0 ∉ x.chars ∧ x.data[x.len]? = some 0 := by
  obtain ⟨h1, h2⟩ := id hx
  have hsplit : x.data = x.chars ++ x.data.drop x.len := (List.take_append_drop x.len x.data).symm
  have hall : 0 ∉ x.chars → x.data.takeWhile (· ≠ 0) = x.chars ++ (x.data.drop x.len).takeWhile (· ≠ 0) := by
    intro h
    conv => lhs; rw [hsplit]
    exact List.takeWhile_append_of_pos fun b hb => by
      have : b ≠ 0 := fun e => h (e ▸ hb)
      simpa using this
  unfold StrObj.cText
  constructor
  · intro h
    by_cases hz : 0 ∈ x.data
    · rw [if_pos hz] at h
      injection h with h
      have h0 : 0 ∉ x.chars := by
        rw [← h]
        intro hm
        have : ∀ (l : List Byte), 0 ∉ l.takeWhile (· ≠ 0) := by
          intro l
          induction l with
          | nil => simp
          | cons b bs ih =>
            by_cases hb : b = 0
            · rw [List.takeWhile_cons_of_neg (by simpa using hb)]; simp
            · rw [List.takeWhile_cons_of_pos (by simpa using hb)]
              intro hm
              rcases List.mem_cons.mp hm with hm | hm
              · exact hb hm.symm
              · exact ih hm
        exact this _ hm
      refine ⟨h0, ?_⟩
      rw [hall h0] at h
      have hnil : (x.data.drop x.len).takeWhile (· ≠ 0) = [] := List.append_cancel_left (h.trans (List.append_nil _).symm)
      have hz : 0 ∈ x.data.drop x.len := by
        rw [hsplit] at hz
        exact (List.mem_append.mp hz).resolve_left h0
      rw [← List.head?_drop]
      cases hd : x.data.drop x.len with
      | nil => rw [hd] at hz; exact nomatch hz
      | cons b bs =>
        rw [hd] at hnil
        by_cases hb : b = 0
        · rw [hb]; rfl
        · rw [List.takeWhile_cons_of_pos (by simpa using hb)] at hnil
          exact nomatch hnil
    · rw [if_neg hz] at h
      exact nomatch h
  · rintro ⟨h0, hn⟩
    rw [← List.head?_drop] at hn
    have hd : ∃ bs, x.data.drop x.len = 0 :: bs := by
      cases hd : x.data.drop x.len with
      | nil => rw [hd] at hn; exact nomatch hn
      | cons b bs =>
        rw [hd] at hn
        injection hn with hn
        exact ⟨bs, by rw [hn]⟩
    obtain ⟨bs, hd⟩ := hd
    rw [if_pos (by rw [hsplit, hd]; simp), hall h0, hd, List.takeWhile_cons_of_neg (by simp), List.append_nil]

/-- **C50** after `set(const char*)` with fewer characters than the maximum, on any string a program can
have. -/
theorem C50_set_c_string_partial (x y : StrObj) (s : List Byte) (h0 : 0 < cap) (hc : cap < 2147483648)
    (hx : (ElemTy.str cap).Reach x) (hs : 0 ∉ s) (hl : s.length < cap) (hr : x.setCStr cap s = .ok y) :
    y.cText = .ok s ∧ y.chars = s := by
  have ix : x.WF cap := ElemTy.reach_inv (.str cap) ⟨h0, hc⟩ hx
  obtain ⟨h1, h2⟩ := id ix
  rw [StrObj.setCStr_eq cap x s ix hc] at hr
  injection hr with hr
  have ht : (s ++ [0]).take cap = s ++ [0] := List.take_of_length_le (by simp; omega)
  rw [ht, show min s.length cap = s.length by omega] at hr
  have hw : y.WF cap := by subst hr; exact ⟨by simp; omega, by dsimp only; omega⟩
  have hch : y.chars = s := by subst hr; simp [StrObj.chars]
  refine ⟨?_, hch⟩
  have := (C50_iff y hw).mpr ⟨by rw [hch]; exact hs, by subst hr; simp⟩
  rw [this, hch]

/-- **C50** after any history: the string is as long as it ever was since the last `clear()`, and shorter than
the maximum.  Missing: strings of maximum length, for which the C accessor reads behind the array, and
strings set by `set(data, length)` over a longer one, which show the rest of that one (`C50_false`). -/
theorem C50_history_partial (cs : List StrCall) (es : List Error) (y : StrObj) (h0 : 0 < cap)
    (hc : cap < 2147483648) (hl : ∀ c ∈ cs, c.Legal cap) (ht : ListOp.AllTame cap 0 (cs.map StrCall.op) [] 0)
    (hr : StrCall.runAll cap cs (StrObj.init cap) = .ok (es, y)) (hz : 0 ∉ y.chars)
    (hp : ListOp.peakAll cap 0 (cs.map StrCall.op) [] 0 ≤ y.chars.length) (hm : y.chars.length < cap) :
    y.cText = .ok y.chars := by
  obtain ⟨z, e1, e2, e3, e4⟩ := StrCall.runAll_spec h0 hc cs (StrObj.init cap) 0 hl (StrObj.init_wf cap)
    (StrObj.init_fresh cap) ht
  rw [e1] at hr
  injection hr with hr
  injection hr with _ hr
  subst hr
  rw [e2.chars_length] at hp hm
  refine (C50_iff z e2).mpr ⟨hz, ?_⟩
  have hlt : z.len < z.data.length := by rw [e2.1]; exact hm
  rw [List.getElem?_eq_getElem hlt]
  exact congrArg some (fresh_getElem e4.2 hlt hp)

theorem readLoop_fresh {β : Type} [ReadBuffer β] :
    (n : Nat) → (b : β) → (x : StrObj) → (b' : β) → (y : StrObj) → x.data.length < 4294967296 → x.Fresh x.len →
    StrObj.readLoop n b x = .ok (b', y) → y.Fresh y.len
  | 0, b, x, b', y, _, hf, h => by
    injection h with h
    injection h with _ h
    exact h ▸ hf
  | n + 1, b, x, b', y, hl, hf, h => by
    rw [StrObj.readLoop] at h
    cases hp : ReadBuffer.pop b with
    | ub => rw [hp] at h; exact nomatch h
    | diverge => rw [hp] at h; exact nomatch h
    | ok r =>
      obtain ⟨r, b1⟩ := r
      rw [hp, Res.ok_bind] at h
      cases r with
      | none =>
        injection h with h
        injection h with _ h
        exact h ▸ hf
      | some v =>
        dsimp only at h
        by_cases hx : x.len < x.data.length
        · rw [arraySet_of_lt hx, Res.ok_bind, u32_of_lt (by omega)] at h
          refine readLoop_fresh n b1 _ b' y (by simpa using hl) ⟨Nat.le_refl _, ?_⟩ h
          intro b hb
          dsimp only at hb
          rw [List.drop_set_of_lt (by omega), ← List.drop_drop] at hb
          exact hf.2 b (List.mem_of_mem_drop hb)
        · rw [arraySet, if_neg hx] at h
          exact nomatch h

/-- **C50** after decoding: deserialization clears the array first, so the terminator is there whenever there
is room for it. -/
theorem C50_decoded_partial {β : Type} [ReadBuffer β] (M : ReadModel β) (b : β) (bs rest v : List Byte)
    (x : StrObj) (hc : cap < 2147483648) (hb : M.Inv b) (hv : M.view b = bs ++ rest)
    (h : Delimited bs v) (hl : v.length < cap) (hz : 0 ∉ v) :
    (StrObj.deserialize cap b x).Post fun r => r.1 = .noErrors ∧ r.2.2.cText = .ok v := by
  have hd := str_deserialize M cap hc b bs rest v x hb hv h (by omega)
  obtain ⟨⟨e, b', y⟩, e1, e2, _, _, e3, e4⟩ := hd.exists
  rw [e1]
  refine ⟨e2, ?_⟩
  dsimp only at e2 e3 e4 ⊢
  subst e2
  have hf : y.Fresh y.len := by
    unfold StrObj.deserialize at e1
    cases hp : deserializeVarint 32 b with
    | ub => rw [hp] at e1; exact nomatch e1
    | diverge => rw [hp] at e1; exact nomatch e1
    | ok r =>
      obtain ⟨r, b1⟩ := r
      rw [hp, Res.ok_bind] at e1
      cases r with
      | error e =>
        injection e1 with e1
        injection e1 with e1 _
        obtain ⟨p, hp', rfl⟩ := h
        rw [List.append_assoc] at hv
        have := varint_dec M 32 p (v ++ rest) _ hp' b hb hv
        rw [hp] at this
        exact nomatch this.1
      | ok n =>
        dsimp only at e1
        by_cases hn : cap ≥ n.toNat
        · rw [if_pos hn] at e1
          cases hr : StrObj.readLoop n.toNat b1 (StrObj.clear cap x) with
          | ub => rw [hr] at e1; exact nomatch e1
          | diverge => rw [hr] at e1; exact nomatch e1
          | ok q =>
            obtain ⟨b2, z⟩ := q
            rw [hr, Res.ok_bind] at e1
            have hz := readLoop_fresh n.toNat b1 _ b2 z (by simp [StrObj.clear]; omega)
              ⟨Nat.le_refl _, fun _ hb => List.eq_of_mem_replicate (List.mem_of_mem_drop hb)⟩ hr
            dsimp only at e1
            split at e1
            · injection e1 with e1
              injection e1 with _ e1
              injection e1 with _ e1
              exact e1 ▸ hz
            · injection e1 with e1
              injection e1 with _ e1
              injection e1 with _ e1
              exact e1 ▸ hz
        · rw [if_neg hn] at e1
          injection e1 with e1
          injection e1 with e1 _
          exact nomatch e1
  have hlen : y.len = v.length := by rw [← e3.chars_length, e4]
  have hlt : y.len < y.data.length := by rw [e3.1]; omega
  have := (C50_iff y e3).mpr ⟨by rw [e4]; exact hz, by
    rw [List.getElem?_eq_getElem hlt]
    exact congrArg some (fresh_getElem hf.2 hlt (Nat.le_refl _))⟩
  rw [this, e4]

end

/-- `set("abc", 3)`, `set("x", 1)`: the C accessor shows "xbc". -/
example : ∃ es y, StrCall.runAll 8 [.setData [0x61, 0x62, 0x63], .setData [0x78]] (StrObj.init 8) = .ok (es, y) ∧
    y.chars = [0x78] ∧ y.cText = .ok [0x78, 0x62, 0x63] := ⟨_, _, rfl, by decide, by decide⟩

/-- A string of maximum length has no terminator. -/
theorem C50_full (cap : Nat) (s : List Byte) (x y : StrObj) (hs : 0 ∉ s) (hl : cap ≤ s.length) (h0 : 0 < cap)
    (hc : cap < 2147483648) (hx : (ElemTy.str cap).Reach x) (hr : x.setCStr cap s = .ok y) : y.cText = .ub := by
  have ix : x.WF cap := ElemTy.reach_inv (.str cap) ⟨h0, hc⟩ hx
  rw [StrObj.setCStr_eq cap x s ix hc] at hr
  injection hr with hr
  subst hr
  unfold StrObj.cText
  rw [if_neg]
  dsimp only
  rw [show min (s.length + 1) cap = cap by omega, List.drop_eq_nil_of_le (Nat.le_of_eq ix.1), List.append_nil,
    List.take_append_of_le_length hl]
  exact fun h => hs (List.mem_of_mem_take h)

/-- **C50** is false. -/
theorem C50_false : ¬ ∀ cap, C50_Statement cap := fun h => by
  have := h 8 [.setData [0x61, 0x62, 0x63], .setData [0x78]] [.noErrors, .noErrors]
    ⟨1, [0x78, 0x62, 0x63, 0, 0, 0, 0, 0]⟩ (by decide) (by decide) (by
      intro c hc
      rcases List.mem_cons.mp hc with rfl | hc
      · trivial
      rcases List.mem_cons.mp hc with rfl | hc
      · trivial
      · exact nomatch hc) rfl (by decide)
  exact absurd this (by decide)

/-- A history that meets the conditions of `C50_history_partial`. -/
example : ∃ es y, StrCall.runAll 4 [.setData [0x61], .set 1 0x62, .setData [1, 2, 3, 4, 5]] (StrObj.init 4) = .ok (es, y) ∧
    y.chars = [0x61, 0x62] ∧ y.cText = .ok [0x61, 0x62] ∧
    ListOp.peakAll 4 0 (([.setData [0x61], .set 1 0x62, .setData [1, 2, 3, 4, 5]] : List StrCall).map StrCall.op) [] 0 = 2 :=
  ⟨_, _, rfl, by decide, by decide, by decide⟩

end EP
