import Verif.Proof.GenProper

/-!
# The accessors of the rendered class
-/

namespace EP.Gen

set_option linter.unusedSectionVars false

variable {E : Types} {name : Str} {m : GMessage} {nested : List Str}
variable (H : Proper E m) (D : (render true E name m).Distinct nested)

local notation "K" => render true E name m

theorem _root_.EP.Member.readUnion_need {a : Alts} {num : Nat} {t : ElemTy} (m : Member a num t) (u : Option a.cls.U) :
    m.readUnion u = need (u.bind m.projState) := by
  induction m with
  | here n t rest =>
    cases u with
    | none => rfl
    | some u => cases u <;> rfl
  | after k t m ih =>
    cases u with
    | none => rfl
    | some u =>
      cases u with
      | inl => rfl
      | inr u => exact ih (some u)

/-! ## Outside oneofs -/

section
variable {g : GField} {s : ASlot (classFields E m.fields)} (h : (g, some s) ∈ entries E m.fields)
include H D h

omit H in
theorem get_source {f : Str} {sig : Sig} (hf : (Class.fun? K f sig).bind Body.source = some (.var (under g.desc.name)))
    {α : Type} (G : (C : FieldClass) → C.State → Res α) (o : Class.Obj K) :
    Class.runGet K f sig G o = G (s.c.cls s.t) (s.slot.state 0 o.fields) := by
  unfold Class.runGet
  rw [hf]
  dsimp only
  rw [ref_var D h]
  rfl

/-- `get_x()` -/
theorem runGet_get {α : Type} (G : (C : FieldClass) → C.State → Res α) (o : Class.Obj K) :
    Class.runGet K (getName g.desc.name) .const G o = G (s.c.cls s.t) (s.slot.state 0 o.fields) :=
  get_source D h (by rw [fun_get D h]; rfl) G o

/-- `x()` -/
theorem runGet_name {α : Type} (G : (C : FieldClass) → C.State → Res α) (o : Class.Obj K) :
    Class.runGet K g.desc.name .const G o = G (s.c.cls s.t) (s.slot.state 0 o.fields) := by
  have h1 : g.shape ≠ .recursive := (entries_ok m.fields _ h).1
  refine get_source D h ?_ G o
  rw [show Class.fun? K g.desc.name .const = some (.get (.var (under g.desc.name))) from
    fun_field (name := name) D (entries_some_mem h) (f := g.desc.name) (b := .get (.var (under g.desc.name))) ?_]
  · rfl
  · cases e : g.shape
    · exact absurd e h1
    · simp [fieldFuns, e]
    · cases ho : g.desc.proto3Optional <;> simp [fieldFuns, e, ho]

/-- `x(index)` -/
theorem runGet_at (hr : g.shape = .repeated) {α : Type} (G : (C : FieldClass) → C.State → Res α) (o : Class.Obj K) :
    Class.runGet K g.desc.name .constAt G o = G (s.c.cls s.t) (s.slot.state 0 o.fields) := by
  refine get_source D h ?_ G o
  rw [show Class.fun? K g.desc.name .constAt = some (.at (.var (under g.desc.name))) from
    fun_field (name := name) D (entries_some_mem h) (f := g.desc.name) (b := .at (.var (under g.desc.name))) ?_]
  · rfl
  · simp [fieldFuns, hr]

theorem on_plain {f : Str} {sig : Sig} (hf : (Class.fun? K f sig).bind Body.target = some ([], .var (under g.desc.name)))
    (hc : s.c ≠ .opt) (G : (C : FieldClass) → C.State → Res C.State) (o : Class.Obj K) :
    Class.runOn K f sig G o = onFields (s.slot.access 0 (G (s.c.cls s.t))) o := by
  unfold Class.runOn
  rw [hf]
  dsimp only
  rw [Class.stmts_nil, Res.ok_bind, ref_var D h]
  unfold onFields
  rw [s.slot.access_eq, mark_ne hc]
  show (G (s.c.cls s.t) (s.slot.state 0 o.fields) >>= _ : Res _) = _
  rw [Res.ok_bind]
  cases G (s.c.cls s.t) (s.slot.state 0 o.fields) <;> rfl

/-- `mutable_x()` -/
theorem runOn_mutable (ht : g.desc.type ≠ .enum ∨ g.shape = .repeated) (G : (C : FieldClass) → C.State → Res C.State)
    (o : Class.Obj K) :
    Class.runOn K (mutableName g.desc.name) .mutable G o = onFields (s.slot.access 0 (G (s.c.cls s.t))) o := by
  have h1 : g.shape ≠ .recursive := (entries_ok m.fields _ h).1
  have hm := entries_some_mem h
  rcases entry_opt H.single h with ⟨ho, hsh, hc⟩ | ⟨ho, hc⟩
  · have ht : g.desc.type ≠ .enum := ht.resolve_right (by rw [hsh]; decide)
    have hfun := fun_field (name := name) D hm (f := mutableName g.desc.name)
      (b := .ref [.act (.setBit (upper g.desc.name))] (.var (under g.desc.name)))
      (by simp [fieldFuns, hsh, ho, ht])
    unfold Class.runOn
    have hfun : Class.fun? K (mutableName g.desc.name) .mutable = _ := hfun
    rw [hfun]
    show (Class.stmts K _ _ _ o >>= _ : Res _) = _
    rw [Class.stmts_cons, Class.stmt_act, act_setBit H D h ho]
    unfold onFields
    rw [s.slot.access_eq, mark_opt hc]
    dsimp only
    cases Presence.setBit o.presence (s.slot.bit 0) with
    | ub => rfl
    | diverge => rfl
    | ok p =>
      rw [Res.ok_bind, Res.ok_bind, Res.ok_bind, Class.stmts_nil, Res.ok_bind, ref_var D h]
      show (G (s.c.cls s.t) (s.slot.state 0 o.fields) >>= _ : Res _) = _
      cases G (s.c.cls s.t) (s.slot.state 0 o.fields) <;> rfl
  · refine on_plain H D h ?_ hc G o
    rw [show Class.fun? K (mutableName g.desc.name) .mutable = some (.ref [] (.var (under g.desc.name))) from
      fun_field (name := name) D hm (f := mutableName g.desc.name) (b := .ref [] (.var (under g.desc.name))) (by
        cases e : g.shape
        · exact absurd e h1
        · simp [fieldFuns, e]
        · have ht : g.desc.type ≠ .enum := ht.resolve_right (by rw [e]; decide)
          simp [fieldFuns, e, ho, ht])]
    rfl

/-- `mutable_x(index)`, `set_x(index, value)`, `add_x(value)` of a repeated field. -/
theorem runOn_repeated (hr : g.shape = .repeated) (G : (C : FieldClass) → C.State → Res C.State) (o : Class.Obj K) :
    Class.runOn K (mutableName g.desc.name) .mutableAt G o = onFields (s.slot.access 0 (G (s.c.cls s.t))) o ∧
    Class.runOn K (setName g.desc.name) .setAt G o = onFields (s.slot.access 0 (G (s.c.cls s.t))) o ∧
    Class.runOn K (addName g.desc.name) .value G o = onFields (s.slot.access 0 (G (s.c.cls s.t))) o := by
  have hm := entries_some_mem h
  have hc : s.c ≠ .opt := by
    rcases entry_opt H.single h with ⟨_, hsh, _⟩ | ⟨_, hc⟩
    · rw [hr] at hsh
      exact nomatch hsh
    · exact hc
  refine ⟨on_plain H D h ?_ hc G o, on_plain H D h ?_ hc G o, on_plain H D h ?_ hc G o⟩
  · rw [show Class.fun? K (mutableName g.desc.name) .mutableAt = some (.refAt (.var (under g.desc.name))) from
      fun_field (name := name) D hm (f := mutableName g.desc.name) (b := .refAt (.var (under g.desc.name)))
        (by simp [fieldFuns, hr])]
    rfl
  · rw [show Class.fun? K (setName g.desc.name) .setAt = some (.setAt (.var (under g.desc.name))) from
      fun_field (name := name) D hm (f := setName g.desc.name) (b := .setAt (.var (under g.desc.name)))
        (by simp [fieldFuns, hr])]
    rfl
  · rw [show Class.fun? K (addName g.desc.name) .value = some (.add (.var (under g.desc.name))) from
      fun_field (name := name) D hm (f := addName g.desc.name) (b := .add (.var (under g.desc.name)))
        (by simp [fieldFuns, hr])]
    rfl

end

/-! ## Members of a oneof -/

section
variable {e : OEntry E (classOneofs E m.oneofs)} (he : e ∈ oEntries E m.oneofs) (ok : AltsOk (classAlts E e.o.fields))
variable {f : AEntry E (classAlts E e.o.fields)} (hf : f ∈ aEntries E e.o.fields)
include H D he ok hf

/-- `mutable_x()` of a member. -/
theorem runOn_member (ht : f.g.desc.type = .string ∨ f.g.desc.type = .bytes ∨ f.g.desc.type = .message)
    (G : (C : FieldClass) → C.State → Res C.State) (x : Class.Obj K)
    (hx : (classAlts E e.o.fields).spec.ObjInv (getU e x)) :
    Class.runOn K (mutableName f.g.desc.name) .mutable G x =
      onOneofs (e.slot.access (touchMember (classAlts E e.o.fields).cls f.g.desc.number
        (f.member.access (G (E.elem f.g.desc).cls)))) x := by
  have hm := oEntries_mem he
  have hg := aEntries_mem (not_recursive H he) hf
  have hfun : Class.fun? K (mutableName f.g.desc.name) .mutable = _ :=
    fun_member (name := name) D hm hg (f := mutableName f.g.desc.name)
      (b := .ref [activateStmt e.o.name f.g] (.alt (under e.o.name) (under f.g.desc.name))) (by
        rcases ht with ht | ht | ht <;> simp [altFuns, (H.member _ hm _ hg).1, ht])
  rw [onOneofs_access, f.member.touch_eq ok.wf ok.nodup ok.zero hx]
  unfold Class.runOn
  rw [hfun]
  show (Class.stmts K _ _ _ x >>= _ : Res _) = _
  rw [Class.stmts_cons, show Class.stmt K (Class.call K Class.depth) .none (activateStmt e.o.name f.g) x = _ from
    stmt_activate H D he ok hf x hx 1 .none, Res.ok_bind, Class.stmts_nil, Res.ok_bind]
  obtain ⟨r, h1, h2, h3⟩ := get_member H D he hf (x := setU e x ⟨f.g.desc.number,
    some (f.member.injState (f.member.current (getU e x)))⟩) (getU_setU _ _)
  rw [h1]
  subst h2
  dsimp only
  rw [h3]
  show (G (E.elem f.g.desc).cls (f.member.current (getU e x)) >>= fun v => .ok (setU e (setU e x _)
    ⟨(getU e (setU e x ⟨f.g.desc.number, some (f.member.injState (f.member.current (getU e x)))⟩)).which,
      some (f.member.injState v)⟩) : Res _) = _
  rw [getU_setU]
  cases G (E.elem f.g.desc).cls (f.member.current (getU e x)) with
  | ub => rfl
  | diverge => rfl
  | ok v =>
    show Res.ok (setU e (setU e x _) _) = Res.ok _
    rw [setU_setU]

/-- `set_x(y.get_x())` of a member. -/
theorem call_set_touch (x r : Class.Obj K) (hx : (classAlts E e.o.fields).spec.ObjInv (getU e x)) {k : Nat} {z}
    (hr : getU e r = ⟨k, some (f.member.injState z)⟩) (d : Nat) :
    Class.call K (d + 3) (setName f.g.desc.name) (.value (.alt (under e.o.name) (under f.g.desc.name)) r) x =
      onOneofs (e.slot.access (touchMember (classAlts E e.o.fields).cls f.g.desc.number
        (f.member.access ((E.elem f.g.desc).cls.set · z)))) x := by
  rw [onOneofs_access, f.member.touch_eq ok.wf ok.nodup ok.zero hx, call_set_member H D he ok hf x r hx hr d]
  cases (E.elem f.g.desc).cls.set (f.member.current (getU e x)) z <;> rfl

/-- `has_x()` of a member. -/
theorem callTest_member (x : Class.Obj K) :
    Class.callTest K (hasName f.g.desc.name) x = .ok (f.g.desc.number == (getU e x).which) := by
  have hm := oEntries_mem he
  have hg := aEntries_mem (not_recursive H he) hf
  have hnum := number_member (name := name) H D hm hg
  have hfun : Class.fun? K (hasName f.g.desc.name) .const = _ :=
    fun_member (name := name) D hm hg (f := hasName f.g.desc.name)
      (b := .test (.whichIs (upper f.g.desc.name) (whichName e.o.name))) (by
        simp [altFuns, (H.member _ hm _ hg).1])
  unfold Class.callTest
  rw [hfun]
  show (Class.number K (upper f.g.desc.name) >>= fun n => Class.getWhich K (whichName e.o.name) x >>=
    fun k => pure (n == k) : Res _) = _
  rw [hnum, Res.ok_bind, getWhich_getU D he, Res.ok_bind]
  rfl

/-- `get_x()` and `x()` of a member. -/
theorem runGet_member {n : Str} (hn : n = getName f.g.desc.name ∨ n = f.g.desc.name) {α : Type}
    (G : (C : FieldClass) → C.State → Res α) (x : Class.Obj K) :
    Class.runGet K n .const G x = f.member.readUnion (getU e x).live >>= G (E.elem f.g.desc).cls := by
  have hm := oEntries_mem he
  have hg := aEntries_mem (not_recursive H he) hf
  have hfun : Class.fun? K n .const = some (.get (.alt (under e.o.name) (under f.g.desc.name))) :=
    fun_member (name := name) D hm hg (f := n)
      (b := .get (.alt (under e.o.name) (under f.g.desc.name))) (by
        rcases hn with rfl | rfl <;> simp [altFuns, (H.member _ hm _ hg).1])
  unfold Class.runGet
  rw [show (Class.fun? K n .const).bind Body.source = some (.alt (under e.o.name) (under f.g.desc.name)) by rw [hfun]; rfl]
  dsimp only
  rw [ref_member H D he hf]
  show (need ((getU e x).live.bind f.member.projState) >>= G (E.elem f.g.desc).cls : Res _) = _
  rw [f.member.readUnion_need]

end

/-! ## Names of numbers -/

def allFields (m : GMessage) : List GField := m.fields ++ m.oneofs.flatMap (·.fields)

section
include H D

theorem number_any {g : GField} (hg : g ∈ allFields m) : Class.number K (upper g.desc.name) = .ok g.desc.number := by
  rcases List.mem_append.mp hg with h | h
  · exact number_field H D h
  · obtain ⟨o, ho, h⟩ := List.mem_flatMap.mp h
    exact number_member H D ho h

theorem select_names (n : Nat) : ∀ gs : List GField, (∀ g ∈ gs, g ∈ allFields m) →
    Class.select K n (gs.map fun g => (upper g.desc.name, constName g.desc.name)) =
      .ok ((gs.find? (·.desc.number == n)).map fun g => constName g.desc.name)
  | [], _ => rfl
  | g :: gs, hg => by
    show (Class.number K (upper g.desc.name) >>= _ : Res _) = _
    rw [number_any H D (hg g List.mem_cons_self), Res.ok_bind]
    by_cases hn : n = g.desc.number
    · rw [if_pos hn, List.find?_cons_of_pos (by rw [hn]; exact beq_self_eq_true _)]
      rfl
    · rw [if_neg hn, List.find?_cons_of_neg (by simpa using Ne.symm hn)]
      exact select_names n gs fun g h => hg g (List.mem_cons_of_mem _ h)

omit H in
theorem consts_nodup : ((K).consts.map (·.1)).Nodup := by
  have := D.scope
  unfold Class.declared at this
  have := (List.pairwise_append.mp this).1
  have := (List.pairwise_append.mp this).1
  have := (List.pairwise_append.mp this).2.1
  refine nodup_of_clashes ?_
  rw [List.map_map]
  exact this

end

/-! ## Without enums in oneofs every member is constructed -/

omit H D in
theorem render_alloc (h : ∀ o ∈ m.oneofs, ∀ g ∈ o.fields, g.desc.type ≠ .enum) :
    render false E name m = render true E name m := by
  have ha : ∀ o ∈ m.oneofs, ∀ g ∈ o.fields, g.allocate = true := by
    intro o ho g hg
    unfold GField.allocate
    simpa using h o ho g hg
  have hf : (m.oneofs.flatMap fun o => oneofFuns false o ++ o.fields.flatMap (altFuns false o.name)) =
      m.oneofs.flatMap fun o => oneofFuns true o ++ o.fields.flatMap (altFuns true o.name) := by
    unfold List.flatMap
    refine congrArg List.flatten (List.map_congr_left fun o ho => ?_)
    have h1 : oneofFuns false o = oneofFuns true o := by
      unfold oneofFuns
      have e1 : (o.fields.filter fun g => false || g.allocate) = o.fields.filter fun g => true || g.allocate :=
        List.filter_congr fun g hg => by rw [ha o ho g hg]; rfl
      have e2 : (o.fields.map fun g => (upper g.desc.name, [if (false || g.allocate) = true then
          Act.destroy (.alt (under o.name) (under g.desc.name)) else .clear (.alt (under o.name) (under g.desc.name))])) =
          o.fields.map fun g => (upper g.desc.name, [if (true || g.allocate) = true then
          Act.destroy (.alt (under o.name) (under g.desc.name)) else .clear (.alt (under o.name) (under g.desc.name))]) :=
        List.map_congr_left fun g hg => by rw [ha o ho g hg]; rfl
      dsimp only
      rw [e1, e2]
    have h2 : o.fields.map (altFuns false o.name) = o.fields.map (altFuns true o.name) :=
      List.map_congr_left fun g hg => by
        unfold altFuns
        rw [ha o ho g hg]
        rfl
    rw [h1, h2]
  unfold render
  rw [hf]

end EP.Gen
