import Verif.Proof.GenFields

/-!
# The statements for oneofs
-/

namespace EP

theorem OneofSlot.setState_setState {os : Oneofs} {a : Alts} (s : OneofSlot os a) (x : os.cls.State)
    (v w : OneofObj a.cls.U) : s.setState (s.setState x v) w = s.setState x w := by
  induction s with
  | here => rfl
  | after _ s ih => exact congrArg (Prod.mk x.1) (ih x.2 v w)

namespace Gen

variable {E : Types} {name : Str} {m : GMessage} {nested : List Str}

/-- What is known about the members of a oneof. -/
structure AltsOk (a : Alts) : Prop where
  wf : a.WF
  nodup : a.numbers.Nodup
  zero : 0 ∉ a.numbers

section
variable (H : Proper E m) (D : (render true E name m).Distinct nested)

local notation "K" => render true E name m

/-- The object with another content of the union. -/
def setU (e : OEntry E (classOneofs E m.oneofs)) (x : Class.Obj K) (o : OneofObj (classAlts E e.o.fields).cls.U) :
    Class.Obj K := { x with oneofs := e.slot.setState x.oneofs o }

/-- The content of the union. -/
def getU (e : OEntry E (classOneofs E m.oneofs)) (x : Class.Obj K) : OneofObj (classAlts E e.o.fields).cls.U :=
  e.slot.state x.oneofs

variable {e : OEntry E (classOneofs E m.oneofs)} (he : e ∈ oEntries E m.oneofs) (ok : AltsOk (classAlts E e.o.fields))

theorem getU_setU (x : Class.Obj K) (o) : getU e (setU e x o) = o := e.slot.state_setState _ o

theorem setU_setU (x : Class.Obj K) (o o') : setU e (setU e x o) o' = setU e x o' := by
  exact congrArg (fun v => ({ x with oneofs := v } : Class.Obj K)) (e.slot.setState_setState x.oneofs o o')

theorem setU_getU (x : Class.Obj K) : setU e x (getU e x) = x := by
  exact congrArg (fun v => ({ x with oneofs := v } : Class.Obj K)) (e.slot.setState_state x.oneofs)

include H D he

omit D in
theorem not_recursive : ∀ g ∈ e.o.fields, g.shape ≠ .recursive := fun g hg => by
  rw [(H.member _ (oEntries_mem he) g hg).1]; decide

omit H in
theorem getWhich_getU (x : Class.Obj K) : Class.getWhich K (whichName e.o.name) x = .ok (getU e x).which :=
  getWhich_eq D he x

omit H in
theorem putWhich_setU (n : Nat) (x : Class.Obj K) :
    Class.putWhich K (whichName e.o.name) n x = .ok (setU e x ⟨n, (getU e x).live⟩) := putWhich_eq D he n x

theorem select_map {α : Type} (n : Nat) (b : GField → α) : ∀ gs : List GField, (∀ g ∈ gs, g ∈ e.o.fields) →
    Class.select K n (gs.map fun g => (upper g.desc.name, b g)) = .ok ((gs.find? (·.desc.number == n)).map b)
  | [], _ => rfl
  | g :: gs, hg => by
    show (Class.number K (upper g.desc.name) >>= _ : Res _) = _
    rw [number_member H D (oEntries_mem he) (hg g List.mem_cons_self), Res.ok_bind]
    by_cases hn : n = g.desc.number
    · rw [if_pos hn, List.find?_cons_of_pos (by rw [hn]; exact beq_self_eq_true _)]
      rfl
    · rw [if_neg hn, List.find?_cons_of_neg (by simp only [beq_iff_eq]; exact fun e => hn e.symm)]
      exact select_map n b gs fun g h => hg g (List.mem_cons_of_mem _ h)

include ok in
omit D in
theorem numbers_nodup : (e.o.fields.map (·.desc.number)).Nodup := by
  have := ok.nodup
  rwa [classAlts_numbers E _ (not_recursive H he)] at this

include ok in
omit D in
theorem zero_notMem : ∀ g ∈ e.o.fields, g.desc.number ≠ 0 := by
  intro g hg h0
  have := ok.zero
  rw [classAlts_numbers E _ (not_recursive H he)] at this
  exact this (h0 ▸ List.mem_map_of_mem (f := (·.desc.number)) hg)

include ok in
omit D in
theorem find_number {f : AEntry E (classAlts E e.o.fields)} (hf : f ∈ aEntries E e.o.fields) :
    e.o.fields.find? (·.desc.number == f.g.desc.number) = some f.g := by
  have hn := numbers_nodup H he ok
  unfold List.Nodup at hn
  rw [List.pairwise_map] at hn
  exact find?_of_pairwise (R := fun a b : GField => a.desc.number == b.desc.number)
    (fun _ _ => beq_self_eq_true _) (hn.imp fun h => beq_false_of_ne h) (aEntries_mem (not_recursive H he) hf)

include ok in
omit D in
theorem find_zero : e.o.fields.find? (·.desc.number == 0) = none := by
  rw [List.find?_eq_none]
  intro g hg
  simpa using zero_notMem H he ok g hg

theorem get_member {f : AEntry E (classAlts E e.o.fields)} (hf : f ∈ aEntries E e.o.fields) {n : Nat} {y}
    {x : Class.Obj K} (hx : getU e x = ⟨n, some (f.member.injState y)⟩) :
    ∃ r, Class.ref K (.alt (under e.o.name) (under f.g.desc.name)) = some r ∧
      r = (Class.altRef K ⟨e.slot, varNames e.o.fields⟩ ⟨f.member⟩) ∧
      (Class.altRef K ⟨e.slot, varNames e.o.fields⟩ ⟨f.member⟩).get x = .ok y := by
  refine ⟨_, ref_member H D he hf, rfl, ?_⟩
  show need ((getU e x).live.bind f.member.projState) = _
  rw [hx]
  dsimp only
  rw [Option.bind_some, f.member.projState_injState]
  rfl

theorem act_destroy {f : AEntry E (classAlts E e.o.fields)} (hf : f ∈ aEntries E e.o.fields) {n : Nat} {y}
    {x : Class.Obj K} (hx : getU e x = ⟨n, some (f.member.injState y)⟩) (call) (a : Class.Arg (Class.Obj K)) :
    Class.act K call a (.destroy (.alt (under e.o.name) (under f.g.desc.name))) x = .ok (setU e x ⟨n, none⟩) := by
  obtain ⟨r, h1, h2, h3⟩ := get_member H D he hf hx
  unfold Class.act
  dsimp only
  rw [h1]
  subst h2
  dsimp only
  rw [h3]
  show Res.ok (setU e x ⟨(getU e x).which, none⟩) = _
  rw [hx]

theorem act_new {f : AEntry E (classAlts E e.o.fields)} (hf : f ∈ aEntries E e.o.fields)
    (x : Class.Obj K) (call) (a : Class.Arg (Class.Obj K)) :
    Class.act K call a (.new (.alt (under e.o.name) (under f.g.desc.name))) x =
      .ok (setU e x ⟨(getU e x).which, some (f.member.injState (E.elem f.g.desc).cls.init)⟩) := by
  unfold Class.act
  dsimp only
  rw [ref_member H D he hf]
  rfl

include ok

theorem call_clear_cases (x : Class.Obj K) (hx : getU e x = ⟨0, none⟩ ∨
      ∃ f ∈ aEntries E e.o.fields, ∃ y, getU e x = ⟨f.g.desc.number, some (f.member.injState y)⟩) (d : Nat) :
    Class.call K (d + 1) (clearName e.o.name) .none x = .ok (setU e x ⟨0, none⟩) := by
  have hm := oEntries_mem he
  have hfun : Class.fun? K (clearName e.o.name) .mutable = _ :=
    fun_oneof (name := name) D hm (f := clearName e.o.name) (b := .run _) (by
      unfold oneofFuns
      exact List.mem_cons_of_mem _ (List.mem_cons_of_mem _ List.mem_cons_self))
  rw [call_run hfun, Class.stmts_cons]
  have hsw : Class.stmt K (Class.call K d) .none (.switch (.which (whichName e.o.name)) (e.o.fields.map fun g =>
        (upper g.desc.name, [if true || g.allocate then Act.destroy (.alt (under e.o.name) (under g.desc.name))
          else .clear (.alt (under e.o.name) (under g.desc.name))]))) x = .ok (setU e x ⟨(getU e x).which, none⟩) := by
    show (Class.getWhich K (whichName e.o.name) x >>= fun n => Class.select K n _ >>= _ : Res _) = _
    rw [getWhich_getU D he, Res.ok_bind, select_map H D he _ _ _ (fun _ h => h)]
    rcases hx with h0 | ⟨f, hf, y, h1⟩
    · have hw : (getU e x).which = 0 := by rw [h0]
      rw [hw, find_zero H he ok]
      show Res.ok x = Res.ok (setU e x ⟨0, none⟩)
      rw [← h0, setU_getU]
    · have hw : (getU e x).which = f.g.desc.number := by rw [h1]
      rw [hw, find_number H he ok hf, Option.map_some, Res.ok_bind]
      dsimp only
      rw [Bool.true_or, if_pos rfl, Class.acts_one]
      exact act_destroy H D he hf h1 _ _
  rw [hsw, Res.ok_bind, Class.stmts_cons, Class.stmt_act]
  unfold Class.act
  dsimp only
  rw [number_notSet D, Res.ok_bind, putWhich_setU D he, getU_setU, setU_setU]
  rfl

/-- `clear_o()` -/
theorem call_clear_oneof (x : Class.Obj K) (hx : (classAlts E e.o.fields).spec.ObjInv (getU e x)) (d : Nat) :
    Class.call K (d + 1) (clearName e.o.name) .none x = .ok (setU e x ⟨0, none⟩) :=
  call_clear_cases H D he ok x (oneof_cases (not_recursive H he) ok.wf ok.nodup hx) d

/-- `init_o(FieldNumber::X)` -/
theorem call_init {f : AEntry E (classAlts E e.o.fields)} (hf : f ∈ aEntries E e.o.fields) (x : Class.Obj K)
    (hx : (classAlts E e.o.fields).spec.ObjInv (getU e x)) (d : Nat) :
    Class.call K (d + 2) (initName e.o.name) (.id f.g.desc.number) x =
      .ok (setU e x ⟨f.g.desc.number, some (f.member.injState (E.elem f.g.desc).cls.init)⟩) := by
  have hm := oEntries_mem he
  have hfun : Class.fun? K (initName e.o.name) .id = _ :=
    fun_oneof (name := name) D hm (f := initName e.o.name) (b := .id _) (by
      unfold oneofFuns
      exact List.mem_cons_of_mem _ List.mem_cons_self)
  rw [call_id hfun, Class.stmts_cons]
  have h1 : Class.stmt K (Class.call K (d + 1)) (.id f.g.desc.number)
      (.ite (.whichNot notSet (whichName e.o.name)) [.call (clearName e.o.name)] []) x = .ok (setU e x ⟨0, none⟩) := by
    show ((Class.number K notSet >>= fun n => Class.getWhich K (whichName e.o.name) x >>= fun k => pure (n != k)) >>= _ : Res _) = _
    rw [number_notSet D, Res.ok_bind, getWhich_getU D he, Res.ok_bind, Res.pure_eq, Res.ok_bind]
    by_cases hw : (getU e x).which = 0
    · rw [hw, if_neg (by decide)]
      show Res.ok x = _
      rcases oneof_cases (not_recursive H he) ok.wf ok.nodup hx with h0 | ⟨f, hf, y, h1⟩
      · rw [← h0, setU_getU]
      · rw [h1] at hw
        exact absurd hw (zero_notMem H he ok f.g (aEntries_mem (not_recursive H he) hf))
    · rw [if_pos (by simpa using fun h => hw h.symm), Class.acts_one]
      exact call_clear_oneof H D he ok x hx d
  rw [h1, Res.ok_bind, Class.stmts_cons]
  have h2 : Class.stmt K (Class.call K (d + 1)) (.id f.g.desc.number)
      (.switch .arg ((e.o.fields.filter fun g => true || g.allocate).map fun g =>
        (upper g.desc.name, [Act.new (.alt (under e.o.name) (under g.desc.name))]))) (setU e x ⟨0, none⟩) =
      .ok (setU e x ⟨0, some (f.member.injState (E.elem f.g.desc).cls.init)⟩) := by
    have hfil : (e.o.fields.filter fun g => true || g.allocate) = e.o.fields :=
      List.filter_eq_self.mpr fun g _ => Bool.true_or _
    rw [hfil]
    show (Class.select K f.g.desc.number _ >>= _ : Res _) = _
    rw [select_map H D he _ _ _ (fun _ h => h), find_number H he ok hf, Option.map_some, Res.ok_bind]
    dsimp only
    rw [Class.acts_one, act_new H D he hf, getU_setU, setU_setU]
  rw [h2, Res.ok_bind, Class.stmts_cons, Class.stmt_act]
  unfold Class.act
  dsimp only
  rw [putWhich_setU D he, getU_setU, setU_setU]
  rfl

omit ok he H D in
theorem onOneofs_access (g : OneofObj (classAlts E e.o.fields).cls.U → Res (OneofObj (classAlts E e.o.fields).cls.U))
    (x : Class.Obj K) : onOneofs (e.slot.access g) x = g (getU e x) >>= fun o => .ok (setU e x o) := by
  unfold onOneofs
  rw [e.slot.access_eq]
  show ((g (e.slot.state x.oneofs) >>= _) >>= _ : Res _) = (g (e.slot.state x.oneofs) >>= _ : Res _)
  cases g (e.slot.state x.oneofs) <;> rfl

theorem call_activate {f : AEntry E (classAlts E e.o.fields)} (hf : f ∈ aEntries E e.o.fields) (x : Class.Obj K)
    (hx : (classAlts E e.o.fields).spec.ObjInv (getU e x)) (d : Nat) :
    (if f.g.desc.number ≠ (getU e x).which then Class.call K (d + 2) (initName e.o.name) (.id f.g.desc.number) x
      else pure x : Res (Class.Obj K)) =
      .ok (setU e x ⟨f.g.desc.number, some (f.member.injState (f.member.current (getU e x)))⟩) := by
  by_cases hw : f.g.desc.number = (getU e x).which
  · rw [if_neg (fun h => h hw)]
    show Res.ok x = _
    obtain ⟨y, hy⟩ : ∃ y, getU e x = ⟨f.g.desc.number, some (f.member.injState y)⟩ := by
      cases hl : getU e x with
      | mk w l =>
        rw [hl] at hw hx
        dsimp only at hw
        subst hw
        cases l with
        | none =>
          have : f.g.desc.number = 0 := hx
          exact absurd this (zero_notMem H he ok f.g (aEntries_mem (not_recursive H he) hf))
        | some u =>
          have hu : f.g.desc.number = (classAlts E e.o.fields).spec.num u := hx.1
          obtain ⟨y, rfl⟩ := f.member.of_num ok.wf ok.nodup u hu.symm
          exact ⟨y, rfl⟩
    have hc : f.member.current (getU e x) = y := by
      rw [hy]
      unfold Member.current
      rw [Option.bind_some, f.member.projState_injState]
      rfl
    rw [hc, ← hy, setU_getU]
  · rw [if_pos hw, call_init H D he ok hf x hx d]
    have hc : f.member.current (getU e x) = (E.elem f.g.desc).cls.init := by
      unfold Member.current
      cases hl : getU e x with
      | mk w l =>
        rw [hl] at hw hx
        cases l with
        | none => rfl
        | some u =>
          have hu : w = (classAlts E e.o.fields).spec.num u := hx.1
          rw [Option.bind_some, f.member.projState_of_num ok.wf ok.nodup u (fun h => hw (h.symm.trans hu.symm))]
          rfl
    rw [hc]

/-- `if(FieldNumber::X != which_o_) { init_o(FieldNumber::X); }` -/
theorem stmt_activate {f : AEntry E (classAlts E e.o.fields)} (hf : f ∈ aEntries E e.o.fields) (x : Class.Obj K)
    (hx : (classAlts E e.o.fields).spec.ObjInv (getU e x)) (d : Nat) (a : Class.Arg (Class.Obj K)) :
    Class.stmt K (Class.call K (d + 2)) a (activateStmt e.o.name f.g) x =
      .ok (setU e x ⟨f.g.desc.number, some (f.member.injState (f.member.current (getU e x)))⟩) := by
  have hnum := number_member (name := name) H D (oEntries_mem he) (aEntries_mem (not_recursive H he) hf)
  rw [← call_activate H D he ok hf x hx d]
  show ((Class.number K (upper f.g.desc.name) >>= fun n => Class.getWhich K (whichName e.o.name) x >>=
    fun k => pure (n != k)) >>= _ : Res _) = _
  rw [hnum, Res.ok_bind, getWhich_getU D he, Res.ok_bind, Res.pure_eq, Res.ok_bind]
  by_cases hw : f.g.desc.number = (getU e x).which
  · rw [if_neg (by simpa using hw), if_neg (fun h => h hw)]
    rfl
  · rw [if_pos (by simpa using hw), if_pos hw, Class.acts_one]
    unfold Class.act
    dsimp only
    rw [hnum, Res.ok_bind]

omit ok in
theorem act_assign_alt {f : AEntry E (classAlts E e.o.fields)} (hf : f ∈ aEntries E e.o.fields) {n k : Nat} {y z}
    {x r : Class.Obj K} (hx : getU e x = ⟨n, some (f.member.injState y)⟩)
    (hr : getU e r = ⟨k, some (f.member.injState z)⟩) (call) :
    Class.act K call (.value (.alt (under e.o.name) (under f.g.desc.name)) r)
      (.assign (.alt (under e.o.name) (under f.g.desc.name))) x =
      (E.elem f.g.desc).cls.set y z >>= fun v => .ok (setU e x ⟨n, some (f.member.injState v)⟩) := by
  obtain ⟨q, h1, h2, h3⟩ := get_member H D he hf hx
  obtain ⟨_, _, _, h3'⟩ := get_member H D he hf hr
  unfold Class.act
  dsimp only
  rw [h1]
  subst h2
  dsimp only
  rw [if_pos rfl, h3, h3']
  show ((E.elem f.g.desc).cls.set y z >>= fun v => .ok (setU e x ⟨(getU e x).which, some (f.member.injState v)⟩) : Res _) = _
  rw [hx]

/-- `set_x(rhs.get_x())` -/
theorem call_set_member {f : AEntry E (classAlts E e.o.fields)} (hf : f ∈ aEntries E e.o.fields) (x r : Class.Obj K)
    (hx : (classAlts E e.o.fields).spec.ObjInv (getU e x)) {k : Nat} {z}
    (hr : getU e r = ⟨k, some (f.member.injState z)⟩) (d : Nat) :
    Class.call K (d + 3) (setName f.g.desc.name) (.value (.alt (under e.o.name) (under f.g.desc.name)) r) x =
      (E.elem f.g.desc).cls.set (f.member.current (getU e x)) z >>= fun v =>
        .ok (setU e x ⟨f.g.desc.number, some (f.member.injState v)⟩) := by
  have hm := oEntries_mem he
  have hg := aEntries_mem (not_recursive H he) hf
  have hfun : Class.fun? K (setName f.g.desc.name) .value = _ :=
    fun_member (name := name) D hm hg (f := setName f.g.desc.name)
      (b := .value [activateStmt e.o.name f.g, .act (.assign (.alt (under e.o.name) (under f.g.desc.name)))]) (by
        simp [altFuns, (H.member _ hm _ hg).1])
  rw [call_value hfun, Class.stmts_cons, stmt_activate H D he ok hf x hx d, Res.ok_bind, Class.stmts_cons,
    Class.stmt_act, act_assign_alt H D he hf (getU_setU _ _) hr]
  show ((E.elem f.g.desc).cls.set (f.member.current (getU e x)) z >>= _ >>= _ : Res _) = _
  cases (E.elem f.g.desc).cls.set (f.member.current (getU e x)) z with
  | ub => rfl
  | diverge => rfl
  | ok v =>
    show Res.ok (setU e (setU e x _) _) = Res.ok _
    rw [setU_setU]

/-- `clear_x()` of a member. -/
theorem call_clear_member {f : AEntry E (classAlts E e.o.fields)} (hf : f ∈ aEntries E e.o.fields) (x : Class.Obj K)
    (hx : (classAlts E e.o.fields).spec.ObjInv (getU e x)) (d : Nat) :
    Class.call K (d + 1) (clearName f.g.desc.name) .none x =
      onOneofs (e.slot.access (clearMember (classAlts E e.o.fields).cls f.g.desc.number)) x := by
  have hm := oEntries_mem he
  have hg := aEntries_mem (not_recursive H he) hf
  have hnum := number_member (name := name) H D hm hg
  have hfun : Class.fun? K (clearName f.g.desc.name) .mutable = _ :=
    fun_member (name := name) D hm hg (f := clearName f.g.desc.name)
      (b := .run [.ite (.whichIs (upper f.g.desc.name) (whichName e.o.name))
        [.setWhich (whichName e.o.name) notSet, .destroy (.alt (under e.o.name) (under f.g.desc.name))] []]) (by
        simp [altFuns, (H.member _ hm _ hg).1])
  rw [call_run hfun, Class.stmts_cons, onOneofs_access]
  have : Class.stmt K (Class.call K d) .none (.ite (.whichIs (upper f.g.desc.name) (whichName e.o.name))
        [.setWhich (whichName e.o.name) notSet, .destroy (.alt (under e.o.name) (under f.g.desc.name))] []) x =
      clearMember (classAlts E e.o.fields).cls f.g.desc.number (getU e x) >>= fun o => .ok (setU e x o) := by
    show ((Class.number K (upper f.g.desc.name) >>= fun n => Class.getWhich K (whichName e.o.name) x >>=
      fun k => pure (n == k)) >>= _ : Res _) = _
    rw [hnum, Res.ok_bind, getWhich_getU D he, Res.ok_bind, Res.pure_eq, Res.ok_bind]
    unfold clearMember
    by_cases hw : f.g.desc.number = (getU e x).which
    · rw [if_pos (by simpa using hw), if_pos hw, clearObj_eq (Alts.base _ ok.wf ok.nodup).toAltsInit ok.zero _ hx,
        Res.ok_bind]
      rcases oneof_cases (not_recursive H he) ok.wf ok.nodup hx with h0 | ⟨f', hf', y, h1⟩
      · rw [h0] at hw
        exact absurd hw (zero_notMem H he ok f.g hg)
      · obtain ⟨y, hy⟩ : ∃ y, getU e x = ⟨f.g.desc.number, some (f.member.injState y)⟩ := by
          cases hl : getU e x with
          | mk w l =>
            rw [hl] at hw hx
            dsimp only at hw
            subst hw
            cases l with
            | none =>
              have : f.g.desc.number = 0 := hx
              exact absurd this (zero_notMem H he ok f.g hg)
            | some u =>
              have hu : f.g.desc.number = (classAlts E e.o.fields).spec.num u := hx.1
              obtain ⟨y, rfl⟩ := f.member.of_num ok.wf ok.nodup u hu.symm
              exact ⟨y, rfl⟩
        rw [Class.acts_two]
        have e1 : Class.act K (Class.call K d) .none (.setWhich (whichName e.o.name) notSet) x =
            .ok (setU e x ⟨0, some (f.member.injState y)⟩) := by
          unfold Class.act
          dsimp only
          rw [number_notSet D, Res.ok_bind, putWhich_setU D he, hy]
        rw [e1, Res.ok_bind, act_destroy H D he hf (getU_setU _ _), setU_setU]
        rfl
    · rw [if_neg (by simpa using hw), if_neg hw]
      show Res.ok x = Res.ok (setU e x (getU e x))
      rw [setU_getU]
  rw [this]
  cases clearMember (classAlts E e.o.fields).cls f.g.desc.number (getU e x) <;> rfl

omit ok H in
theorem callWhich_eq (x : Class.Obj K) : Class.callWhich K (getWhichName e.o.name) x = .ok (getU e x).which := by
  have hfun : Class.fun? K (getWhichName e.o.name) .const = _ :=
    fun_oneof (name := name) D (oEntries_mem he) (f := getWhichName e.o.name) (b := .getWhich (whichName e.o.name)) (by
      unfold oneofFuns
      exact List.mem_cons_self)
  unfold Class.callWhich
  rw [hfun]
  exact getWhich_getU D he x

/-- The statements for a oneof in `operator=`. -/
theorem stmts_assign_oneof (x r : Class.Obj K) (hx : (classAlts E e.o.fields).spec.ObjInv (getU e x))
    (hr : (classAlts E e.o.fields).spec.ObjInv (getU e r)) (d : Nat) :
    Class.stmts K (Class.call K (d + 3)) (.rhs r) (assignOneof e.o) x =
      onOneofs (e.slot.access ((classAlts E e.o.fields).cls.assignObj · (getU e r))) x := by
  have hm := oEntries_mem he
  unfold assignOneof
  have h1 : Class.stmt K (Class.call K (d + 3)) (.rhs r)
      (.ite (.rhsWhichNot (getWhichName e.o.name) (whichName e.o.name)) [.call (clearName e.o.name)] []) x =
      .ok (if (getU e r).which ≠ (getU e x).which then setU e x ⟨0, none⟩ else x) := by
    show ((Class.callWhich K (getWhichName e.o.name) r >>= fun n => Class.getWhich K (whichName e.o.name) x >>=
      fun k => pure (n != k)) >>= _ : Res _) = _
    rw [callWhich_eq D he, Res.ok_bind, getWhich_getU D he, Res.ok_bind, Res.pure_eq, Res.ok_bind]
    by_cases hw : (getU e r).which ≠ (getU e x).which
    · rw [if_pos (by simpa using hw), if_pos hw, Class.acts_one]
      exact call_clear_oneof H D he ok x hx _
    · rw [if_neg (by simpa using hw), if_neg hw]
      rfl
  rw [Class.stmts_cons, h1, Res.ok_bind, Class.stmts_cons, onOneofs_access]
  have h2 : Class.stmt K (Class.call K (d + 3)) (.rhs r) (.switch (.rhsWhich (getWhichName e.o.name)) (e.o.fields.map fun g =>
      (upper g.desc.name, [.callSet (setName g.desc.name) (getName g.desc.name)])))
      (if (getU e r).which ≠ (getU e x).which then setU e x ⟨0, none⟩ else x) =
      (classAlts E e.o.fields).cls.assignObj (getU e x) (getU e r) >>= fun o => .ok (setU e x o) := by
    show (Class.callWhich K (getWhichName e.o.name) r >>= fun n => Class.select K n _ >>= _ : Res _) = _
    rw [callWhich_eq D he, Res.ok_bind, select_map H D he _ _ _ (fun _ h => h)]
    rcases oneof_cases (not_recursive H he) ok.wf ok.nodup hr with h0 | ⟨f, hf, z, hz⟩
    · rw [h0, Alts.assignObj_none ok.wf ok.nodup ok.zero hx]
      dsimp only
      rw [find_zero H he ok]
      show Res.ok _ = Res.ok _
      by_cases hw : 0 ≠ (getU e x).which
      · rw [if_pos hw]
      · rw [if_neg hw]
        rcases oneof_cases (not_recursive H he) ok.wf ok.nodup hx with h0 | ⟨f, hf, y, h1⟩
        · rw [← h0, setU_getU]
        · rw [h1] at hw
          exact absurd (fun h => zero_notMem H he ok f.g (aEntries_mem (not_recursive H he) hf) h.symm) hw
    · have hg := aEntries_mem (not_recursive H he) hf
      rw [hz, f.member.assignObj ok.wf ok.nodup ok.zero hx]
      dsimp only
      rw [find_number H he ok hf, Option.map_some, Res.ok_bind]
      dsimp only
      rw [Class.acts_one]
      have hget : Class.fun? K (getName f.g.desc.name) .const = some (.get (.alt (under e.o.name) (under f.g.desc.name))) :=
        fun_member (name := name) D hm hg (f := getName f.g.desc.name)
          (b := .get (.alt (under e.o.name) (under f.g.desc.name))) (by
          cases ht : f.g.desc.type <;> simp [altFuns, (H.member _ hm _ hg).1, ht])
      have tail : ∀ x' : Class.Obj K, (classAlts E e.o.fields).spec.ObjInv (getU e x') →
          f.member.current (getU e x') = f.member.current (getU e x) → (∀ o, setU e x' o = setU e x o) →
          Class.act K (Class.call K (d + 3)) (.rhs r) (.callSet (setName f.g.desc.name) (getName f.g.desc.name)) x' =
          ((E.elem f.g.desc).cls.set (f.member.current (getU e x)) z >>= fun z =>
            Res.ok ⟨f.g.desc.number, some (f.member.injState z)⟩) >>= fun o => .ok (setU e x o) := by
        intro x' hx' hc hs
        unfold Class.act
        dsimp only
        rw [hget]
        dsimp only
        rw [call_set_member H D he ok hf x' r hx' hz, hc]
        show ((E.elem f.g.desc).cls.set (f.member.current (getU e x)) z >>= _ : Res _) = _
        cases (E.elem f.g.desc).cls.set (f.member.current (getU e x)) z with
        | ub => rfl
        | diverge => rfl
        | ok v => exact congrArg Res.ok (hs _)
      by_cases hw : f.g.desc.number ≠ (getU e x).which
      · rw [if_pos hw]
        refine tail _ (by rw [getU_setU]; rfl) ?_ (fun o => setU_setU _ _ _)
        rw [getU_setU]
        unfold Member.current
        cases hl : getU e x with
        | mk w l =>
          rw [hl] at hw hx
          cases l with
          | none => rfl
          | some u =>
            have hu : w = (classAlts E e.o.fields).spec.num u := hx.1
            dsimp only
            rw [Option.bind_some, f.member.projState_of_num ok.wf ok.nodup u (fun h => hw (h.symm.trans hu.symm))]
            rfl
      · rw [if_neg hw]
        exact tail x hx rfl fun _ => rfl
  rw [h2]
  cases (classAlts E e.o.fields).cls.assignObj (getU e x) (getU e r) <;> rfl

/-- The `switch` for a oneof in `serialize`. -/
theorem ser_oneof {ω : Type} [WriteBuffer ω] (x : Class.Obj K) (hx : (classAlts E e.o.fields).spec.ObjInv (getU e x))
    (r : Error × ω) :
    Class.ser K (.switch (whichName e.o.name) (e.o.fields.map fun g =>
      (upper g.desc.name, serField (.alt (under e.o.name) (under g.desc.name)) true g))) x r.1 r.2 =
      (classAlts E e.o.fields).cls.serialize (getU e x).which (getU e x).live r.1 r.2 := by
  have hm := oEntries_mem he
  obtain ⟨er, w⟩ := r
  show (Class.getWhich K (whichName e.o.name) x >>= fun n => Class.select K n _ >>= _ : Res _) = _
  rw [getWhich_getU D he, Res.ok_bind, select_map H D he _ _ _ (fun _ h => h)]
  rcases oneof_cases (not_recursive H he) ok.wf ok.nodup hx with h0 | ⟨f, hf, y, hy⟩
  · rw [h0]
    dsimp only
    rw [find_zero H he ok, Alts.serialize_none _ ok.zero]
    rfl
  · have hg := aEntries_mem (not_recursive H he) hf
    have hnum := number_member (name := name) H D hm hg
    rw [hy]
    dsimp only
    rw [find_number H he ok hf, f.member.serialize ok.nodup, Option.map_some, Res.ok_bind]
    have e1 : serField (.alt (under e.o.name) (under f.g.desc.name)) true f.g =
        some ⟨.has (hasName f.g.desc.name), .alt (under e.o.name) (under f.g.desc.name), upper f.g.desc.name, true⟩ := by
      unfold serField
      dsimp only
      rw [(H.member _ hm _ hg).1, Bool.or_true]
      rfl
    rw [e1]
    have hhas : Class.fun? K (hasName f.g.desc.name) .const = _ :=
      fun_member (name := name) D hm hg (f := hasName f.g.desc.name)
        (b := .test (.whichIs (upper f.g.desc.name) (whichName e.o.name))) (by
        simp [altFuns, (H.member _ hm _ hg).1])
    have htest : Class.callTest K (hasName f.g.desc.name) x = .ok true := by
      unfold Class.callTest
      rw [hhas]
      show (Class.number K (upper f.g.desc.name) >>= fun n => Class.getWhich K (whichName e.o.name) x >>=
        fun k => pure (n == k) : Res _) = _
      rw [hnum, Res.ok_bind, getWhich_getU D he, Res.ok_bind, hy]
      show Res.ok (f.g.desc.number == f.g.desc.number) = _
      rw [beq_self_eq_true]
    obtain ⟨q, h1, h2, h3⟩ := get_member H D he hf hy
    show (Class.callTest K (hasName f.g.desc.name) x >>= _ : Res _) = _
    rw [htest, Res.ok_bind]
    by_cases hn : er = .noErrors
    · rw [if_pos ⟨rfl, hn⟩, if_pos hn, h1]
      subst h2
      dsimp only
      rw [h3, hnum]
      rfl
    · rw [if_neg (fun h => hn h.2), if_neg hn]

/-- `deserialize_o(field_id, buffer, wire_type)` -/
theorem desOneof_eq {f : AEntry E (classAlts E e.o.fields)} (hf : f ∈ aEntries E e.o.fields) {β : Type} [ReadBuffer β]
    (fuel : Nat) (wt : WireType) (b : β) (x : Class.Obj K) (hx : (classAlts E e.o.fields).spec.ObjInv (getU e x)) :
    Class.desOneof K fuel
      { which := whichName e.o.name, init := initName e.o.name
        cases := e.o.fields.map fun g =>
          (upper g.desc.name, if g.shape = .recursive then [] else [.field (.alt (under e.o.name) (under g.desc.name))])
        clear := clearName e.o.name } f.g.desc.number wt b x =
      (classAlts E e.o.fields).cls.deserializeObj fuel f.g.desc.number b wt (getU e x) >>= fun r =>
        .ok (r.1, r.2.1, setU e x r.2.2) := by
  have hm := oEntries_mem he
  have hg := aEntries_mem (not_recursive H he) hf
  have hnum := number_member (name := name) H D hm hg
  unfold Class.desOneof
  dsimp only
  rw [getWhich_getU D he, Res.ok_bind]
  have h1 := call_activate H D he ok hf x hx 1
  show ((if f.g.desc.number ≠ (getU e x).which then Class.call K (1 + 2) (initName e.o.name) (.id f.g.desc.number) x
      else pure x : Res (Class.Obj K)) >>= _ : Res _) = _
  rw [h1, Res.ok_bind, getWhich_getU D he, Res.ok_bind, getU_setU, select_map H D he _ _ _ (fun _ h => h)]
  dsimp only
  rw [find_number H he ok hf, Option.map_some, Res.ok_bind, f.member.deserializeObj ok.wf ok.nodup ok.zero hx,
    if_neg (not_recursive H he _ hg)]
  dsimp only
  have hd : Class.des K fuel wt [.field (.alt (under e.o.name) (under f.g.desc.name))] .noErrors b
      (setU e x ⟨f.g.desc.number, some (f.member.injState (f.member.current (getU e x)))⟩) =
      (E.elem f.g.desc).cls.deserializeCheckType fuel b wt (f.member.current (getU e x)) >>= fun r =>
        .ok (r.1, r.2.1, setU e x ⟨f.g.desc.number, some (f.member.injState r.2.2)⟩) := by
    obtain ⟨q, h1, h2, h3⟩ := get_member H D he hf
      (getU_setU (e := e) x ⟨f.g.desc.number, some (f.member.injState (f.member.current (getU e x)))⟩)
    unfold Class.des
    rw [h1]
    subst h2
    dsimp only
    rw [h3]
    show ((E.elem f.g.desc).cls.deserializeCheckType fuel b wt (f.member.current (getU e x)) >>= fun r =>
      Res.ok (r.1, r.2.1, setU e (setU e x _) ⟨(getU e (setU e x _)).which, some (f.member.injState r.2.2)⟩) : Res _) = _
    rw [getU_setU]
    simp only [setU_setU]
  rw [hd]
  show ((((E.elem f.g.desc).cls.deserializeCheckType fuel b wt (f.member.current (getU e x)) >>= _) >>= _) : Res _) =
    (((E.elem f.g.desc).cls.deserializeCheckType fuel b wt (f.member.current (getU e x)) >>= _) >>= _ : Res _)
  cases hq : (E.elem f.g.desc).cls.deserializeCheckType fuel b wt (f.member.current (getU e x)) with
  | ub => rfl
  | diverge => rfl
  | ok r =>
    obtain ⟨er, b', z⟩ := r
    rw [Res.ok_bind, Res.ok_bind, Res.ok_bind]
    dsimp only
    by_cases hn : er = .noErrors
    · rw [if_neg (fun h => h hn), if_pos hn]
      rfl
    · rw [if_pos hn, if_neg hn]
      have h2 := call_clear_cases H D he ok (setU e x ⟨f.g.desc.number, some (f.member.injState z)⟩)
        (.inr ⟨f, hf, z, getU_setU _ _⟩) 2
      show (Class.call K (2 + 1) (clearName e.o.name) .none _ >>= _ : Res _) = _
      rw [h2, setU_setU]
      rfl

end

end Gen

end EP
