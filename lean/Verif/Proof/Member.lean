import Verif.Proof.Slot

/-! # Access to one member of a oneof -/

namespace EP

variable {a : Alts} {num : Nat} {t : ElemTy}

namespace Member

theorem wf (m : Member a num t) (h : a.WF) : t.WF := by
  induction m with
  | here => simp only [Alts.WF] at h; exact h.1
  | after _ _ m ih => simp only [Alts.WF] at h; exact ih h.2

theorem num_injState (m : Member a num t) (x : t.Obj) : a.spec.num (m.injState x) = num := by
  induction m with
  | here => rfl
  | after _ _ m ih => exact ih x

theorem abs_injState (m : Member a num t) (x : t.Obj) : a.spec.abs (m.injState x) = m.inj (t.abs x) := by
  induction m with
  | here => rfl
  | after _ _ m ih => exact congrArg Sum.inr (ih x)

theorem inv_injState (m : Member a num t) (x : t.Obj) : a.spec.Inv (m.injState x) ↔ t.Inv x := by
  induction m with
  | here => exact Iff.rfl
  | after _ _ m ih => exact ih x

theorem clean_injState (m : Member a num t) (x : t.Obj) : a.spec.Clean (m.injState x) ↔ t.Clean x := by
  induction m with
  | here => exact Iff.rfl
  | after _ _ m ih => exact ih x

theorem projState_injState (m : Member a num t) (x : t.Obj) : m.projState (m.injState x) = some x := by
  induction m with
  | here => rfl
  | after _ _ m ih => exact ih x

theorem proj_inj (m : Member a num t) (v : t.Val) : m.proj (m.inj v) = some v := by
  induction m with
  | here => rfl
  | after _ _ m ih => exact ih v

theorem proj_abs (m : Member a num t) (u : a.cls.U) :
    m.proj (a.spec.abs u) = (m.projState u).map t.abs := by
  induction m with
  | here => cases u <;> rfl
  | after _ _ m ih =>
    cases u with
    | inl => rfl
    | inr u => exact ih u

/-- The live member with number `num` is the member `m`. -/
theorem of_num (m : Member a num t) (h : a.WF) (hn : a.numbers.Nodup) (u : a.cls.U)
    (hu : a.spec.num u = num) : ∃ x, u = m.injState x := by
  induction m with
  | here n t rest =>
    simp only [Alts.WF] at h
    obtain ⟨h1, h2⟩ := List.nodup_cons.mp hn
    cases u with
    | inl x => exact ⟨x, rfl⟩
    | inr u =>
      have : rest.spec.num u = n := hu
      exact absurd (this ▸ (Alts.base rest h.2 h2).num_mem u) h1
  | after k u' m ih =>
    simp only [Alts.WF] at h
    obtain ⟨h1, h2⟩ := List.nodup_cons.mp hn
    cases u with
    | inl x =>
      have : k = _ := hu
      exact absurd (this ▸ m.mem) h1
    | inr u =>
      obtain ⟨x, rfl⟩ := ih h.2 h2 u hu
      exact ⟨x, rfl⟩

theorem projState_of_num (m : Member a num t) (h : a.WF) (hn : a.numbers.Nodup) (u : a.cls.U)
    (hu : a.spec.num u ≠ num) : m.projState u = none := by
  induction m with
  | here n t rest =>
    cases u with
    | inl x => exact absurd rfl hu
    | inr u => rfl
  | after k u' m ih =>
    simp only [Alts.WF] at h
    obtain ⟨h1, h2⟩ := List.nodup_cons.mp hn
    cases u with
    | inl x => rfl
    | inr u => exact ih h.2 h2 u hu

end Member

section
variable (C : FieldClass) (R : AltsClass) (n id : Nat)

theorem cons_construct_self (u : Option (C.State ⊕ R.U)) :
    (AltsClass.cons n C R).construct n u = some (.inl C.init) := if_pos rfl

theorem cons_construct_ne (h : id ≠ n) {v : R.U} (hr : R.construct id none = some v) :
    (AltsClass.cons n C R).construct id none = some (.inr v) := by
  refine (if_neg h).trans ?_
  show AltsClass.inr? (R.construct id none) = _
  rw [hr]
  rfl

variable {β : Type} [ReadBuffer β] (fuel : Nat) (b : β) (wt : WireType)

theorem cons_deserialize_self (x : C.State) :
    (AltsClass.cons n C R).deserialize fuel n b wt (some (.inl x)) = (do
      let (e, b, z) ← C.deserializeCheckType fuel b wt x
      pure (e, b, some (.inl z))) := if_pos rfl

theorem cons_deserialize_ne {γ : Type} (h : id ≠ n) (u : R.U) {d : Res (Error × β × γ)} {f : γ → R.U}
    (hr : R.deserialize fuel id b wt (some u) = (do
      let (e, b, z) ← d
      pure (e, b, some (f z)))) :
    (AltsClass.cons n C R).deserialize fuel id b wt (some (.inr u)) = (do
      let (e, b, z) ← d
      pure (e, b, some (.inr (f z)))) := by
  refine (if_neg h).trans ?_
  show (do
      let (e, b, v) ← R.deserialize fuel id b wt (some u)
      pure (e, b, AltsClass.inr? v) : Res _) = _
  rw [hr]
  cases d <;> rfl

end

namespace Member

theorem construct (m : Member a num t) (hn : a.numbers.Nodup) :
    a.cls.construct num none = some (m.injState t.cls.init) := by
  induction m with
  | here n t rest => exact cons_construct_self _ _ _ _
  | after k u m ih =>
    obtain ⟨h1, h2⟩ := List.nodup_cons.mp hn
    have hne : _ ≠ k := fun e => h1 (e ▸ m.mem)
    exact cons_construct_ne _ _ _ _ hne (ih h2)

theorem deserialize (m : Member a num t) (hn : a.numbers.Nodup) {β : Type} [ReadBuffer β] (fuel : Nat)
    (b : β) (wt : WireType) (x : t.Obj) :
    a.cls.deserialize fuel num b wt (some (m.injState x)) = (do
      let (e, b, z) ← t.cls.deserializeCheckType fuel b wt x
      pure (e, b, some (m.injState z))) := by
  induction m with
  | here n t rest => exact cons_deserialize_self _ _ _ _ _ _ _
  | after k u m ih =>
    obtain ⟨h1, h2⟩ := List.nodup_cons.mp hn
    have hne : _ ≠ k := fun e => h1 (e ▸ m.mem)
    exact cons_deserialize_ne _ _ _ _ _ _ _ hne _ (ih h2 x)

/-- Making the member the live one. -/
theorem activate (m : Member a num t) (h : a.WF) (hn : a.numbers.Nodup) (h0 : 0 ∉ a.numbers)
    {o : OneofObj a.cls.U} (ho : a.spec.ObjInv o) :
    a.cls.activate o num = .ok ⟨num, some (m.injState (m.current o))⟩ ∧ t.Inv (m.current o) := by
  obtain ⟨u, h1, h2, h3, h4⟩ := activate_eq (Alts.base a h hn).toAltsInit h0 o ho num m.mem
  obtain ⟨x, rfl⟩ := m.of_num h hn u h2
  have key : m.current o = x := by
    unfold current
    rcases h4 with ⟨_, hl⟩ | ⟨hw, hc, _⟩
    · rw [hl, Option.bind_some, m.projState_injState, Option.getD_some]
    · have hx : x = t.cls.init := by
        have := (m.construct hn).symm.trans hc
        have := congrArg m.projState (Option.some.inj this)
        rw [m.projState_injState, m.projState_injState] at this
        exact (Option.some.inj this).symm
      obtain ⟨which, live⟩ := o
      cases live with
      | none => exact hx.symm
      | some v =>
        have hv : which = a.spec.num v := ho.1
        rw [Option.bind_some, m.projState_of_num h hn v (fun e => hw (hv.trans e))]
        exact hx.symm
  rw [key]
  exact ⟨h1, (m.inv_injState x).mp h3⟩

/-- Decoding a record of the member: into the live object or a new one; after an error nothing is
set. -/
theorem deserializeObj (m : Member a num t) (h : a.WF) (hn : a.numbers.Nodup) (h0 : 0 ∉ a.numbers)
    {o : OneofObj a.cls.U} (ho : a.spec.ObjInv o) {β : Type} [ReadBuffer β] (fuel : Nat) (b : β)
    (wt : WireType) :
    a.cls.deserializeObj fuel num b wt o = (do
      let (e, b, z) ← t.cls.deserializeCheckType fuel b wt (m.current o)
      pure (e, b, if e = .noErrors then ⟨num, some (m.injState z)⟩ else ⟨0, none⟩)) := by
  unfold AltsClass.deserializeObj
  rw [(m.activate h hn h0 ho).1, Res.ok_bind]
  dsimp only
  rw [m.deserialize hn]
  have hd : ∀ z, a.cls.clearObj ⟨num, some (m.injState z)⟩ = .ok ⟨0, none⟩ := by
    intro z
    have := (Alts.base a h hn).destroy (m.injState z)
    rw [m.num_injState] at this
    simp only [AltsClass.clearObj, this, Res.ok_bind, Res.pure_eq]
  cases t.cls.deserializeCheckType fuel b wt (m.current o) with
  | ub => rfl
  | diverge => rfl
  | ok r =>
    obtain ⟨e, b', z⟩ := r
    simp only [Res.ok_bind, Res.pure_eq]
    by_cases he : e = .noErrors
    · subst he; rfl
    · rw [if_pos he, if_neg he, hd, Res.ok_bind]

end Member

end EP
