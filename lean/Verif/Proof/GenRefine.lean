import Verif.Proof.GenOneofs
import Verif.Proof.History

/-!
# The generated class refines the combinators
-/

namespace EP.Gen

set_option linter.unusedSectionVars false

variable {E : Types} {name : Str} {m : GMessage} {nested : List Str}

theorem foldlM_congr_inv {α σ : Type} {f g : σ → α → Res σ} {I : σ → Prop} : ∀ (l : List α) (s : σ), I s →
    (∀ a ∈ l, ∀ s, I s → f s a = g s a ∧ ∀ s', g s a = .ok s' → I s') → l.foldlM f s = l.foldlM g s
  | [], _, _, _ => rfl
  | a :: l, s, hs, h => by
    rw [List.foldlM_cons, List.foldlM_cons]
    obtain ⟨h1, h2⟩ := h a List.mem_cons_self s hs
    rw [h1]
    cases hg : g s a with
    | ub => rfl
    | diverge => rfl
    | ok s' => exact foldlM_congr_inv l s' (h2 s' hg) fun a ha => h a (List.mem_cons_of_mem _ ha)

theorem foldlM_congr_mem {α σ : Type} {f g : σ → α → Res σ} (l : List α) (s : σ)
    (h : ∀ a ∈ l, ∀ s, f s a = g s a) : l.foldlM f s = l.foldlM g s :=
  foldlM_congr_inv (I := fun _ => True) l s trivial fun a ha s _ => ⟨h a ha s, fun _ _ => trivial⟩

theorem foldlM_onFields {α F O : Type} (h : Presence × F → α → Res (Presence × F)) : ∀ (l : List α) (x : MsgObj F O),
    l.foldlM (fun x a => onFields (h · a) x) x = onFields (fun p => l.foldlM h p) x
  | [], _ => rfl
  | a :: l, x => by
    rw [List.foldlM_cons]
    unfold onFields
    rw [bind_assoc]
    show (h (x.presence, x.fields) a >>= _ : Res _) = ((h (x.presence, x.fields) a >>= _) >>= _ : Res _)
    cases h (x.presence, x.fields) a with
    | ub => rfl
    | diverge => rfl
    | ok p => exact foldlM_onFields h l { x with presence := p.1, fields := p.2 }

theorem foldlM_onOneofs {α F O : Type} (h : O → α → Res O) : ∀ (l : List α) (x : MsgObj F O),
    l.foldlM (fun x a => onOneofs (h · a) x) x = onOneofs (fun p => l.foldlM h p) x
  | [], _ => rfl
  | a :: l, x => by
    rw [List.foldlM_cons]
    unfold onOneofs
    rw [bind_assoc]
    show (h x.oneofs a >>= _ : Res _) = ((h x.oneofs a >>= _) >>= _ : Res _)
    cases h x.oneofs a with
    | ub => rfl
    | diverge => rfl
    | ok p => exact foldlM_onOneofs h l { x with oneofs := p }

theorem foldlM_map' {α β σ : Type} (f : σ → β → Res σ) (g : α → β) : ∀ (l : List α) (s : σ),
    (l.map g).foldlM f s = l.foldlM (fun s a => f s (g a)) s
  | [], _ => rfl
  | a :: l, s => by
    rw [List.map_cons, List.foldlM_cons, List.foldlM_cons]
    congr 1
    funext s
    exact foldlM_map' f g l s

theorem Class.stmts_flatMap {K : Class} {α : Type} (call) (a : Class.Arg K.Obj) (f : α → List Stmt) : ∀ (l : List α) (o : K.Obj),
    K.stmts call a (l.flatMap f) o = l.foldlM (fun o x => K.stmts call a (f x) o) o
  | [], _ => rfl
  | x :: l, o => by
    rw [List.flatMap_cons, Class.stmts_append, List.foldlM_cons]
    congr 1
    funext o
    exact stmts_flatMap call a f l o

/-! ## The combinators, entry by entry -/

section
variable (E m)

theorem fold_clear_entries (x : MsgObj ((classFields E m.fields).cls 0).State (classOneofs E m.oneofs).cls.State) :
    (entries E m.fields).foldlM (fun x e => onFields (entryClear 0 · e.2) x) x =
      onFields (fun l => ((classFields E m.fields).cls 0).clear l.1 l.2) x := by
  rw [foldlM_onFields (fun l (e : GField × Option (ASlot (classFields E m.fields))) => entryClear 0 l e.2)]
  congr 1
  funext l
  rw [foldlM_filterMap_snd (entryClear 0) (fun _ => rfl), entries_slots]
  exact fold_clear _ 0 l

theorem fold_assign_entries (q : Presence × ((classFields E m.fields).cls 0).State)
    (x : MsgObj ((classFields E m.fields).cls 0).State (classOneofs E m.oneofs).cls.State) :
    (entries E m.fields).foldlM (fun x e => onFields (entryAssign 0 q · e.2) x) x =
      onFields (fun l => ((classFields E m.fields).cls 0).assign l q) x := by
  rw [foldlM_onFields (fun l (e : GField × Option (ASlot (classFields E m.fields))) => entryAssign 0 q l e.2)]
  congr 1
  funext l
  rw [foldlM_filterMap_snd (entryAssign 0 q) (fun _ => rfl), entries_slots]
  exact fold_assign _ 0 _ l

theorem fold_ser_entries {ω : Type} [WriteBuffer ω] (p : Presence) (x : ((classFields E m.fields).cls 0).State)
    (r : Error × ω) : (entries E m.fields).foldlM (fun r e => entrySer 0 p x r e.2) r =
      ((classFields E m.fields).cls 0).serialize p x r.1 r.2 := by
  rw [foldlM_filterMap_snd (entrySer 0 p x) (fun _ => rfl), entries_slots]
  exact fold_ser _ 0 _ _ r

theorem fold_clear_oEntries (x : MsgObj ((classFields E m.fields).cls 0).State (classOneofs E m.oneofs).cls.State) :
    (oEntries E m.oneofs).foldlM (fun x e => onOneofs (e.slot.access (classAlts E e.o.fields).cls.clearObj) x) x =
      onOneofs (classOneofs E m.oneofs).cls.clear x := by
  refine (foldlM_onOneofs (fun l (e : OEntry E (classOneofs E m.oneofs)) =>
    e.slot.access (classAlts E e.o.fields).cls.clearObj l) _ _).trans ?_
  congr 1
  funext l
  rw [← fold_clearOneofs, ← oEntries_bunions, foldlM_map']

theorem fold_assign_oEntries (r : (classOneofs E m.oneofs).cls.State)
    (x : MsgObj ((classFields E m.fields).cls 0).State (classOneofs E m.oneofs).cls.State) :
    (oEntries E m.oneofs).foldlM (fun x e =>
      onOneofs (e.slot.access ((classAlts E e.o.fields).cls.assignObj · (e.slot.state r))) x) x =
      onOneofs ((classOneofs E m.oneofs).cls.assign · r) x := by
  refine (foldlM_onOneofs (fun l (e : OEntry E (classOneofs E m.oneofs)) =>
    e.slot.access ((classAlts E e.o.fields).cls.assignObj · (e.slot.state r)) l) _ _).trans ?_
  congr 1
  funext l
  rw [← fold_assignOneofs, ← oEntries_bunions, foldlM_map']

theorem fold_ser_oEntries {ω : Type} [WriteBuffer ω] (x : (classOneofs E m.oneofs).cls.State) (r : Error × ω) :
    (oEntries E m.oneofs).foldlM (fun r e => (classAlts E e.o.fields).cls.serialize (e.slot.state x).which
        (e.slot.state x).live r.1 r.2) r = (classOneofs E m.oneofs).cls.serialize x r.1 r.2 := by
  rw [← fold_serOneofs, ← oEntries_bunions, foldlM_map']

end

section
variable (H : Proper E m) (D : (render true E name m).Distinct nested) (W : (m.type E).WF)
include H D W

local notation "K" => render true E name m

omit H D in
theorem altsOk (e : OEntry E (classOneofs E m.oneofs)) : AltsOk (classAlts E e.o.fields) := by
  have W' : (ElemTy.msg _ _).WF := W
  simp only [ElemTy.WF] at W'
  have hd := (List.nodup_append.mp W'.2.2.1).2.1
  obtain ⟨h1, h2⟩ := e.slot.wf W'.2.1 hd
  exact ⟨h1, h2, fun h => absurd (W'.2.2.2 0 (List.mem_append_right _ (e.slot.mem h))).1 (by decide)⟩

theorem clear_entry {e : OEntry E (classOneofs E m.oneofs)} (he : e ∈ oEntries E m.oneofs) (x : Class.Obj K)
    (hx : (classOneofs E m.oneofs).spec.Inv x.oneofs) :
    Class.call K 3 (clearName e.o.name) .none x = onOneofs (e.slot.access (classAlts E e.o.fields).cls.clearObj) x ∧
    ∀ s : Class.Obj K, onOneofs (e.slot.access (classAlts E e.o.fields).cls.clearObj) x = .ok s →
      (classOneofs E m.oneofs).spec.Inv s.oneofs := by
  have ho : (classAlts E e.o.fields).spec.ObjInv (getU (name := name) e x) := e.slot.inv_state hx
  have ok := altsOk W e
  rw [onOneofs_access, clearObj_eq (Alts.base _ ok.wf ok.nodup).toAltsInit ok.zero _ ho]
  refine ⟨call_clear_oneof H D he ok x ho 2, fun s hs => ?_⟩
  injection hs with hs
  subst hs
  exact e.slot.inv_setState hx rfl

/-- `clear()` -/
theorem runClear_eq (x : Class.Obj K) (hx : (m.type E).Inv x) : Class.runClear K x = (m.type E).cls.clear x := by
  have hinv : (classOneofs E m.oneofs).spec.Inv x.oneofs := hx.2.2
  unfold Class.runClear
  show Class.stmts K _ _ (m.fields.map (fun g => .act (.call (clearName g.desc.name))) ++
    m.oneofs.map fun o => .act (.call (clearName o.name))) x = _
  rw [Class.stmts_append]
  have h1 : Class.stmts K (Class.call K Class.depth) .none (m.fields.map (fun g => .act (.call (clearName g.desc.name)))) x =
      onFields (fun l => ((classFields E m.fields).cls 0).clear l.1 l.2) x := by
    unfold Class.stmts
    conv => lhs; rw [← entries_fst (E := E) m.fields]
    rw [List.map_map, foldlM_map']
    exact (foldlM_congr_mem _ _ fun e he x => call_clear_field H D (d := 2) (g := e.1) (s := e.2) he x).trans
      (fold_clear_entries E m x)
  have h2 : ∀ x : Class.Obj K, (classOneofs E m.oneofs).spec.Inv x.oneofs →
      Class.stmts K (Class.call K Class.depth) .none (m.oneofs.map fun o => .act (.call (clearName o.name))) x =
      onOneofs (classOneofs E m.oneofs).cls.clear x := by
    intro x hx
    unfold Class.stmts
    conv => lhs; rw [← oEntries_fst (E := E) m.oneofs]
    rw [List.map_map, foldlM_map']
    exact (foldlM_congr_inv (I := fun x : Class.Obj K => (classOneofs E m.oneofs).spec.Inv x.oneofs) _ _ hx
      fun e he x hx => clear_entry H D W he x hx).trans (fold_clear_oEntries E m x)
  rw [h1]
  show _ = ((((classFields E m.fields).cls 0).clear x.presence x.fields >>= _) : Res _)
  unfold onFields
  show ((((classFields E m.fields).cls 0).clear x.presence x.fields >>= _) >>= _ : Res _) = _
  cases ((classFields E m.fields).cls 0).clear x.presence x.fields with
  | ub => rfl
  | diverge => rfl
  | ok p =>
    refine (h2 { x with presence := p.1, fields := p.2 } hinv).trans ?_
    rfl

theorem assign_entry {e : OEntry E (classOneofs E m.oneofs)} (he : e ∈ oEntries E m.oneofs) (x r : Class.Obj K)
    (hx : (classOneofs E m.oneofs).spec.Inv x.oneofs) (hr : (classOneofs E m.oneofs).spec.Inv r.oneofs) :
    Class.stmts K (Class.call K 3) (.rhs r) (assignOneof e.o) x =
      onOneofs (e.slot.access ((classAlts E e.o.fields).cls.assignObj · (e.slot.state r.oneofs))) x ∧
    ∀ s : Class.Obj K, onOneofs (e.slot.access ((classAlts E e.o.fields).cls.assignObj · (e.slot.state r.oneofs))) x = .ok s →
      (classOneofs E m.oneofs).spec.Inv s.oneofs := by
  have ho : (classAlts E e.o.fields).spec.ObjInv (getU (name := name) e x) := e.slot.inv_state hx
  have hr : (classAlts E e.o.fields).spec.ObjInv (getU (name := name) e r) := e.slot.inv_state hr
  have ok := altsOk W e
  refine ⟨stmts_assign_oneof H D he ok x r ho hr 0, fun s hs => ?_⟩
  rw [onOneofs_access] at hs
  obtain ⟨z, hz, hi, _⟩ := (assignObj_post (Alts.base _ ok.wf ok.nodup) ok.zero _ _ ho hr).exists
  have hz : (classAlts E e.o.fields).cls.assignObj (getU (name := name) e x) (e.slot.state r.oneofs) = _ := hz
  rw [hz] at hs
  injection hs with hs
  subst hs
  exact e.slot.inv_setState hx hi

/-- `operator=` -/
theorem runAssign_eq (x r : Class.Obj K) (hx : (m.type E).Inv x) (hr : (m.type E).Inv r) :
    Class.runAssign K x r = (m.type E).cls.assign x r := by
  have hinv : (classOneofs E m.oneofs).spec.Inv x.oneofs := hx.2.2
  have hrinv : (classOneofs E m.oneofs).spec.Inv r.oneofs := hr.2.2
  unfold Class.runAssign
  show Class.stmts K _ _ (m.fields.map assignField ++ m.oneofs.flatMap assignOneof) x = _
  rw [Class.stmts_append]
  have h1 : Class.stmts K (Class.call K Class.depth) (.rhs r) (m.fields.map assignField) x =
      onFields (fun l => ((classFields E m.fields).cls 0).assign l (r.presence, r.fields)) x := by
    unfold Class.stmts
    conv => lhs; rw [← entries_fst (E := E) m.fields]
    rw [List.map_map, foldlM_map']
    exact (foldlM_congr_mem _ _ fun e he x => stmt_assign_field H D (d := 2) (g := e.1) (s := e.2) he r x).trans
      (fold_assign_entries E m _ x)
  have h2 : ∀ x : Class.Obj K, (classOneofs E m.oneofs).spec.Inv x.oneofs →
      Class.stmts K (Class.call K Class.depth) (.rhs r) (m.oneofs.flatMap assignOneof) x =
      onOneofs ((classOneofs E m.oneofs).cls.assign · r.oneofs) x := by
    intro x hx
    rw [Class.stmts_flatMap]
    conv => lhs; rw [← oEntries_fst (E := E) m.oneofs]
    rw [foldlM_map']
    exact (foldlM_congr_inv (I := fun x : Class.Obj K => (classOneofs E m.oneofs).spec.Inv x.oneofs) _ _ hx
      fun e he x hx => assign_entry H D W he x r hx hrinv).trans (fold_assign_oEntries E m _ x)
  rw [h1]
  show _ = ((((classFields E m.fields).cls 0).assign (x.presence, x.fields) (r.presence, r.fields) >>= _) : Res _)
  unfold onFields
  show ((((classFields E m.fields).cls 0).assign (x.presence, x.fields) (r.presence, r.fields) >>= _) >>= _ : Res _) = _
  cases ((classFields E m.fields).cls 0).assign (x.presence, x.fields) (r.presence, r.fields) with
  | ub => rfl
  | diverge => rfl
  | ok p =>
    refine (h2 { x with presence := p.1, fields := p.2 } hinv).trans ?_
    rfl

/-- `serialize(buffer)` -/
theorem runSerialize_eq {ω : Type} [WriteBuffer ω] (x : Class.Obj K) (hx : (m.type E).Inv x) (w : ω) :
    Class.runSerialize K x w = (m.type E).cls.serialize x w := by
  have hinv : (classOneofs E m.oneofs).spec.Inv x.oneofs := hx.2.2
  unfold Class.runSerialize
  show (m.fields.map (fun g => Ser.field (serField (.var (under g.desc.name)) false g)) ++
    m.oneofs.map fun o => Ser.switch (whichName o.name) (o.fields.map fun (g : GField) =>
      (upper g.desc.name, serField (.alt (under o.name) (under g.desc.name)) true g)) : List Ser).foldlM _ _ = _
  rw [List.foldlM_append]
  have h1 : (m.fields.map (fun g => Ser.field (serField (.var (under g.desc.name)) false g))).foldlM
      (fun (p : Error × ω) s => Class.ser K s x p.1 p.2) (.noErrors, w) =
      ((classFields E m.fields).cls 0).serialize x.presence x.fields .noErrors w := by
    conv => lhs; rw [← entries_fst (E := E) m.fields]
    rw [List.map_map, foldlM_map']
    exact (foldlM_congr_mem _ _ fun e he r => ser_field H D (g := e.1) (s := e.2) he x r).trans
      (fold_ser_entries E m _ _ (.noErrors, w))
  have h2 : ∀ r : Error × ω, (m.oneofs.map fun o => Ser.switch (whichName o.name) (o.fields.map fun g =>
      (upper g.desc.name, serField (.alt (under o.name) (under g.desc.name)) true g))).foldlM
      (fun (p : Error × ω) s => Class.ser K s x p.1 p.2) r = (classOneofs E m.oneofs).cls.serialize x.oneofs r.1 r.2 := by
    intro r
    conv => lhs; rw [← oEntries_fst (E := E) m.oneofs]
    rw [List.map_map, foldlM_map']
    exact (foldlM_congr_mem _ _ fun e he r => ser_oneof H D he (altsOk W e) x (e.slot.inv_state hinv) r).trans
      (fold_ser_oEntries E m _ r)
  rw [h1]
  show _ = ((((classFields E m.fields).cls 0).serialize x.presence x.fields .noErrors w >>= _) : Res _)
  cases ((classFields E m.fields).cls 0).serialize x.presence x.fields .noErrors w with
  | ub => rfl
  | diverge => rfl
  | ok p => exact h2 p

/-- The result of a case of a field. -/
def fieldsResult {F O β : Type} (x : MsgObj F O) (q : Option (Res (Error × β × Presence × F)))
    (other : Res (Error × β × MsgObj F O)) : Res (Error × β × MsgObj F O) :=
  match q with
  | some r => r >>= fun r => .ok (r.1, r.2.1, { x with presence := r.2.2.1, fields := r.2.2.2 })
  | none => other

/-- The result of a case of a oneof. -/
def oneofsResult {F O β : Type} (x : MsgObj F O) (q : Option (Res (Error × β × O)))
    (other : Res (Error × β × MsgObj F O)) : Res (Error × β × MsgObj F O) :=
  match q with
  | some r => r >>= fun r => .ok (r.1, r.2.1, { x with oneofs := r.2.2 })
  | none => other

omit W in
theorem step_fields {β : Type} [ReadBuffer β] (fuel n : Nat) (wt : WireType) (b : β) (x : Class.Obj K) (cs : List Case) :
    ∀ l : List (GField × Option (ASlot (classFields E m.fields))), (∀ e ∈ l, e ∈ entries E m.fields ∧ e.2 ≠ none) →
    Class.step K fuel n wt b x (l.map (fun e => .field (upper e.1.desc.name) (desField e.1)) ++ cs) =
      fieldsResult x (desSlot 0 fuel n wt b x.presence x.fields (l.filterMap (·.2))) (Class.step K fuel n wt b x cs)
  | [], _ => rfl
  | (g, none) :: l, h => absurd rfl (h _ List.mem_cons_self).2
  | (g, some s) :: l, h => by
    have he := (h _ List.mem_cons_self).1
    have hok := entries_ok m.fields _ he
    have hn : s.num = g.desc.number := hok.2.1
    show (Class.number K (upper g.desc.name) >>= fun k => if n = k then Class.des K fuel wt (desField g) .noErrors b x
      else Class.step K fuel n wt b x _ : Res _) = fieldsResult x (if n = s.num then
        some (s.slot.desAt 0 fuel wt b x.presence x.fields)
      else desSlot 0 fuel n wt b x.presence x.fields (l.filterMap (·.2))) _
    rw [number_field H D (entries_some_mem he), Res.ok_bind]
    by_cases hnum : n = g.desc.number
    · have hs : n = s.num := hnum.trans hn.symm
      rw [if_pos hnum]
      refine (des_field H D he fuel wt .noErrors b x).trans ?_
      rw [if_pos hs]
      rfl
    · have hs : ¬ n = s.num := fun h => hnum (h.trans hn)
      rw [if_neg hnum]
      refine (step_fields fuel n wt b x cs l fun e he => h e (List.mem_cons_of_mem _ he)).trans ?_
      exact congrArg (fun q => fieldsResult x q _) (if_neg hs).symm

omit W in
theorem anyIs_eq {o : GOneof} (ho : o ∈ m.oneofs) (n : Nat) : ∀ gs : List GField, (∀ g ∈ gs, g ∈ o.fields) →
    Class.anyIs K n (gs.map fun g => upper g.desc.name) = .ok (decide (n ∈ gs.map (·.desc.number)))
  | [], _ => rfl
  | g :: gs, h => by
    show (Class.number K (upper g.desc.name) >>= fun k => if n = k then pure true else Class.anyIs K n _ : Res _) = _
    rw [number_member H D ho (h g List.mem_cons_self), Res.ok_bind]
    by_cases hn : n = g.desc.number
    · rw [if_pos hn, decide_eq_true (by rw [hn]; exact List.mem_cons_self)]
      rfl
    · rw [if_neg hn, anyIs_eq ho n gs fun g hg => h g (List.mem_cons_of_mem _ hg)]
      congr 2
      simp [hn]

theorem step_oneofs {β : Type} [ReadBuffer β] (fuel n : Nat) (wt : WireType) (b : β) (x : Class.Obj K)
    (hx : (classOneofs E m.oneofs).spec.Inv x.oneofs) :
    ∀ l : List (OEntry E (classOneofs E m.oneofs)), (∀ e ∈ l, e ∈ oEntries E m.oneofs) →
    Class.step K fuel n wt b x (l.map fun e => .oneof (e.o.fields.map fun g => upper g.desc.name) (deserializeName e.o.name)) =
      oneofsResult x (desUnion fuel n wt b x.oneofs (l.map fun e => (⟨e.slot⟩ : BUnion _)))
        (if n = 0 then pure (.invalidFieldId, b, x) else do
          let (e, b) ← skipUnknownField b wt
          pure (e, b, x))
  | [], _ => by
    show (Class.number K notSet >>= _ : Res _) = _
    rw [number_notSet D, Res.ok_bind]
    rfl
  | e :: l, h => by
    have he := h _ List.mem_cons_self
    have hm := oEntries_mem he
    have ok := altsOk W e
    have ho : (classAlts E e.o.fields).spec.ObjInv (getU (name := name) e x) := e.slot.inv_state hx
    show (Class.anyIs K n (e.o.fields.map fun g => upper g.desc.name) >>= _ : Res _) = _
    rw [anyIs_eq H D hm n _ (fun _ h => h), Res.ok_bind]
    have hc : (classAlts E e.o.fields).cls.hasCase n = decide (n ∈ e.o.fields.map (·.desc.number)) := by
      rw [(Alts.base _ ok.wf ok.nodup).hasCase, classAlts_numbers E _ (not_recursive H he)]
    show _ = oneofsResult x (if (classAlts E e.o.fields).cls.hasCase n then
        some ((classAlts E e.o.fields).cls.deserializeObj fuel n b wt (e.slot.state x.oneofs) >>=
          fun r => pure (r.1, r.2.1, e.slot.setState x.oneofs r.2.2))
      else desUnion fuel n wt b x.oneofs (l.map fun e => (⟨e.slot⟩ : BUnion _))) _
    by_cases hn : n ∈ e.o.fields.map (·.desc.number)
    · rw [decide_eq_true hn] at hc ⊢
      rw [if_pos rfl]
      refine Eq.trans ?_ (congrArg (fun q => oneofsResult x q _) (if_pos hc).symm)
      have hfun : Class.fun? K (deserializeName e.o.name) .des = _ :=
        fun_oneof (name := name) D hm (f := deserializeName e.o.name) (b := .des _) (by
          unfold oneofFuns
          exact List.mem_cons_of_mem _ (List.mem_cons_of_mem _ (List.mem_cons_of_mem _ List.mem_cons_self)))
      obtain ⟨g, hg, rfl⟩ := List.mem_map.mp hn
      obtain ⟨f, hf, rfl⟩ := mem_aEntries (E := E) (not_recursive H he) hg
      rw [hfun]
      refine (desOneof_eq H D he ok hf fuel wt b x ho).trans ?_
      show ((classAlts E e.o.fields).cls.deserializeObj fuel f.g.desc.number b wt (e.slot.state x.oneofs) >>= _ : Res _) =
        (((classAlts E e.o.fields).cls.deserializeObj fuel f.g.desc.number b wt (e.slot.state x.oneofs) >>= _) >>= _ : Res _)
      cases (classAlts E e.o.fields).cls.deserializeObj fuel f.g.desc.number b wt (e.slot.state x.oneofs) <;> rfl
    · rw [decide_eq_false hn] at hc ⊢
      rw [if_neg (by decide)]
      refine Eq.trans ?_ (congrArg (fun q => oneofsResult x q _) (if_neg (by rw [hc]; decide)).symm)
      exact step_oneofs fuel n wt b x hx l fun e he => h e (List.mem_cons_of_mem _ he)

/-- The `switch` in `deserialize`. -/
theorem step_eq (R : ∀ g ∈ m.fields, g.shape ≠ .recursive) {β : Type} [ReadBuffer β] (fuel n : Nat) (wt : WireType) (b : β)
    (x : Class.Obj K) (hx : (m.type E).Inv x) :
    Class.step K fuel n wt b x (Class.cases K) =
      MsgObj.step ((classFields E m.fields).cls 0) (classOneofs E m.oneofs).cls fuel n wt b x := by
  have hinv : (classOneofs E m.oneofs).spec.Inv x.oneofs := hx.2.2
  show Class.step K fuel n wt b x (m.fields.map (fun g => .field (upper g.desc.name) (desField g)) ++
    m.oneofs.map fun o => .oneof (o.fields.map fun g => upper g.desc.name) (deserializeName o.name)) = _
  have e1 : m.fields.map (fun g => Case.field (upper g.desc.name) (desField g)) =
      (entries E m.fields).map (fun e => .field (upper e.1.desc.name) (desField e.1)) := by
    conv => lhs; rw [← entries_fst (E := E) m.fields]
    rw [List.map_map]
    rfl
  have e2 : (m.oneofs.map fun o => Case.oneof (o.fields.map fun g => upper g.desc.name) (deserializeName o.name)) =
      (oEntries E m.oneofs).map fun e => .oneof (e.o.fields.map fun g => upper g.desc.name) (deserializeName e.o.name) := by
    conv => lhs; rw [← oEntries_fst (E := E) m.oneofs]
    rw [List.map_map]
    rfl
  have e3 := step_fields H D fuel n wt b x
    ((oEntries E m.oneofs).map fun e => .oneof (e.o.fields.map fun g => upper g.desc.name) (deserializeName e.o.name))
    (entries E m.fields) (by
      intro e he
      refine ⟨he, fun hn => ?_⟩
      obtain ⟨g, s⟩ := e
      have hn : s = none := hn
      subst hn
      exact R g (entries_some_mem he) (entries_ok m.fields _ he))
  have e4 := step_oneofs H D W fuel n wt b x hinv _ (fun _ h => h)
  rw [e4] at e3
  rw [e1, e2, e3]
  have e5 : desSlot 0 fuel n wt b x.presence x.fields ((entries E m.fields).filterMap (·.2)) =
      ((classFields E m.fields).cls 0).dispatch fuel n wt b x.presence x.fields :=
    (congrArg _ (entries_slots m.fields)).trans (dispatch_slots fuel n wt b x.presence (classFields E m.fields) 0 x.fields).symm
  have e6 : desUnion fuel n wt b x.oneofs ((oEntries E m.oneofs).map fun e => (⟨e.slot⟩ : BUnion _)) =
      (classOneofs E m.oneofs).cls.dispatch fuel n wt b x.oneofs :=
    (congrArg _ (oEntries_bunions m.oneofs)).trans (dispatch_unions fuel n wt b (classOneofs E m.oneofs) x.oneofs).symm
  refine (congrArg (fun q => fieldsResult x q _) e5).trans ?_
  refine (congrArg (fun q => fieldsResult x _ (oneofsResult x q _)) e6).trans ?_
  unfold MsgObj.step fieldsResult
  cases ((classFields E m.fields).cls 0).dispatch fuel n wt b x.presence x.fields with
  | some r => rfl
  | none =>
    dsimp only
    unfold oneofsResult
    cases (classOneofs E m.oneofs).cls.dispatch fuel n wt b x.oneofs with
    | some r => rfl
    | none => rfl

omit H D W in
theorem tagLoop_congr {β σ : Type} [ReadBuffer β] (M : ReadModel β) {f g : Nat → WireType → β → σ → Res (Error × β × σ)}
    {I : σ → Prop} (hf : ∀ n wt b s, M.Inv b → I s → f n wt b s = g n wt b s ∧
      ∀ r, g n wt b s = .ok r → M.Inv r.2.1 ∧ I r.2.2) : ∀ (k : Nat) (b : β) (s : σ), M.Inv b → I s →
    tagLoop f k b s = tagLoop g k b s
  | 0, _, _, _, _ => rfl
  | k + 1, b, s, hb, hs => by
    unfold tagLoop
    obtain ⟨⟨t, b'⟩, ht, hi, _⟩ := (tag_class M b hb).exists
    rw [ht, Res.ok_bind, Res.ok_bind]
    cases t with
    | error e => rfl
    | ok t =>
      obtain ⟨wt, id⟩ := t
      dsimp only
      obtain ⟨h1, h2⟩ := hf id wt b' s hi hs
      rw [h1]
      cases hg : g id wt b' s with
      | ub => rfl
      | diverge => rfl
      | ok r =>
        rw [Res.ok_bind, Res.ok_bind]
        by_cases he : r.1 = .noErrors
        · rw [if_pos he, if_pos he]
          exact tagLoop_congr M hf k r.2.1 r.2.2 (h2 r hg).1 (h2 r hg).2
        · rw [if_neg he, if_neg he]

/-- `deserialize(buffer)` -/
theorem runDeserialize_eq (R : ∀ g ∈ m.fields, g.shape ≠ .recursive) {β : Type} [ReadBuffer β] (M : ReadModel β)
    (fuel : Nat) (b : β) (x : Class.Obj K) (hb : M.Inv b) (hx : (m.type E).Inv x) :
    Class.runDeserialize K fuel b x = (m.type E).cls.deserialize fuel b x := by
  refine tagLoop_congr M (I := fun x => (m.type E).Inv x) ?_ fuel b x hb hx
  intro n wt b s hb hs
  refine ⟨step_eq H D W R fuel n wt b s hs, fun r hr => ?_⟩
  have := msg_step_safe (M := M) W fuel n wt b s hb hs
  rw [hr] at this
  exact this

/-- The default constructor. -/
theorem new_eq : Class.new K = (m.type E).cls.init := by
  have : (classFields E m.fields).nOptional = (render true E name m).presence.length := by
    show _ = (m.optionalFields.map _).length
    rw [nOptional_eq m.fields H.single, H.optional]
    rfl
  show (⟨Presence.init _, _, _⟩ : MsgObj _ _) = ⟨Presence.init (classFields E m.fields).nOptional, _, _⟩
  rw [this]
  rfl

end

end EP.Gen
