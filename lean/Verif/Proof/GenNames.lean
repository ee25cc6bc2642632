import Verif.Proof.GenUnions

/-!
# Looking names up in a rendered class
-/

namespace EP.Gen

variable {E : Types} {name : Str} {m : GMessage} {nested : List Str}

/-- What the constructors of the generator ensure (`mkMessage_proper`), except that a message may have a
field of its own type. -/
structure Proper (E : Types) (m : GMessage) : Prop where
  optional : m.optionalFields = m.fields.filter (·.desc.proto3Optional)
  ids : ∀ g ∈ m.fields, fieldId g ∈ m.fieldIds
  idsOneof : ∀ o ∈ m.oneofs, ∀ g ∈ o.fields, fieldId g ∈ m.fieldIds
  single : ∀ g ∈ m.fields, g.desc.proto3Optional = true → g.shape = .single
  member : ∀ o ∈ m.oneofs, ∀ g ∈ o.fields, g.shape = .single ∧ g.desc.proto3Optional = false
  messages : ∀ g ∈ m.fields, g.desc.type = .message → (E.elem g.desc).isMsg = true

theorem find?_of_pairwise {α : Type} {R : α → α → Bool} {l : List α} (hr : ∀ a ∈ l, R a a = true)
    (h : l.Pairwise fun a b => R a b = false) {a : α} (ha : a ∈ l) : l.find? (fun b => R b a) = some a := by
  induction l with
  | nil => exact nomatch ha
  | cons b l ih =>
    rw [List.pairwise_cons] at h
    rcases List.mem_cons.mp ha with rfl | ha
    · exact List.find?_cons_of_pos (p := fun b => R b a) (hr a List.mem_cons_self)
    · refine (List.find?_cons_of_neg (p := fun b => R b a) (by rw [h.1 a ha]; decide)).trans ?_
      exact ih (fun c hc => hr c (List.mem_cons_of_mem _ hc)) h.2 ha

theorem lookup_of_nodup {α β : Type} [BEq α] [LawfulBEq α] {l : List (α × β)} (h : (l.map (·.1)).Nodup) {a : α} {b : β}
    (hm : (a, b) ∈ l) : l.lookup a = some b := by
  induction l with
  | nil => exact nomatch hm
  | cons p l ih =>
    obtain ⟨c, d⟩ := p
    rw [List.map_cons, List.nodup_cons] at h
    rcases List.mem_cons.mp hm with e | hm'
    · injection e with e1 e2
      subst e1 e2
      rw [List.lookup_cons, beq_self_eq_true]
    · have hne : (a == c) = false := by
        rw [beq_eq_false_iff_ne]
        intro e
        subst e
        exact h.1 (List.mem_map.mpr ⟨_, hm', rfl⟩)
      rw [List.lookup_cons, hne]
      exact ih h.2 hm'

theorem nodup_of_clashes {l : List Str} (h : (l.map Decl.other).Pairwise fun a b => a.clashes b = false) : l.Nodup := by
  rw [List.pairwise_map] at h
  refine h.imp ?_
  intro a b hab e
  subst e
  simp [Decl.clashes, Decl.name] at hab

namespace Class

/-- Every function can be found under its name and parameters. -/
theorem fun_eq {K : Class} (D : K.Distinct nested) {f : Str} {b : Body} (h : (f, b) ∈ K.funs) : K.fun? f b.sig = some b := by
  have hp : K.funs.Pairwise fun p q => (p.1 == q.1 && p.2.sig == q.2.sig) = false := by
    have := D.scope
    unfold declared at this
    have := (List.pairwise_append.mp this).1
    have := (List.pairwise_append.mp this).2.1
    rw [List.pairwise_map] at this
    exact this
  have := find?_of_pairwise (R := fun p q : Str × Body => p.1 == q.1 && p.2.sig == q.2.sig)
    (by intro a _; rw [beq_self_eq_true, beq_self_eq_true]; rfl) hp h
  unfold fun?
  rw [this]
  rfl

theorem number_eq {K : Class} (D : K.Distinct nested) {id : Str} {n : Nat} (h : (id, n) ∈ K.enumerators) :
    K.number id = .ok n := by
  unfold number
  rw [lookup_of_nodup D.enumerators h]
  rfl

theorem vars_nodup {K : Class} (D : K.Distinct nested) : K.vars.Nodup := by
  have := D.scope
  unfold declared at this
  have := (List.pairwise_append.mp this).1
  have := (List.pairwise_append.mp this).1
  have := (List.pairwise_append.mp this).1
  have := (List.pairwise_append.mp this).1
  exact nodup_of_clashes (List.pairwise_append.mp this).2.1

theorem unions_pairwise {K : Class} (D : K.Distinct nested) :
    K.unions.Pairwise fun u v => u.which ≠ v.which ∧ u.var ≠ v.var := by
  have := D.scope
  unfold declared at this
  have := (List.pairwise_append.mp this).1
  have := (List.pairwise_append.mp this).1
  have := (List.pairwise_append.mp this).1
  have := (List.pairwise_append.mp this).2.1
  rw [List.pairwise_flatMap] at this
  refine this.2.imp ?_
  intro u v h
  constructor
  · intro e
    have := h (.other u.which) (by simp) (.other v.which) (by simp)
    rw [e] at this
    simp [Decl.clashes, Decl.name] at this
  · intro e
    have := h (.other u.var) (by simp) (.other v.var) (by simp)
    rw [e] at this
    simp [Decl.clashes, Decl.name] at this

end Class

/-! ## The rendered class -/

section
variable (H : Proper E m) (D : (render true E name m).Distinct nested)
include H D

theorem number_field {g : GField} (h : g ∈ m.fields) :
    (render true E name m).number (upper g.desc.name) = .ok g.desc.number :=
  Class.number_eq D (List.mem_cons_of_mem _ (List.mem_map.mpr ⟨fieldId g, H.ids g h, rfl⟩))

theorem number_member {o : GOneof} (ho : o ∈ m.oneofs) {g : GField} (h : g ∈ o.fields) :
    (render true E name m).number (upper g.desc.name) = .ok g.desc.number :=
  Class.number_eq D (List.mem_cons_of_mem _ (List.mem_map.mpr ⟨fieldId g, H.idsOneof o ho g h, rfl⟩))

omit H in
theorem number_notSet : (render true E name m).number notSet = .ok 0 :=
  Class.number_eq D List.mem_cons_self

omit H in
theorem fun_field {g : GField} (h : g ∈ m.fields) {f : Str} {b : Body} (hb : (f, b) ∈ fieldFuns g) :
    (render true E name m).fun? f b.sig = some b :=
  Class.fun_eq D (List.mem_append_left _ (List.mem_flatMap.mpr ⟨g, h, hb⟩))

omit H in
theorem fun_oneof {o : GOneof} (h : o ∈ m.oneofs) {f : Str} {b : Body} (hb : (f, b) ∈ oneofFuns true o) :
    (render true E name m).fun? f b.sig = some b :=
  Class.fun_eq D (List.mem_append_right _ (List.mem_flatMap.mpr ⟨o, h, List.mem_append_left _ hb⟩))

omit H in
theorem fun_member {o : GOneof} (h : o ∈ m.oneofs) {g : GField} (hg : g ∈ o.fields) {f : Str} {b : Body}
    (hb : (f, b) ∈ altFuns true o.name g) : (render true E name m).fun? f b.sig = some b :=
  Class.fun_eq D (List.mem_append_right _ (List.mem_flatMap.mpr ⟨o, h, List.mem_append_right _
    (List.mem_flatMap.mpr ⟨g, hg, hb⟩)⟩))

omit H in
theorem ref_var {g : GField} {s : ASlot (classFields E m.fields)} (h : (g, some s) ∈ entries E m.fields) :
    (render true E name m).ref (.var (under g.desc.name)) = some ((render true E name m).varRef s) := by
  have := findVar_entries m.fields (Class.vars_nodup D) g s h
  exact congrArg (Option.map (render true E name m).varRef) this

theorem presence_field {g : GField} {s : ASlot (classFields E m.fields)} (h : (g, some s) ∈ entries E m.fields)
    (ho : g.desc.proto3Optional = true) :
    (render true E name m).presenceIndex (upper g.desc.name) = .ok (s.slot.bit 0) := by
  have hn : (presenceNames m.fields).Nodup := by
    have := D.presence
    have e : (render true E name m).presence = presenceNames m.fields := by
      show m.optionalFields.map _ = _
      rw [H.optional]
      rfl
    rwa [e] at this
  obtain ⟨i, e1, e2⟩ := presence_entries m.fields H.single hn g s h ho 0
  unfold Class.presenceIndex
  have e : (render true E name m).presence = presenceNames m.fields := by
    show m.optionalFields.map _ = _
    rw [H.optional]
    rfl
  rw [e, e1]
  rw [Nat.zero_add] at e2
  rw [e2]
  rfl

omit H in
theorem whichNames_nodup : (m.oneofs.map fun o => (unionOf o).which).Nodup := by
  have := Class.unions_pairwise D
  have : (m.oneofs.map unionOf).Pairwise _ := this
  rw [List.pairwise_map] at this
  unfold List.Nodup
  rw [List.pairwise_map]
  exact this.imp fun h => h.1

omit H in
theorem unionVars_nodup : (m.oneofs.map fun o => (unionOf o).var).Nodup := by
  have := Class.unions_pairwise D
  have : (m.oneofs.map unionOf).Pairwise _ := this
  rw [List.pairwise_map] at this
  unfold List.Nodup
  rw [List.pairwise_map]
  exact this.imp fun h => h.2

omit H in
theorem find_which {e : OEntry E (classOneofs E m.oneofs)} (h : e ∈ oEntries E m.oneofs) :
    findUnion (·.which == whichName e.o.name) (render true E name m).os (render true E name m).unions =
      some ⟨e.slot, varNames e.o.fields⟩ :=
  findUnion_entries (·.which) m.oneofs (whichNames_nodup D) e h

omit H in
theorem getWhich_eq {e : OEntry E (classOneofs E m.oneofs)} (h : e ∈ oEntries E m.oneofs) (x : (render true E name m).Obj) :
    (render true E name m).getWhich (whichName e.o.name) x = .ok (e.slot.state x.oneofs).which := by
  unfold Class.getWhich
  rw [find_which D h]
  rfl

omit H in
theorem putWhich_eq {e : OEntry E (classOneofs E m.oneofs)} (h : e ∈ oEntries E m.oneofs) (n : Nat)
    (x : (render true E name m).Obj) :
    (render true E name m).putWhich (whichName e.o.name) n x =
      .ok { x with oneofs := e.slot.setState x.oneofs ⟨n, (e.slot.state x.oneofs).live⟩ } := by
  unfold Class.putWhich
  rw [find_which D h]
  rfl

theorem ref_member {e : OEntry E (classOneofs E m.oneofs)} (h : e ∈ oEntries E m.oneofs)
    {f : AEntry E (classAlts E e.o.fields)} (hf : f ∈ aEntries E e.o.fields) :
    (render true E name m).ref (.alt (under e.o.name) (under f.g.desc.name)) =
      some ((render true E name m).altRef ⟨e.slot, varNames e.o.fields⟩ ⟨f.member⟩) := by
  have h1 := findUnion_entries (E := E) (·.var) m.oneofs (unionVars_nodup D) e h
  have ho := oEntries_mem h
  have hs : ∀ g ∈ e.o.fields, g.shape ≠ .recursive := fun g hg => by rw [(H.member _ ho g hg).1]; decide
  have h2 := findMember_entries e.o.fields hs (D.members (unionOf e.o) (List.mem_map_of_mem ho)) f hf
  show (Option.bind (findUnion _ (classOneofs E m.oneofs) (m.oneofs.map unionOf)) _) = _
  have h1 : findUnion (fun u => u.var == under e.o.name) (classOneofs E m.oneofs) (m.oneofs.map unionOf) = _ := h1
  rw [h1]
  exact congrArg (Option.map _) h2

end

end EP.Gen
