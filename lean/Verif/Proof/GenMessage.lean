import Verif.Spec.Placed

/-!
# The generator puts every field in its place
-/

namespace EP.Gen

variable {own : Str} {fields : List FieldDesc} {oneofs : List Str}

/-- Members of proper oneofs. -/
def inOneof (f : FieldDesc) : Bool := !(f.oneofIndex == none || f.proto3Optional)

/-- ... of those from number `i` on. -/
def inOneofFrom (i : Nat) (f : FieldDesc) : Bool :=
  inOneof f && (match f.oneofIndex with | none => false | some k => decide (i ≤ k))

theorem FieldsValid.synthetic (h : FieldsValid fields oneofs) {f g : FieldDesc} {i : Nat} (hf : f ∈ fields)
    (hg : g ∈ fields) (ef : f.oneofIndex = some i) (eg : g.oneofIndex = some i) :
    f.proto3Optional = g.proto3Optional := by
  cases hfo : f.proto3Optional with
  | true =>
    obtain ⟨j, e1, e2⟩ := h.optional f hf hfo
    rw [ef] at e1
    injection e1 with e1
    subst e1
    rw [e2 g hg eg, hfo]
  | false =>
    cases hgo : g.proto3Optional with
    | false => rfl
    | true =>
      obtain ⟨j, e1, e2⟩ := h.optional g hg hgo
      rw [eg] at e1
      injection e1 with e1
      subst e1
      rw [← e2 f hf ef, hfo] at hgo
      exact nomatch hgo

theorem mkOneofs_spec (h : FieldsValid fields oneofs) : ∀ (ns : List Str) (i : Nat), i + ns.length = oneofs.length →
    ∃ os, mkOneofs own fields ns i = .ok os ∧
      (fields.filter (inOneofFrom i)).Perm (os.flatMap fun o => o.fields.map (·.desc)) ∧
      (∀ o ∈ os, o.fields = (fields.filter fun f => f.oneofIndex == some o.index).map (factory own · (some o.index)) ∧
        i ≤ o.index ∧ ∀ f ∈ fields, f.oneofIndex = some o.index → f.proto3Optional = false) ∧
      (∀ f ∈ fields, ∀ k, i ≤ k → f.oneofIndex = some k → f.proto3Optional = false → ∃ o ∈ os, o.index = k)
  | [], i, hi => by
    refine ⟨[], rfl, ?_, (fun o ho => nomatch ho), ?_⟩
    · have : fields.filter (inOneofFrom i) = [] := by
        rw [List.filter_eq_nil_iff]
        intro f hf
        unfold inOneofFrom
        cases hk : f.oneofIndex with
        | none => simp
        | some k =>
          have := h.index f hf k hk
          simp only [List.length_nil] at hi
          simp; omega
      rw [this]
      exact List.Perm.refl _
    · intro f hf k hk he
      have := h.index f hf k he
      simp only [List.length_nil] at hi
      omega
  | n :: ns, i, hi => by
    simp only [List.length_cons] at hi
    obtain ⟨os, e1, e2, e3, e4⟩ := mkOneofs_spec h ns (i + 1) (by omega)
    have hfil : ∀ f ∈ fields, f.oneofIndex = some i → f ∈ fields.filter fun f => f.oneofIndex == some i :=
      fun f hf e => List.mem_filter.mpr ⟨hf, by simp [e]⟩
    obtain ⟨f₀, m₀, i₀⟩ := h.inhabited i (by omega)
    have hsplit : (fields.filter (inOneofFrom i)).Perm
        (fields.filter (fun f => inOneof f && f.oneofIndex == some i) ++ fields.filter (inOneofFrom (i + 1))) := by
      have := List.filter_append_perm (fun f => f.oneofIndex == some i) (fields.filter (inOneofFrom i))
      refine this.symm.trans ?_
      rw [List.filter_filter, List.filter_filter]
      refine List.Perm.of_eq ?_
      congr 1
      · refine List.filter_congr fun f _ => ?_
        unfold inOneofFrom
        cases hk : f.oneofIndex with
        | none => simp
        | some k =>
          by_cases hki : k = i
          · subst hki; simp
          · have : (k == i) = false := by simp [hki]
            simp [this]
      · refine List.filter_congr fun f _ => ?_
        unfold inOneofFrom
        cases hk : f.oneofIndex with
        | none => simp
        | some k =>
          by_cases hki : k = i
          · subst hki; simp
          · have : (i ≤ k) ↔ (i + 1 ≤ k) := by omega
            simp [hki, this]
    rw [mkOneofs]
    cases hl : (mkOneof own fields n i).fields with
    | nil =>
      have := hfil f₀ m₀ i₀
      simp only [mkOneof, List.map_eq_nil_iff] at hl
      rw [hl] at this
      exact nomatch this
    | cons g gs =>
      have hg : ∃ f ∈ fields, f.oneofIndex = some i ∧ g.desc = f := by
        have : g ∈ (mkOneof own fields n i).fields := by rw [hl]; exact List.mem_cons_self
        simp only [mkOneof, List.mem_map, List.mem_filter] at this
        obtain ⟨f, ⟨hf, hfi⟩, rfl⟩ := this
        exact ⟨f, hf, by simpa using hfi, rfl⟩
      obtain ⟨f, hf, hfi, hgf⟩ := hg
      show ∃ os, (if g.desc.proto3Optional = true then _ else _) = Except.ok os ∧ _
      rw [hgf]
      cases hopt : f.proto3Optional with
      | true =>
        refine ⟨os, if_pos rfl ▸ e1, ?_, fun o ho => ⟨(e3 o ho).1, by have := (e3 o ho).2.1; omega, (e3 o ho).2.2⟩, ?_⟩
        · refine hsplit.trans ?_
          have : fields.filter (fun f => inOneof f && f.oneofIndex == some i) = [] := by
            rw [List.filter_eq_nil_iff]
            intro g' hg' hc
            simp only [inOneof, Bool.and_eq_true, beq_iff_eq] at hc
            have := h.synthetic hg' hf hc.2 hfi
            rw [hopt] at this
            simp [this] at hc
          rw [this]
          exact e2
        · intro f' hf' k hk hfk ho
          by_cases hki : k = i
          · subst hki
            have := h.synthetic hf' hf hfk hfi
            rw [ho, hopt] at this
            exact nomatch this
          · exact e4 f' hf' k (by omega) hfk ho
      | false =>
        refine ⟨mkOneof own fields n i :: os, ?_, ?_, ?_, ?_⟩
        · rw [e1]; rfl
        · refine hsplit.trans ?_
          rw [List.flatMap_cons]
          refine List.Perm.append (List.Perm.of_eq ?_) e2
          simp only [mkOneof, List.map_map]
          have : ((fun g : GField => g.desc) ∘ fun x => factory own x (some i)) = id := rfl
          rw [this, List.map_id]
          refine List.filter_congr fun g' hg' => ?_
          by_cases hk : g'.oneofIndex = some i
          · have := h.synthetic hg' hf hk hfi
            simp [inOneof, hk, this, hopt]
          · simp [hk]
        · intro o ho
          rcases List.mem_cons.mp ho with rfl | ho
          · exact ⟨rfl, Nat.le_refl _, fun f' hf' hk => (h.synthetic hf' hf hk hfi).trans hopt⟩
          · exact ⟨(e3 o ho).1, by have := (e3 o ho).2.1; omega, (e3 o ho).2.2⟩
        · intro f' hf' k hk hfk ho
          by_cases hki : k = i
          · exact ⟨_, List.mem_cons_self, hki.symm⟩
          · obtain ⟨o, m, e⟩ := e4 f' hf' k (by omega) hfk ho
            exact ⟨o, List.mem_cons_of_mem _ m, e⟩

/-! ## Numbers of the members -/

variable (E : Types)

theorem classFields_numbers : ∀ (gs : List GField), (∀ g ∈ gs, g.shape ≠ .recursive) →
    (classFields E gs).numbers = gs.map (·.desc.number)
  | [], _ => rfl
  | g :: gs, h => by
    have ih := classFields_numbers gs fun g hg => h g (List.mem_cons_of_mem _ hg)
    have hg := h g List.mem_cons_self
    unfold classFields
    cases hs : g.shape with
    | recursive => exact absurd hs hg
    | repeated => simp only [Fields.numbers, ih, List.map_cons]
    | single =>
      dsimp only
      split <;> simp only [Fields.numbers, ih, List.map_cons]

theorem classAlts_numbers : ∀ (gs : List GField), (∀ g ∈ gs, g.shape ≠ .recursive) →
    (classAlts E gs).numbers = gs.map (·.desc.number)
  | [], _ => rfl
  | g :: gs, h => by
    have ih := classAlts_numbers gs fun g hg => h g (List.mem_cons_of_mem _ hg)
    have hg := h g List.mem_cons_self
    unfold classAlts
    cases hs : g.shape with
    | recursive => exact absurd hs hg
    | repeated => simp only [Alts.numbers, ih, List.map_cons]
    | single => simp only [Alts.numbers, ih, List.map_cons]

theorem classOneofs_numbers : ∀ (os : List GOneof), (∀ o ∈ os, ∀ g ∈ o.fields, g.shape ≠ .recursive) →
    (classOneofs E os).numbers = (os.flatMap fun o => o.fields.map (·.desc)).map (·.number)
  | [], _ => rfl
  | o :: os, h => by
    have ih := classOneofs_numbers os fun o ho => h o (List.mem_cons_of_mem _ ho)
    unfold classOneofs
    rw [Oneofs.numbers, ih, classAlts_numbers E _ (h o List.mem_cons_self)]
    simp [List.map_flatMap]

theorem classFields_slot : ∀ (gs : List GField) (g : GField), g ∈ gs → (s : g.shape ≠ .recursive) →
    Nonempty (Slot (classFields E gs) g.desc.number
      (if g.shape = .repeated then .rep (if g.desc.maxLength = 0 then E.repLength g.desc else g.desc.maxLength)
        else if g.desc.proto3Optional then .opt else .single) (E.elem g.desc))
  | [], g, h, _ => nomatch h
  | a :: gs, g, h, hs => by
    unfold classFields
    rcases List.mem_cons.mp h with rfl | h
    · cases hsh : g.shape with
      | recursive => exact absurd hsh hs
      | repeated => exact ⟨.repeated _ _ _ _⟩
      | single =>
        cases ho : g.desc.proto3Optional with
        | true => exact ⟨.optional _ _ _⟩
        | false => exact ⟨.plain _ _ _⟩
    · obtain ⟨s⟩ := classFields_slot gs g h hs
      cases a.shape with
      | recursive => exact ⟨s⟩
      | repeated => exact ⟨.afterRepeated _ _ _ s⟩
      | single =>
        cases a.desc.proto3Optional with
        | true => exact ⟨.afterOptional _ _ s⟩
        | false => exact ⟨.afterPlain _ _ s⟩

theorem classAlts_member : ∀ (gs : List GField) (g : GField), g ∈ gs → g.shape ≠ .recursive →
    Nonempty (Member (classAlts E gs) g.desc.number (E.elem g.desc))
  | [], _, h, _ => nomatch h
  | a :: gs, g, h, hs => by
    unfold classAlts
    rcases List.mem_cons.mp h with rfl | h
    · cases hsh : g.shape with
      | recursive => exact absurd hsh hs
      | repeated => exact ⟨.here _ _ _⟩
      | single => exact ⟨.here _ _ _⟩
    · obtain ⟨s⟩ := classAlts_member gs g h hs
      cases a.shape with
      | recursive => exact ⟨s⟩
      | repeated => exact ⟨.after _ _ s⟩
      | single => exact ⟨.after _ _ s⟩

theorem classOneofs_slot : ∀ (os : List GOneof) (o : GOneof), o ∈ os →
    Nonempty (OneofSlot (classOneofs E os) (classAlts E o.fields))
  | [], _, h => nomatch h
  | a :: os, o, h => by
    unfold classOneofs
    rcases List.mem_cons.mp h with rfl | h
    · exact ⟨.here _ _⟩
    · obtain ⟨s⟩ := classOneofs_slot os o h
      exact ⟨.after _ s⟩

/-! ## Well-formed declarations -/

/-- The types and lengths the user fills in are acceptable. -/
structure Types.Good (E : Types) (fields : List FieldDesc) : Prop where
  message : ∀ f ∈ fields, f.type = .message → (E.message f).WF
  length : ∀ f ∈ fields, 0 < E.length f ∧ E.length f < 2147483648
  repLength : ∀ f ∈ fields, E.repLength f < 2147483648
  maxLength : ∀ f ∈ fields, f.maxLength < 2147483648

theorem Types.Good.elem {E : Types} (h : E.Good fields) {f : FieldDesc} (hf : f ∈ fields) : (E.elem f).WF := by
  unfold Types.elem
  have h1 := h.length f hf
  have h2 := h.maxLength f hf
  split
  · trivial
  · trivial
  · next ht => exact h.message f hf ht
  all_goals
    show 0 < _ ∧ _ < _
    split <;> omega

theorem classFields_wf (h : E.Good fields) : ∀ (gs : List GField), (∀ g ∈ gs, g.desc ∈ fields) → (classFields E gs).WF
  | [], _ => trivial
  | g :: gs, hg => by
    have ih := classFields_wf h gs fun g m => hg g (List.mem_cons_of_mem _ m)
    have m := hg g List.mem_cons_self
    have h1 := h.repLength g.desc m
    have h2 := h.maxLength g.desc m
    unfold classFields
    split
    · exact ih
    · refine ⟨?_, h.elem m, ih⟩
      split <;> omega
    · split
      · exact ⟨h.elem m, ih⟩
      · exact ⟨h.elem m, ih⟩

theorem classAlts_wf (h : E.Good fields) : ∀ (gs : List GField), (∀ g ∈ gs, g.desc ∈ fields) → (classAlts E gs).WF
  | [], _ => trivial
  | g :: gs, hg => by
    have ih := classAlts_wf h gs fun g m => hg g (List.mem_cons_of_mem _ m)
    unfold classAlts
    split
    · exact ih
    · exact ⟨h.elem (hg g List.mem_cons_self), ih⟩

theorem classOneofs_wf (h : E.Good fields) : ∀ (os : List GOneof), (∀ o ∈ os, ∀ g ∈ o.fields, g.desc ∈ fields) →
    (classOneofs E os).WF
  | [], _ => trivial
  | o :: os, ho => ⟨classAlts_wf E h _ (ho o List.mem_cons_self),
      classOneofs_wf h os fun o m => ho o (List.mem_cons_of_mem _ m)⟩

/-! ## Sorting -/

theorem insertBy_perm {α : Type} (le : α → α → Bool) (a : α) : ∀ l : List α, (insertBy le a l).Perm (a :: l)
  | [] => List.Perm.refl _
  | b :: l => by
    unfold insertBy
    split
    · exact List.Perm.refl _
    · exact ((insertBy_perm le a l).cons b).trans (List.Perm.swap a b l)

theorem sortBy_perm {α : Type} (le : α → α → Bool) : ∀ l : List α, (sortBy le l).Perm l
  | [] => List.Perm.refl _
  | a :: l => (insertBy_perm le a _).trans ((sortBy_perm le l).cons a)

theorem insertBy_sorted {α : Type} {le : α → α → Bool} (total : ∀ a b, le a b = true ∨ le b a = true)
    (trans : ∀ a b c, le a b = true → le b c = true → le a c = true) (a : α) :
    ∀ l : List α, l.Pairwise (fun x y => le x y = true) → (insertBy le a l).Pairwise (fun x y => le x y = true)
  | [], _ => List.pairwise_singleton _ _
  | b :: l, h => by
    unfold insertBy
    split
    · next hab =>
      refine List.pairwise_cons.mpr ⟨?_, h⟩
      intro c hc
      rcases List.mem_cons.mp hc with rfl | hc
      · exact hab
      · exact trans a b c hab ((List.pairwise_cons.mp h).1 c hc)
    · next hab =>
      refine List.pairwise_cons.mpr ⟨?_, insertBy_sorted total trans a l (List.pairwise_cons.mp h).2⟩
      intro c hc
      rcases List.mem_cons.mp ((insertBy_perm le a l).mem_iff.mp hc) with rfl | hc
      · exact (total c b).resolve_left hab
      · exact (List.pairwise_cons.mp h).1 c hc

theorem sortBy_sorted {α : Type} {le : α → α → Bool} (total : ∀ a b, le a b = true ∨ le b a = true)
    (trans : ∀ a b c, le a b = true → le b c = true → le a c = true) :
    ∀ l : List α, (sortBy le l).Pairwise (fun x y => le x y = true)
  | [] => List.Pairwise.nil
  | a :: l => insertBy_sorted total trans a _ (sortBy_sorted total trans l)

end EP.Gen

namespace EP.Gen

/-! ## The order of identifiers -/

theorem strLe_total : ∀ s t : Str, strLe s t = true ∨ strLe t s = true
  | [], _ => .inl rfl
  | _ :: _, [] => .inr rfl
  | a :: s, b :: t => by
    simp only [strLe, Bool.or_eq_true, Bool.and_eq_true, decide_eq_true_eq, beq_iff_eq]
    rcases Nat.lt_trichotomy a.toNat b.toNat with h | h | h
    · exact .inl (.inl h)
    · have hab : a = b := Char.toNat_inj.mp h
      rcases strLe_total s t with h' | h'
      · exact .inl (.inr ⟨hab, h'⟩)
      · exact .inr (.inr ⟨hab.symm, h'⟩)
    · exact .inr (.inl h)

theorem strLe_trans : ∀ s t u : Str, strLe s t = true → strLe t u = true → strLe s u = true
  | [], _, _, _, _ => by simp [strLe]
  | _ :: _, [], _, h, _ => by simp [strLe] at h
  | _ :: _, _ :: _, [], _, h => by simp [strLe] at h
  | a :: s, b :: t, c :: u, h1, h2 => by
    simp only [strLe, Bool.or_eq_true, Bool.and_eq_true, decide_eq_true_eq, beq_iff_eq] at h1 h2 ⊢
    rcases h1 with h1 | ⟨rfl, h1⟩
    · rcases h2 with h2 | ⟨rfl, h2⟩
      · exact .inl (Nat.lt_trans h1 h2)
      · exact .inl h1
    · rcases h2 with h2 | ⟨rfl, h2⟩
      · exact .inl h2
      · exact .inr ⟨rfl, strLe_trans s t u h1 h2⟩

theorem idLe_total (a b : Nat × Str) : idLe a b = true ∨ idLe b a = true := by
  simp only [idLe, Bool.or_eq_true, Bool.and_eq_true, decide_eq_true_eq, beq_iff_eq]
  rcases Nat.lt_trichotomy a.1 b.1 with h | h | h
  · exact .inl (.inl h)
  · rcases strLe_total a.2 b.2 with h' | h'
    · exact .inl (.inr ⟨h, h'⟩)
    · exact .inr (.inr ⟨h.symm, h'⟩)
  · exact .inr (.inl h)

theorem idLe_trans (a b c : Nat × Str) (h1 : idLe a b = true) (h2 : idLe b c = true) : idLe a c = true := by
  simp only [idLe, Bool.or_eq_true, Bool.and_eq_true, decide_eq_true_eq, beq_iff_eq] at h1 h2 ⊢
  rcases h1 with h1 | ⟨e1, h1⟩
  · rcases h2 with h2 | ⟨e2, _⟩
    · exact .inl (Nat.lt_trans h1 h2)
    · exact .inl (e2 ▸ h1)
  · rcases h2 with h2 | ⟨e2, h2⟩
    · exact .inl (e1 ▸ h2)
    · exact .inr ⟨e1.trans e2, strLe_trans _ _ _ h1 h2⟩

theorem idLe_fst {a b : Nat × Str} (h : idLe a b = true) : a.1 ≤ b.1 := by
  simp only [idLe, Bool.or_eq_true, Bool.and_eq_true, decide_eq_true_eq, beq_iff_eq] at h
  omega

/-! ## The whole message -/

variable {own : Str} {fields : List FieldDesc} {oneofs : List Str}

theorem factory_shape {f : FieldDesc} {o : Option Nat} (h : f.typeName ≠ own) :
    (factory own f o).shape = if f.repeated then .repeated else .single := by
  simp [factory, h]

theorem factory_ne {f : FieldDesc} {o : Option Nat} (h : f.typeName ≠ own) : (factory own f o).shape ≠ .recursive := by
  rw [factory_shape h]
  split <;> simp

/-- Everything there is to say about the result of `mkMessage`. -/
theorem mkMessage_spec (h : FieldsValid fields oneofs) : ∃ m, mkMessage own fields oneofs = .ok m ∧
    m.fields = (fields.filter fun f => f.oneofIndex == none || f.proto3Optional).map (factory own · none) ∧
    m.optionalFields.map (·.desc) = fields.filter (·.proto3Optional) ∧
    (m.fields.map (·.desc) ++ m.oneofs.flatMap fun o => o.fields.map (·.desc)).Perm fields ∧
    (∀ o ∈ m.oneofs, o.fields = (fields.filter fun f => f.oneofIndex == some o.index).map (factory own · (some o.index))) ∧
    (∀ f ∈ fields, ∀ k, f.oneofIndex = some k → f.proto3Optional = false → ∃ o ∈ m.oneofs, o.index = k) ∧
    m.fieldIds.Pairwise (fun a b => a.1 ≤ b.1) ∧
    m.fieldIds.Perm (fields.map fun f => (f.number, upper f.name)) := by
  obtain ⟨os, e1, e2, e3, e4⟩ := mkOneofs_spec (own := own) h oneofs 0 (by omega)
  have hperm : (((fields.filter fun f => f.oneofIndex == none || f.proto3Optional).map (factory own · none)).map (·.desc)
      ++ os.flatMap fun o => o.fields.map (·.desc)).Perm fields := by
    rw [List.map_map]
    have : ((fun g : GField => g.desc) ∘ fun x => factory own x none) = id := rfl
    rw [this, List.map_id]
    refine (List.Perm.append_left _ e2.symm).trans ?_
    have hf : fields.filter (inOneofFrom 0) =
        fields.filter fun f => !(f.oneofIndex == none || f.proto3Optional) := by
      refine List.filter_congr fun f _ => ?_
      unfold inOneofFrom inOneof
      cases f.oneofIndex <;> simp
    rw [hf]
    exact List.filter_append_perm _ fields
  refine ⟨⟨_, ((fields.filter fun f => f.oneofIndex == none || f.proto3Optional).map (factory own · none)).filter
      (·.desc.proto3Optional), os,
      sortBy idLe (((fields.filter fun f => f.oneofIndex == none || f.proto3Optional).map (factory own · none)).map fieldId
        ++ os.flatMap (·.fields.map fieldId))⟩, ?_, rfl, ?_, hperm, fun o ho => (e3 o ho).1,
    fun f hf k hk ho => e4 f hf k (Nat.zero_le k) hk ho, ?_, ?_⟩
  · unfold mkMessage
    rw [e1]
    rfl
  · dsimp only
    rw [List.filter_map, List.map_map]
    have : ((fun g : GField => g.desc) ∘ fun x => factory own x none) = id := rfl
    rw [this, List.map_id, List.filter_filter]
    refine List.filter_congr fun f _ => ?_
    show (f.proto3Optional && _) = _
    cases f.proto3Optional <;> simp
  · exact (sortBy_sorted idLe_total idLe_trans _).imp idLe_fst
  · refine (sortBy_perm idLe _).trans ?_
    have := hperm.map fun f => (f.number, upper f.name)
    rw [List.map_append, List.map_map, List.map_flatMap] at this
    simp only [List.map_map] at this ⊢
    exact this

/-- Without recursive fields every number appears once and every field is in its place. -/
theorem mkMessage_placed (E : Types) (h : FieldsValid fields oneofs) (hr : ∀ f ∈ fields, f.typeName ≠ own) :
    ∃ m, mkMessage own fields oneofs = .ok m ∧
      ((classFields E m.fields).numbers ++ (classOneofs E m.oneofs).numbers).Perm (fields.map (·.number)) ∧
      ∀ f ∈ fields, Placed E fields (classFields E m.fields) (classOneofs E m.oneofs) f := by
  obtain ⟨m, e, hfs, _, hp, ho, hk, _, _⟩ := mkMessage_spec (own := own) h
  have hne1 : ∀ g ∈ m.fields, g.shape ≠ .recursive := by
    intro g hg
    rw [hfs] at hg
    obtain ⟨f, hf, rfl⟩ := List.mem_map.mp hg
    exact factory_ne (hr f (List.mem_filter.mp hf).1)
  have hne2 : ∀ o ∈ m.oneofs, ∀ g ∈ o.fields, g.shape ≠ .recursive := by
    intro o hoo g hg
    rw [ho o hoo] at hg
    obtain ⟨f, hf, rfl⟩ := List.mem_map.mp hg
    exact factory_ne (hr f (List.mem_filter.mp hf).1)
  refine ⟨m, e, ?_, ?_⟩
  · rw [classFields_numbers E _ hne1, classOneofs_numbers E _ hne2]
    have := hp.map (·.number)
    rw [List.map_append, List.map_map] at this
    exact this
  · intro f hf
    have plain : (f.oneofIndex = none ∨ f.proto3Optional = true) → factory own f none ∈ m.fields := fun hc => by
      rw [hfs]
      exact List.mem_map.mpr ⟨f, List.mem_filter.mpr ⟨hf, by simpa using hc⟩, rfl⟩
    have slot : ∀ f, factory own f none ∈ m.fields → Nonempty (Slot (classFields E m.fields) f.number
        (if (factory own f none).shape = .repeated then .rep (if f.maxLength = 0 then E.repLength f else f.maxLength)
          else if f.proto3Optional then .opt else .single) (E.elem f)) :=
      fun f hm => classFields_slot E m.fields _ hm (hne1 _ hm)
    unfold Placed
    split
    · next hopt =>
      have hm := plain (.inr hopt)
      have hs := slot f hm
      obtain ⟨i, hi, _⟩ := h.optional f hf hopt
      have hrep : f.repeated = false := h.single f hf (by rw [hi]; simp)
      rw [factory_shape (hr f hf), hrep] at hs
      simpa [hopt] using hs
    · next hopt =>
      cases hidx : f.oneofIndex with
      | none =>
        have hm := plain (.inl hidx)
        have hs := slot f hm
        rw [factory_shape (hr f hf)] at hs
        have hopt' : f.proto3Optional = false := by simpa using hopt
        dsimp only
        split
        · next hrep =>
          rw [hrep] at hs
          simpa using hs
        · next hrep =>
          have : f.repeated = false := by simpa using hrep
          rw [this] at hs
          simpa [hopt'] using hs
      | some i =>
        obtain ⟨o, hoo, hoi⟩ := hk f hf i hidx (by simpa using hopt)
        refine ⟨classAlts E o.fields, classOneofs_slot E _ o hoo, ?_, ?_⟩
        · have hm : factory own f (some i) ∈ o.fields := by
            rw [ho o hoo, hoi]
            exact List.mem_map.mpr ⟨f, List.mem_filter.mpr ⟨hf, by simp [hidx]⟩, rfl⟩
          exact classAlts_member E o.fields _ hm (hne2 o hoo _ hm)
        · rw [classAlts_numbers E _ (hne2 o hoo), ho o hoo, hoi, List.map_map]
          rfl

theorem mkMessage_wf (E : Types) (h : FieldsValid fields oneofs) (hr : ∀ f ∈ fields, f.typeName ≠ own)
    (hE : E.Good fields) : ∃ m, mkMessage own fields oneofs = .ok m ∧ (m.type E).WF := by
  obtain ⟨m, e, hfs, _, _, ho, _, _, _⟩ := mkMessage_spec (own := own) h
  obtain ⟨m', e', hp, _⟩ := mkMessage_placed (own := own) E h hr
  rw [e] at e'
  injection e' with e'
  subst e'
  refine ⟨m, e, classFields_wf E hE _ ?_, classOneofs_wf E hE _ ?_, hp.nodup_iff.mpr h.distinct, ?_⟩
  · intro g hg
    rw [hfs] at hg
    obtain ⟨f, hf, rfl⟩ := List.mem_map.mp hg
    exact (List.mem_filter.mp hf).1
  · intro o hoo g hg
    rw [ho o hoo] at hg
    obtain ⟨f, hf, rfl⟩ := List.mem_map.mp hg
    exact (List.mem_filter.mp hf).1
  · intro n hn
    obtain ⟨f, hf, rfl⟩ := List.mem_map.mp (hp.mem_iff.mp hn)
    exact h.range f hf

end EP.Gen
