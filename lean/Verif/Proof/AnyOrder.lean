import Verif.Proof.Reordered

/-! # Newer versions of `.proto` files with the fields in any order: the types of their classes -/

namespace EP.Gen

variable {own : Str}

/-- The same, or in another order. -/
def MovedIf (b : Bool) (s t : ElemTy) : Prop := if b = true then Nonempty (s.Moved t) else s = t
def FMovedIf (b : Bool) (s t : Fields) : Prop := if b = true then Nonempty (s.Moved t) else s = t
def AMovedIf (b : Bool) (s t : Alts) : Prop := if b = true then Nonempty (s.Moved t) else s = t
def OMovedIf (b : Bool) (s t : Oneofs) : Prop := if b = true then Nonempty (s.Moved t) else s = t

section
variable {b : Bool}

theorem MovedIf.rfl (t : ElemTy) : MovedIf b t t := by
  cases b
  · exact Eq.refl t
  · exact ⟨.same t⟩
theorem FMovedIf.rfl (t : Fields) : FMovedIf b t t := by
  cases b
  · exact Eq.refl t
  · exact ⟨.same t⟩
theorem AMovedIf.rfl (t : Alts) : AMovedIf b t t := by
  cases b
  · exact Eq.refl t
  · exact ⟨.same t⟩
theorem OMovedIf.rfl (t : Oneofs) : OMovedIf b t t := by
  cases b
  · exact Eq.refl t
  · exact ⟨.same t⟩

theorem FMovedIf.plain (n : Nat) {s t : ElemTy} {fs gs : Fields} (m : MovedIf b s t) (r : FMovedIf b fs gs) :
    FMovedIf b (.plain n s fs) (.plain n t gs) := by
  cases b
  · cases m; cases r; exact Eq.refl _
  · obtain ⟨m⟩ := m; obtain ⟨r⟩ := r; exact ⟨.plain n m r⟩
theorem FMovedIf.optional (n : Nat) {s t : ElemTy} {fs gs : Fields} (m : MovedIf b s t) (r : FMovedIf b fs gs) :
    FMovedIf b (.optional n s fs) (.optional n t gs) := by
  cases b
  · cases m; cases r; exact Eq.refl _
  · obtain ⟨m⟩ := m; obtain ⟨r⟩ := r; exact ⟨.optional n m r⟩
theorem FMovedIf.repeated (n c : Nat) {s t : ElemTy} {fs gs : Fields} (m : MovedIf b s t) (r : FMovedIf b fs gs) :
    FMovedIf b (.repeated n c s fs) (.repeated n c t gs) := by
  cases b
  · cases m; cases r; exact Eq.refl _
  · obtain ⟨m⟩ := m; obtain ⟨r⟩ := r; exact ⟨.repeated n c m r⟩
theorem AMovedIf.cons (n : Nat) {s t : ElemTy} {fs gs : Alts} (m : MovedIf b s t) (r : AMovedIf b fs gs) :
    AMovedIf b (.cons n s fs) (.cons n t gs) := by
  cases b
  · cases m; cases r; exact Eq.refl _
  · obtain ⟨m⟩ := m; obtain ⟨r⟩ := r; exact ⟨.cons n m r⟩
theorem OMovedIf.cons {s t : Alts} {fs gs : Oneofs} (m : AMovedIf b s t) (r : OMovedIf b fs gs) :
    OMovedIf b (.cons s fs) (.cons t gs) := by
  cases b
  · cases m; cases r; exact Eq.refl _
  · obtain ⟨m⟩ := m; obtain ⟨r⟩ := r; exact ⟨.cons m r⟩
theorem MovedIf.msg {fs gs : Fields} {os ps : Oneofs} (m : FMovedIf b fs gs) (r : OMovedIf b os ps) :
    MovedIf b (.msg fs os) (.msg gs ps) := by
  cases b
  · cases m; cases r; exact Eq.refl _
  · obtain ⟨m⟩ := m; obtain ⟨r⟩ := r; exact ⟨.msg m r⟩

theorem FMovedIf.after {fs gs hs : Fields} (m : FMovedIf b fs gs) (h : Nonempty (gs.Moved hs)) (hb : b = true) :
    FMovedIf b fs hs := by
  subst hb
  obtain ⟨m⟩ := m
  obtain ⟨h⟩ := h
  exact ⟨m.trans h⟩
theorem AMovedIf.after {fs gs hs : Alts} (m : AMovedIf b fs gs) (h : Nonempty (gs.Moved hs)) (hb : b = true) :
    AMovedIf b fs hs := by
  subst hb
  obtain ⟨m⟩ := m
  obtain ⟨h⟩ := h
  exact ⟨m.trans h⟩
theorem OMovedIf.after {fs gs hs : Oneofs} (m : OMovedIf b fs gs) (h : Nonempty (gs.Moved hs)) (hb : b = true) :
    OMovedIf b fs hs := by
  subst hb
  obtain ⟨m⟩ := m
  obtain ⟨h⟩ := h
  exact ⟨m.trans h⟩

end

/-- An older version, with one or the other in another order. -/
def Near (p q : Bool) (s t : ElemTy) : Prop := ∃ s' t', MovedIf p s' s ∧ MovedIf q t' t ∧ IsOlder s' t'
def FNear (p q : Bool) (s t : Fields) : Prop := ∃ s' t', FMovedIf p s' s ∧ FMovedIf q t' t ∧ FOlder s' t'
def ANear (p q : Bool) (s t : Alts) : Prop := ∃ s' t', AMovedIf p s' s ∧ AMovedIf q t' t ∧ AOlder s' t'
def ONear (p q : Bool) (s t : Oneofs) : Prop := ∃ s' t', OMovedIf p s' s ∧ OMovedIf q t' t ∧ OOlder s' t'

variable {p q : Bool}

theorem classFields_near {E E' : Types} : ∀ {l m : List FieldDesc}, Grown KeptField l m →
    (∀ f ∈ l, ∀ g ∈ m, SameField f g → f.typeName ≠ own → Near p q (E.elem f) (E'.elem g)) →
    FNear p q (classFields E (l.map (factory own · none))) (classFields E' (m.map (factory own · none)))
  | _, _, .nil, _ => ⟨_, _, .rfl _, .rfl _, .nil, rfl⟩
  | _, _, .keep (a := f) (b := g) (l := l) (m := m) h hr, hE => by
    obtain ⟨F, G, x, y, r, er⟩ := classFields_near hr
      (fun f hf g hg => hE f (List.mem_cons_of_mem _ hf) g (List.mem_cons_of_mem _ hg))
    rw [classFields_cons, classFields_cons, ← h.typeName, ← h.repeated, ← h.number]
    by_cases h1 : f.typeName = own
    · rw [if_pos h1, if_pos h1]
      exact ⟨F, G, x, y, r, er⟩
    · rw [if_neg h1, if_neg h1]
      obtain ⟨S, T, u, v, t, et⟩ := hE f (List.mem_cons_self ..) g (List.mem_cons_self ..) h.toSameField h1
      by_cases h2 : f.repeated = true
      · rw [if_pos h2, if_pos h2]
        exact ⟨_, _, .repeated _ _ u x, .repeated _ _ v y, .repeated _ _ _ t r, by rw [Fields.Older.old, et, er]⟩
      · rw [if_neg h2, if_neg h2]
        by_cases h3 : f.proto3Optional = true
        · rw [if_pos h3, if_pos (h.optional h3)]
          exact ⟨_, _, .optional _ u x, .optional _ v y, .optional _ t r, by rw [Fields.Older.old, et, er]⟩
        · rw [if_neg h3]
          by_cases h4 : g.proto3Optional = true
          · rw [if_pos h4]
            exact ⟨_, _, .plain _ u x, .optional _ v y, .madeOptional _ t r, by rw [Fields.Older.old, et, er]⟩
          · rw [if_neg h4]
            exact ⟨_, _, .plain _ u x, .plain _ v y, .plain _ t r, by rw [Fields.Older.old, et, er]⟩
  | _, _, .new (b := g) (l := l) (m := m) hr, hE => by
    obtain ⟨F, G, x, y, r, er⟩ := classFields_near hr (fun f hf g hg => hE f hf g (List.mem_cons_of_mem _ hg))
    rw [classFields_cons E']
    by_cases h1 : g.typeName = own
    · rw [if_pos h1]
      exact ⟨F, G, x, y, r, er⟩
    · rw [if_neg h1]
      by_cases h2 : g.repeated = true
      · rw [if_pos h2]
        exact ⟨_, _, x, .repeated _ _ (.rfl _) y, .newRepeated _ _ _ r, er⟩
      · rw [if_neg h2]
        by_cases h4 : g.proto3Optional = true
        · rw [if_pos h4]
          exact ⟨_, _, x, .optional _ (.rfl _) y, .newOptional _ _ r, er⟩
        · rw [if_neg h4]
          exact ⟨_, _, x, .plain _ (.rfl _) y, .newPlain _ _ r, er⟩

theorem classAlts_near {E E' : Types} {i j : Nat} : ∀ {l m : List FieldDesc}, Grown SameField l m →
    (∀ f ∈ l, ∀ g ∈ m, SameField f g → f.typeName ≠ own → Near p q (E.elem f) (E'.elem g)) →
    ANear p q (classAlts E (l.map (factory own · (some i)))) (classAlts E' (m.map (factory own · (some j))))
  | _, _, .nil, _ => ⟨_, _, .rfl _, .rfl _, .nil, rfl⟩
  | _, _, .keep (a := f) (b := g) (l := l) (m := m) h hr, hE => by
    obtain ⟨F, G, x, y, r, er⟩ := classAlts_near (i := i) (j := j) hr
      (fun f hf g hg => hE f (List.mem_cons_of_mem _ hf) g (List.mem_cons_of_mem _ hg))
    rw [classAlts_cons, classAlts_cons, ← h.typeName, ← h.number]
    by_cases h1 : f.typeName = own
    · rw [if_pos h1, if_pos h1]
      exact ⟨F, G, x, y, r, er⟩
    · rw [if_neg h1, if_neg h1]
      obtain ⟨S, T, u, v, t, et⟩ := hE f (List.mem_cons_self ..) g (List.mem_cons_self ..) h h1
      exact ⟨_, _, .cons _ u x, .cons _ v y, .cons _ t r, by rw [Alts.Older.old, et, er]⟩
  | _, _, .new (b := g) (l := l) (m := m) hr, hE => by
    obtain ⟨F, G, x, y, r, er⟩ := classAlts_near (i := i) (j := j) hr (fun f hf g hg => hE f hf g (List.mem_cons_of_mem _ hg))
    rw [classAlts_cons E']
    by_cases h1 : g.typeName = own
    · rw [if_pos h1]
      exact ⟨F, G, x, y, r, er⟩
    · rw [if_neg h1]
      exact ⟨_, _, x, .cons _ (.rfl _) y, .newMember _ _ r, er⟩

/-- What was kept can be put in the order of the older version. -/
theorem Grown.front {α β : Type} {R : α → β → Prop} {l : List α} {m : List β} (h : Grown R l m) :
    ∃ k n, Pairs R l k ∧ m.Perm (k ++ n) := by
  induction h with
  | nil => exact ⟨[], [], .nil, .refl _⟩
  | @keep a b l m r _ ih =>
    obtain ⟨k, n, h1, h2⟩ := ih
    exact ⟨b :: k, n, .cons r h1, h2.cons b⟩
  | @new b l m _ ih =>
    obtain ⟨k, n, h1, h2⟩ := ih
    exact ⟨k, b :: n, h1, (h2.cons b).trans List.perm_middle.symm⟩

theorem Pairs.grown {α β : Type} {R : α → β → Prop} {l : List α} {m n : List β} (h : Pairs R l m) : Grown R l (m ++ n) := by
  induction h with
  | nil =>
    induction n with
    | nil => exact .nil
    | cons b n ih => exact .new ih
  | cons r _ ih => exact .keep r ih

theorem Pairs.perm {α β : Type} {R : α → β → Prop} {l k : List α} (h : l.Perm k) : ∀ {m : List β}, Pairs R k m →
    ∃ n, Pairs R l n ∧ n.Perm m := by
  induction h with
  | nil => exact fun h => ⟨_, h, .refl _⟩
  | cons a _ ih =>
    intro m hm
    cases hm with
    | cons r hm =>
      obtain ⟨n, h1, h2⟩ := ih hm
      exact ⟨_ :: n, .cons r h1, h2.cons _⟩
  | swap a b l =>
    intro m hm
    cases hm with
    | cons r hm =>
      cases hm with
      | cons s hm => exact ⟨_, .cons s (.cons r hm), .swap ..⟩
  | trans _ _ ih ih' =>
    intro m hm
    obtain ⟨n, h1, h2⟩ := ih' hm
    obtain ⟨n', h3, h4⟩ := ih h1
    exact ⟨n', h3, h4.trans h2⟩

/-- Instead of the older version, the newer one is put in another order. -/
theorem Includes.right {α β : Type} {R : α → β → Prop} {l : List α} {m : List β} (h : Includes R l m) :
    ∃ m', Grown R l m' ∧ m'.Perm m := by
  obtain ⟨k, h1, h2⟩ := h
  obtain ⟨k', n, h3, h4⟩ := h2.front
  obtain ⟨k2, h5, h6⟩ := Pairs.perm h1 h3
  exact ⟨k2 ++ n, h5.grown, (h6.append_right n).trans h4.symm⟩

theorem classFields_includes (hpq : p = true ∨ q = true) {E E' : Types} {l m : List FieldDesc} (h : Includes KeptField l m)
    (hE : ∀ f ∈ l, ∀ g ∈ m, SameField f g → f.typeName ≠ own → Near p q (E.elem f) (E'.elem g)) :
    FNear p q (classFields E (l.map (factory own · none))) (classFields E' (m.map (factory own · none))) := by
  rcases hpq with hp | hq
  · obtain ⟨k, h1, h2⟩ := h
    obtain ⟨F, G, x, y, r⟩ := classFields_near (own := own) (p := p) (q := q) (E := E) (E' := E') h2
      fun f hf => hE f (h1.mem_iff.mpr hf)
    exact ⟨F, G, x.after (classFields_perm h1.symm) hp, y, r⟩
  · obtain ⟨k, h1, h2⟩ := h.right
    obtain ⟨F, G, x, y, r⟩ := classFields_near (own := own) (p := p) (q := q) (E := E) (E' := E') h1
      fun f hf g hg => hE f hf g (h2.mem_iff.mp hg)
    exact ⟨F, G, x, y.after (classFields_perm h2) hq, r⟩

theorem classAlts_includes (hpq : p = true ∨ q = true) {E E' : Types} {i j : Nat} {l m : List FieldDesc}
    (h : Includes SameField l m)
    (hE : ∀ f ∈ l, ∀ g ∈ m, SameField f g → f.typeName ≠ own → Near p q (E.elem f) (E'.elem g)) :
    ANear p q (classAlts E (l.map (factory own · (some i)))) (classAlts E' (m.map (factory own · (some j)))) := by
  rcases hpq with hp | hq
  · obtain ⟨k, h1, h2⟩ := h
    obtain ⟨F, G, x, y, r⟩ := classAlts_near (own := own) (p := p) (q := q) (E := E) (E' := E') (i := i) (j := j) h2
      fun f hf => hE f (h1.mem_iff.mpr hf)
    exact ⟨F, G, x.after (classAlts_perm h1.symm) hp, y, r⟩
  · obtain ⟨k, h1, h2⟩ := h.right
    obtain ⟨F, G, x, y, r⟩ := classAlts_near (own := own) (p := p) (q := q) (E := E) (E' := E') (i := i) (j := j) h1
      fun f hf g hg => hE f hf g (h2.mem_iff.mp hg)
    exact ⟨F, G, x, y.after (classAlts_perm h2) hq, r⟩

theorem oneofsOf_near (hpq : p = true ∨ q = true) {E E' : Types} {F F' : Nat → List FieldDesc} : ∀ {ks ks' : List Nat},
    Grown (Includes SameField) (ks.map F) (ks'.map F') →
    (∀ k ∈ ks, ∀ k' ∈ ks', ∀ f ∈ F k, ∀ g ∈ F' k', SameField f g → f.typeName ≠ own → Near p q (E.elem f) (E'.elem g)) →
    ONear p q (oneofsOf own E F ks) (oneofsOf own E' F' ks')
  | ks, k' :: ks', h, hE => by
    rw [List.map_cons] at h
    generalize hl : ks.map F = l at h
    cases h with
    | keep hg hr =>
      cases ks with
      | nil => exact nomatch hl
      | cons k ks =>
        rw [List.map_cons] at hl
        injection hl with hl1 hl2
        subst hl1 hl2
        obtain ⟨A, B, x, y, r, er⟩ := oneofsOf_near hpq hr
          (fun k hk k' hk' => hE k (List.mem_cons_of_mem _ hk) k' (List.mem_cons_of_mem _ hk'))
        obtain ⟨C, D, u, v, a, ea⟩ := classAlts_includes (own := own) hpq (E := E) (E' := E') (i := k) (j := k') hg
          (hE k (List.mem_cons_self ..) k' (List.mem_cons_self ..))
        exact ⟨_, _, .cons u x, .cons v y, .cons a r, by rw [Oneofs.Older.old, ea, er]⟩
    | new hr =>
      subst hl
      obtain ⟨A, B, x, y, r, er⟩ := oneofsOf_near hpq hr (fun k hk k' hk' => hE k hk k' (List.mem_cons_of_mem _ hk'))
      exact ⟨_, _, x, .cons (.rfl _) y, .newOneof _ r, er⟩
  | ks, [], h, _ => by
    rw [List.map_nil] at h
    generalize hl : ks.map F = l at h
    cases h
    rw [List.map_eq_nil_iff.mp hl]
    exact ⟨_, _, .rfl _, .rfl _, .nil, rfl⟩

theorem oneofsOf_includes (hpq : p = true ∨ q = true) {E E' : Types} {F F' : Nat → List FieldDesc} {ks ks' : List Nat}
    (h : Includes (Includes SameField) (ks.map F) (ks'.map F'))
    (hE : ∀ k ∈ ks, ∀ k' ∈ ks', ∀ f ∈ F k, ∀ g ∈ F' k', SameField f g → f.typeName ≠ own → Near p q (E.elem f) (E'.elem g)) :
    ONear p q (oneofsOf own E F ks) (oneofsOf own E' F' ks') := by
  by_cases hp : p = true
  · obtain ⟨l, h1, h2⟩ := h
    obtain ⟨k, h3, rfl⟩ := perm_of_map h1
    obtain ⟨A, B, x, y, r⟩ := oneofsOf_near (own := own) hpq (E := E) (E' := E') h2 fun k hk => hE k (h3.mem_iff.mpr hk)
    exact ⟨A, B, x.after (oneofsOf_perm h3.symm) hp, y, r⟩
  · have hq := hpq.resolve_left hp
    obtain ⟨l, h1, h2⟩ := h.right
    obtain ⟨k, h3, rfl⟩ := perm_of_map h2.symm
    obtain ⟨A, B, x, y, r⟩ := oneofsOf_near (own := own) hpq (E := E) (E' := E') h1
      fun k hk k' hk' => hE k hk k' (h3.mem_iff.mpr hk')
    exact ⟨A, B, x, y.after (oneofsOf_perm h3.symm) hq, r⟩

/-- The class of an older version is, up to the order, an older version of the class. -/
theorem instantiate_near (hpq : p = true ∨ q = true) {old new : List (Str × List MsgDesc)} (hN : ChangedFiles old new)
    (hv : ∀ own m, Defined old own m → FieldsValid m.fields m.oneofs)
    (hv' : ∀ own m, Defined new own m → FieldsValid m.fields m.oneofs) {P P' : Str → List Str} :
    ∀ (n n' : Nat) {own : Str} {args args' : List Nat} {S T : ElemTy}, instantiate old P n own args = some S →
      instantiate new P' n' own args' = some T → Near p q S T
  | 0, _, _, _, _, _, _, h, _ => nomatch h
  | _ + 1, 0, _, _, _, _, _, _, h => nomatch h
  | n + 1, n' + 1, own, args, args', S, T, h, h' => by
    obtain ⟨l, g, f1, f2, f3, rfl⟩ := instantiate_succ h
    obtain ⟨m, g', f1', f2', f3', rfl⟩ := instantiate_succ h'
    have d := findMsg_some f1
    have d' := findMsg_some f1'
    have hnm := hN own l m d d'
    have key : ∀ f o g o', memberOK P (instantiate old P n) own args (factory own f o) = true →
        memberOK P' (instantiate new P' n') own args' (factory own g o') = true → SameField f g → f.typeName ≠ own →
        Near p q ((instanceTypes P (instantiate old P n) own args).elem f)
          ((instanceTypes P' (instantiate new P' n') own args').elem g) := by
      intro f o g o' k1 k2 hs hne
      unfold Types.elem
      rw [← hs.type]
      cases ht : f.type with
      | scalar s => exact ⟨_, _, .rfl _, .rfl _, .scalar s, rfl⟩
      | enum => exact ⟨_, _, .rfl _, .rfl _, .scalar _, rfl⟩
      | string => exact ⟨_, _, .rfl _, .rfl _, .str _ (if f.maxLength = 0 then (instanceTypes P (instantiate old P n) own args).length f else f.maxLength), rfl⟩
      | bytes => exact ⟨_, _, .rfl _, .rfl _, .str _ (if f.maxLength = 0 then (instanceTypes P (instantiate old P n) own args).length f else f.maxLength), rfl⟩
      | message =>
        obtain ⟨a, ha⟩ := memberOK_message k1 hne ht
        obtain ⟨a', ha'⟩ := memberOK_message k2 (hs.typeName ▸ hne) (hs.type ▸ ht)
        rw [← hs.typeName] at ha'
        exact instantiate_near hpq hN hv hv' n n' ha ha'
    obtain ⟨e1, ks, e2, e3⟩ := mkMessage_split (hv own l d) f2
    obtain ⟨e1', ks', e2', e3'⟩ := mkMessage_split (hv' own m d') f2'
    have A : FNear p q (classFields (instanceTypes P (instantiate old P n) own args) g.fields)
        (classFields (instanceTypes P' (instantiate new P' n') own args') g'.fields) := by
      rw [e1, e1']
      exact classFields_includes hpq hnm.fields fun f hf g hg hs hne =>
        key f none g none (f3 _ (List.mem_append_left _ (e1 ▸ List.mem_map.mpr ⟨f, hf, rfl⟩)))
          (f3' _ (List.mem_append_left _ (e1' ▸ List.mem_map.mpr ⟨g, hg, rfl⟩))) hs hne
    have B : ONear p q (classOneofs (instanceTypes P (instantiate old P n) own args) g.oneofs)
        (classOneofs (instanceTypes P' (instantiate new P' n') own args') g'.oneofs) := by
      rw [classOneofs_eq e2, classOneofs_eq e2']
      exact oneofsOf_includes hpq (by rw [e3, e3']; exact hnm.oneofs) fun k hk k' hk' f hf g hg hs hne =>
        key f (some k) g (some k') (f3 _ (mem_oneofs e2 k hk f hf)) (f3' _ (mem_oneofs e2' k' hk' g hg)) hs hne
    obtain ⟨F, G, x, y, a, ea⟩ := A
    obtain ⟨C, D, u, v, b, eb⟩ := B
    exact ⟨_, _, .msg x u, .msg y v, .msg a b, congr (congrArg ElemTy.msg ea) eb⟩

end EP.Gen
