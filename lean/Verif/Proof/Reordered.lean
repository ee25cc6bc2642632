import Verif.Spec.Reordered
import Verif.Spec.Moved
import Verif.Proof.Evolved

/-! # `.proto` files in another order: the types of their classes -/

namespace EP

theorem Head.moved (h : Head) {fs gs : Fields} : fs.Moved gs → Nonempty ((h.before fs).Moved (h.before gs)) :=
  match h with
  | .plain n t => fun r => ⟨.plain n (.same t) r⟩
  | .optional n t => fun r => ⟨.optional n (.same t) r⟩
  | .repeated n c t => fun r => ⟨.repeated n c (.same t) r⟩

namespace Gen

variable {own : Str}

/-- The member for a field, if there is one. -/
def head (own : Str) (E : Types) (f : FieldDesc) : Option Head :=
  if f.typeName = own then none
  else if f.repeated = true then some (.repeated f.number (if f.maxLength = 0 then E.repLength f else f.maxLength) (E.elem f))
  else if f.proto3Optional = true then some (.optional f.number (E.elem f))
  else some (.plain f.number (E.elem f))

def before : Option Head → Fields → Fields
  | none, r => r
  | some h, r => h.before r

theorem classFields_head (E : Types) (f : FieldDesc) (l : List FieldDesc) :
    classFields E ((f :: l).map (factory own · none)) = before (head own E f) (classFields E (l.map (factory own · none))) := by
  rw [classFields_cons, head]
  split
  · rfl
  · split
    · rfl
    · split <;> rfl

theorem classFields_perm {E : Types} {l k : List FieldDesc} (h : l.Perm k) :
    Nonempty ((classFields E (l.map (factory own · none))).Moved (classFields E (k.map (factory own · none)))) := by
  induction h with
  | nil => exact ⟨.same _⟩
  | cons f h ih =>
    rw [classFields_head, classFields_head]
    obtain ⟨r⟩ := ih
    cases head own E f with
    | none => exact ⟨r⟩
    | some h => exact h.moved r
  | swap f g l =>
    rw [classFields_head, classFields_head, classFields_head, classFields_head]
    cases head own E f with
    | none => exact ⟨.same _⟩
    | some h =>
      cases head own E g with
      | none => exact ⟨.same _⟩
      | some k => exact ⟨.swap k h _⟩
  | trans _ _ ih ih' =>
    obtain ⟨r⟩ := ih
    obtain ⟨q⟩ := ih'
    exact ⟨r.trans q⟩

theorem classAlts_perm {E : Types} {i : Nat} {l k : List FieldDesc} (h : l.Perm k) :
    Nonempty ((classAlts E (l.map (factory own · (some i)))).Moved (classAlts E (k.map (factory own · (some i))))) := by
  induction h with
  | nil => exact ⟨.same _⟩
  | cons f h ih =>
    rw [classAlts_cons, classAlts_cons]
    obtain ⟨r⟩ := ih
    by_cases h1 : f.typeName = own
    · rw [if_pos h1, if_pos h1]
      exact ⟨r⟩
    · rw [if_neg h1, if_neg h1]
      exact ⟨.cons _ (.same _) r⟩
  | swap f g l =>
    rw [classAlts_cons, classAlts_cons, classAlts_cons, classAlts_cons]
    by_cases h1 : f.typeName = own
    · rw [if_pos h1, if_pos h1]
      exact ⟨.same _⟩
    · rw [if_neg h1, if_neg h1]
      by_cases h2 : g.typeName = own
      · rw [if_pos h2, if_pos h2]
        exact ⟨.same _⟩
      · rw [if_neg h2, if_neg h2]
        exact ⟨.swap ..⟩
  | trans _ _ ih ih' =>
    obtain ⟨r⟩ := ih
    obtain ⟨q⟩ := ih'
    exact ⟨r.trans q⟩

/-- What is asked of the types and lengths of two fields that are alike. -/
structure AlikeIn (E E' : Types) (f g : FieldDesc) : Prop where
  elem : Nonempty ((E.elem f).Moved (E'.elem g))
  count : f.repeated = true → f.maxLength = 0 → E.repLength f = E'.repLength g

theorem classFields_pairs {E E' : Types} {l m : List FieldDesc} (h : Pairs AlikeField l m)
    (hE : ∀ f ∈ l, ∀ g ∈ m, AlikeField f g → f.typeName ≠ own → AlikeIn E E' f g) :
    Nonempty ((classFields E (l.map (factory own · none))).Moved (classFields E' (m.map (factory own · none)))) := by
  induction h with
  | nil => exact ⟨.same _⟩
  | @cons f g l m h _ ih =>
    obtain ⟨r⟩ := ih (fun f hf g hg => hE f (List.mem_cons_of_mem _ hf) g (List.mem_cons_of_mem _ hg))
    rw [classFields_cons, classFields_cons, ← h.typeName, ← h.repeated, ← h.number, ← h.optional, ← h.maxLength]
    by_cases h1 : f.typeName = own
    · rw [if_pos h1, if_pos h1]
      exact ⟨r⟩
    · rw [if_neg h1, if_neg h1]
      obtain ⟨⟨t⟩, hc⟩ := hE f (List.mem_cons_self ..) g (List.mem_cons_self ..) h h1
      by_cases h2 : f.repeated = true
      · rw [if_pos h2, if_pos h2]
        by_cases h4 : f.maxLength = 0
        · rw [if_pos h4, if_pos h4, hc h2 h4]
          exact ⟨.repeated _ _ t r⟩
        · rw [if_neg h4, if_neg h4]
          exact ⟨.repeated _ _ t r⟩
      · rw [if_neg h2, if_neg h2]
        by_cases h3 : f.proto3Optional = true
        · rw [if_pos h3, if_pos h3]
          exact ⟨.optional _ t r⟩
        · rw [if_neg h3, if_neg h3]
          exact ⟨.plain _ t r⟩

theorem classAlts_pairs {E E' : Types} {i j : Nat} {l m : List FieldDesc} (h : Pairs AlikeField l m)
    (hE : ∀ f ∈ l, ∀ g ∈ m, AlikeField f g → f.typeName ≠ own → AlikeIn E E' f g) :
    Nonempty ((classAlts E (l.map (factory own · (some i)))).Moved (classAlts E' (m.map (factory own · (some j))))) := by
  induction h with
  | nil => exact ⟨.same _⟩
  | @cons f g l m h _ ih =>
    obtain ⟨r⟩ := ih (fun f hf g hg => hE f (List.mem_cons_of_mem _ hf) g (List.mem_cons_of_mem _ hg))
    rw [classAlts_cons, classAlts_cons, ← h.typeName, ← h.number]
    by_cases h1 : f.typeName = own
    · rw [if_pos h1, if_pos h1]
      exact ⟨r⟩
    · rw [if_neg h1, if_neg h1]
      obtain ⟨⟨t⟩, _⟩ := hE f (List.mem_cons_self ..) g (List.mem_cons_self ..) h h1
      exact ⟨.cons _ t r⟩

theorem classFields_shuffled {E E' : Types} {l m : List FieldDesc} (h : Shuffled AlikeField l m)
    (hE : ∀ f ∈ l, ∀ g ∈ m, AlikeField f g → f.typeName ≠ own → AlikeIn E E' f g) :
    Nonempty ((classFields E (l.map (factory own · none))).Moved (classFields E' (m.map (factory own · none)))) := by
  obtain ⟨k, h1, h2⟩ := h
  obtain ⟨a⟩ := classFields_perm (own := own) (E := E) h1
  obtain ⟨b⟩ := classFields_pairs (own := own) (E := E) (E' := E') h2 fun f hf => hE f (h1.mem_iff.mpr hf)
  exact ⟨a.trans b⟩

theorem classAlts_shuffled {E E' : Types} {i j : Nat} {l m : List FieldDesc} (h : Shuffled AlikeField l m)
    (hE : ∀ f ∈ l, ∀ g ∈ m, AlikeField f g → f.typeName ≠ own → AlikeIn E E' f g) :
    Nonempty ((classAlts E (l.map (factory own · (some i)))).Moved (classAlts E' (m.map (factory own · (some j))))) := by
  obtain ⟨k, h1, h2⟩ := h
  obtain ⟨a⟩ := classAlts_perm (own := own) (E := E) (i := i) h1
  obtain ⟨b⟩ := classAlts_pairs (own := own) (E := E) (E' := E') (i := i) (j := j) h2 fun f hf => hE f (h1.mem_iff.mpr hf)
  exact ⟨a.trans b⟩

/-- The oneofs with the given numbers of the members `F`. -/
def oneofsOf (own : Str) (E : Types) (F : Nat → List FieldDesc) : List Nat → Oneofs
  | [] => .nil
  | k :: ks => .cons (classAlts E ((F k).map (factory own · (some k)))) (oneofsOf own E F ks)

theorem classOneofs_eq {E : Types} {F : Nat → List FieldDesc} : ∀ {ks : List Nat} {os : List GOneof},
    os.map (·.fields) = ks.map (fun k => (F k).map (factory own · (some k))) → classOneofs E os = oneofsOf own E F ks
  | [], [], _ => rfl
  | k :: ks, o :: os, e => by
    rw [List.map_cons, List.map_cons] at e
    injection e with e1 e2
    rw [classOneofs, oneofsOf, e1, classOneofs_eq e2]
  | [], _ :: _, e => nomatch e
  | _ :: _, [], e => nomatch e

theorem oneofsOf_perm {E : Types} {F : Nat → List FieldDesc} {l k : List Nat} (h : l.Perm k) :
    Nonempty ((oneofsOf own E F l).Moved (oneofsOf own E F k)) := by
  induction h with
  | nil => exact ⟨.same _⟩
  | cons f h ih =>
    obtain ⟨r⟩ := ih
    exact ⟨.cons (.same _) r⟩
  | swap f g l => exact ⟨.swap ..⟩
  | trans _ _ ih ih' =>
    obtain ⟨r⟩ := ih
    obtain ⟨q⟩ := ih'
    exact ⟨r.trans q⟩

theorem oneofsOf_pairs {E E' : Types} {F F' : Nat → List FieldDesc} : ∀ {ks ks' : List Nat},
    Pairs (Shuffled AlikeField) (ks.map F) (ks'.map F') →
    (∀ k ∈ ks, ∀ k' ∈ ks', ∀ f ∈ F k, ∀ g ∈ F' k', AlikeField f g → f.typeName ≠ own → AlikeIn E E' f g) →
    Nonempty ((oneofsOf own E F ks).Moved (oneofsOf own E' F' ks'))
  | [], [], _, _ => ⟨.same _⟩
  | k :: ks, k' :: ks', .cons h hr, hE => by
    obtain ⟨r⟩ := oneofsOf_pairs hr (fun k hk k' hk' => hE k (List.mem_cons_of_mem _ hk) k' (List.mem_cons_of_mem _ hk'))
    obtain ⟨a⟩ := classAlts_shuffled (own := own) (E := E) (E' := E') (i := k) (j := k') h
      (hE k (List.mem_cons_self ..) k' (List.mem_cons_self ..))
    exact ⟨.cons a r⟩
  | [], _ :: _, h, _ => nomatch h
  | _ :: _, [], h, _ => nomatch h

/-- A list is in the order in which its images are. -/
theorem perm_of_map {α β : Type} {F : α → β} {l : List β} : ∀ {ks : List α}, (ks.map F).Perm l → ∃ ks', ks.Perm ks' ∧ ks'.map F = l := by
  intro ks h
  generalize e : ks.map F = k at h
  induction h generalizing ks with
  | nil => exact ⟨[], by rw [List.map_eq_nil_iff.mp e], rfl⟩
  | cons b h ih =>
    cases ks with
    | nil => exact nomatch e
    | cons a ks =>
      rw [List.map_cons] at e
      injection e with e1 e2
      obtain ⟨ks', h1, h2⟩ := ih e2
      exact ⟨a :: ks', h1.cons a, by rw [List.map_cons, h2, e1]⟩
  | swap a b l =>
    match ks, e with
    | x :: y :: ks, e =>
      simp only [List.map_cons, List.cons.injEq] at e
      exact ⟨y :: x :: ks, .swap .., by simp [e]⟩
  | trans _ _ ih ih' =>
    obtain ⟨k1, h1, e1⟩ := ih e
    obtain ⟨k2, h2, e2⟩ := ih' e1
    exact ⟨k2, h1.trans h2, e2⟩

theorem oneofsOf_shuffled {E E' : Types} {F F' : Nat → List FieldDesc} {ks ks' : List Nat}
    (h : Shuffled (Shuffled AlikeField) (ks.map F) (ks'.map F'))
    (hE : ∀ k ∈ ks, ∀ k' ∈ ks', ∀ f ∈ F k, ∀ g ∈ F' k', AlikeField f g → f.typeName ≠ own → AlikeIn E E' f g) :
    Nonempty ((oneofsOf own E F ks).Moved (oneofsOf own E' F' ks')) := by
  obtain ⟨l, h1, h2⟩ := h
  obtain ⟨k, h3, rfl⟩ := perm_of_map h1
  obtain ⟨a⟩ := oneofsOf_perm (own := own) (E := E) (F := F) h3
  obtain ⟨b⟩ := oneofsOf_pairs (own := own) (E := E) (E' := E') h2 fun k hk => hE k (h3.mem_iff.mpr hk)
  exact ⟨a.trans b⟩

/-! ## The template parameters -/

theorem Pairs.left {α β : Type} {R : α → β → Prop} {l : List α} {m : List β} (h : Pairs R l m) : ∀ a ∈ l, ∃ b ∈ m, R a b := by
  induction h with
  | nil => nofun
  | @cons a b l m r _ ih =>
    intro c hc
    rcases List.mem_cons.mp hc with rfl | hc
    · exact ⟨b, List.mem_cons_self .., r⟩
    · obtain ⟨d, hd, e⟩ := ih c hc
      exact ⟨d, List.mem_cons_of_mem _ hd, e⟩

theorem Pairs.right {α β : Type} {R : α → β → Prop} {l : List α} {m : List β} (h : Pairs R l m) : ∀ b ∈ m, ∃ a ∈ l, R a b := by
  induction h with
  | nil => nofun
  | @cons a b l m r _ ih =>
    intro c hc
    rcases List.mem_cons.mp hc with rfl | hc
    · exact ⟨a, List.mem_cons_self .., r⟩
    · obtain ⟨d, hd, e⟩ := ih c hc
      exact ⟨d, List.mem_cons_of_mem _ hd, e⟩

theorem Shuffled.left {α β : Type} {R : α → β → Prop} {l : List α} {m : List β} (h : Shuffled R l m) :
    ∀ a ∈ l, ∃ b ∈ m, R a b := by
  obtain ⟨k, h1, h2⟩ := h
  exact fun a ha => h2.left a (h1.mem_iff.mp ha)

theorem Shuffled.right {α β : Type} {R : α → β → Prop} {l : List α} {m : List β} (h : Shuffled R l m) :
    ∀ b ∈ m, ∃ a ∈ l, R a b := by
  obtain ⟨k, h1, h2⟩ := h
  intro b hb
  obtain ⟨a, ha, e⟩ := h2.right b hb
  exact ⟨a, h1.mem_iff.mpr ha, e⟩

/-- Every field is outside of oneofs or in one of them. -/
theorem mem_loose_or_group {m : MsgDesc} (h : FieldsValid m.fields m.oneofs) {f : FieldDesc} :
    f ∈ m.fields ↔ f ∈ loose m ∨ ∃ l ∈ groups m, f ∈ l := by
  constructor
  · intro hf
    by_cases h1 : f ∈ loose m
    · exact Or.inl h1
    · right
      have h1 : ¬ (f.oneofIndex = none ∨ f.proto3Optional = true) := fun e => h1 (List.mem_filter.mpr ⟨hf, by simpa using e⟩)
      cases hi : f.oneofIndex with
      | none => exact absurd (Or.inl hi) h1
      | some i =>
        refine ⟨group m i, List.mem_filter.mpr ⟨List.mem_map.mpr ⟨i, List.mem_range.mpr (h.index f hf i hi), rfl⟩, ?_⟩,
          List.mem_filter.mpr ⟨hf, by simp [hi]⟩⟩
        rw [List.all_eq_true]
        intro g hg
        obtain ⟨g1, g2⟩ := List.mem_filter.mp hg
        have g2 : g.oneofIndex = some i := by simpa using g2
        cases hgo : g.proto3Optional with
        | false => rfl
        | true =>
          obtain ⟨j, j1, j2⟩ := h.optional g g1 hgo
          rw [g2] at j1
          injection j1 with j1
          subst j1
          rw [j2 f hf hi] at h1
          exact absurd (Or.inr hgo) h1
  · rintro (h | ⟨l, h1, h2⟩)
    · exact (List.mem_filter.mp h).1
    · obtain ⟨i, _, rfl⟩ := List.mem_map.mp (List.mem_filter.mp h1).1
      exact (List.mem_filter.mp h2).1

theorem ReorderedMessage.left {l m : MsgDesc} (h : ReorderedMessage l m) (hl : FieldsValid l.fields l.oneofs)
    (hm : FieldsValid m.fields m.oneofs) {f : FieldDesc} (hf : f ∈ l.fields) : ∃ g ∈ m.fields, AlikeField f g := by
  rcases (mem_loose_or_group hl).mp hf with hf | ⟨k, h1, h2⟩
  · obtain ⟨g, hg, e⟩ := h.fields.left f hf
    exact ⟨g, (mem_loose_or_group hm).mpr (Or.inl hg), e⟩
  · obtain ⟨k', hk', e⟩ := h.oneofs.left k h1
    obtain ⟨g, hg, e⟩ := e.left f h2
    exact ⟨g, (mem_loose_or_group hm).mpr (Or.inr ⟨k', hk', hg⟩), e⟩

theorem ReorderedMessage.right {l m : MsgDesc} (h : ReorderedMessage l m) (hl : FieldsValid l.fields l.oneofs)
    (hm : FieldsValid m.fields m.oneofs) {g : FieldDesc} (hg : g ∈ m.fields) : ∃ f ∈ l.fields, AlikeField f g := by
  rcases (mem_loose_or_group hm).mp hg with hg | ⟨k, h1, h2⟩
  · obtain ⟨f, hf, e⟩ := h.fields.right g hg
    exact ⟨f, (mem_loose_or_group hl).mpr (Or.inl hf), e⟩
  · obtain ⟨k', hk', e⟩ := h.oneofs.right k h1
    obtain ⟨f, hf, e⟩ := e.right g h2
    exact ⟨f, (mem_loose_or_group hl).mpr (Or.inr ⟨k', hk', hf⟩), e⟩

/-- The lengths needed have the same names. -/
theorem needs_alike {D D' : Str → MsgDesc → Prop}
    (h : ∀ own f, (∃ m, D own m ∧ f ∈ m.fields) → ∃ g m, D' own m ∧ g ∈ m.fields ∧ AlikeField f g) :
    ∀ {own : Str} {p : Path}, Needs D own p → ∃ q, Needs D' own q ∧ q.render own = p.render own
  | own, .length f, ⟨m, h1, h2, h3, h4, h5⟩ => by
    obtain ⟨g, m', h1', h2', e⟩ := h own f ⟨m, h1, h2⟩
    exact ⟨.length g, ⟨m', h1', h2', e.typeName ▸ h3, e.type ▸ h4, e.maxLength ▸ h5⟩, by rw [Path.render, Path.render, e.name]⟩
  | own, .count f, ⟨m, h1, h2, h3, h4, h5⟩ => by
    obtain ⟨g, m', h1', h2', e⟩ := h own f ⟨m, h1, h2⟩
    exact ⟨.count g, ⟨m', h1', h2', e.typeName ▸ h3, e.repeated ▸ h4, e.maxLength ▸ h5⟩, by rw [Path.render, Path.render, e.name]⟩
  | own, .inside f p, ⟨m, h1, h2, h3, h4, h5⟩ => by
    obtain ⟨g, m', h1', h2', e⟩ := h own f ⟨m, h1, h2⟩
    obtain ⟨q, hq, eq⟩ := needs_alike h h5
    exact ⟨.inside g q, ⟨m', h1', h2', e.typeName ▸ h3, e.type ▸ h4, e.typeName ▸ hq⟩,
      by rw [Path.render, Path.render, ← e.name, ← e.typeName, eq]⟩

section
variable {files files' : List (Str × List MsgDesc)} {P P' : Str → List Str} (hR : ReorderedFiles files files')
  (ho : Ordered files) (ho' : Ordered files') (hc : Counted files) (hc' : Counted files')
  (hP : templates files = .ok P) (hP' : templates files' = .ok P')

include hR ho ho' hc hc' hP hP'

/-- The template parameters are the same, up to the order. -/
theorem params_alike {own : Str} {l : MsgDesc} (h : Defined files own l) (s : Str) : s ∈ P own ↔ s ∈ P' own := by
  obtain ⟨m, h'⟩ := (hR.defined own).mp ⟨l, h⟩
  rw [inst_mem ho hc hP h, inst_mem ho' hc' hP' h']
  constructor
  · rintro ⟨p, hp, rfl⟩
    refine needs_alike ?_ hp
    rintro own f ⟨l, hl, hf⟩
    obtain ⟨m, hm⟩ := (hR.defined own).mp ⟨l, hl⟩
    obtain ⟨g, hg, e⟩ := (hR.message own l m hl hm).left (ho.fields _ _ hl) (ho'.fields _ _ hm) hf
    exact ⟨g, m, hm, hg, e⟩
  · rintro ⟨p, hp, rfl⟩
    refine needs_alike ?_ hp
    rintro own g ⟨m, hm, hg⟩
    obtain ⟨l, hl⟩ := (hR.defined own).mpr ⟨m, hm⟩
    obtain ⟨f, hf, e⟩ := (hR.message own l m hl hm).right (ho.fields _ _ hl) (ho'.fields _ _ hm) hg
    exact ⟨f, l, hl, hf, ⟨e.number.symm, e.repeated.symm, e.type.symm, e.typeName.symm⟩, e.name.symm, e.optional.symm,
      e.maxLength.symm⟩

end

/-- What the class is made from. -/
theorem mkMessage_split {q : MsgDesc} {g : GMessage} (hq : FieldsValid q.fields q.oneofs)
    (e : mkMessage own q.fields q.oneofs = .ok g) :
    g.fields = (loose q).map (factory own · none) ∧ ∃ ks : List Nat,
      g.oneofs.map (·.fields) = ks.map (fun k => (group q k).map (factory own · (some k))) ∧ ks.map (group q) = groups q := by
  unfold mkMessage at e
  cases hr : mkOneofs own q.fields q.oneofs 0 with
  | error x => rw [hr] at e; exact nomatch e
  | ok os =>
    rw [hr] at e
    injection e with e
    subst e
    obtain ⟨ks, k1, k2⟩ := mkOneofs_groups hq q.oneofs 0 (Nat.zero_add _) hr
    refine ⟨rfl, ks, k1, ?_⟩
    rw [k2, groups, List.range_eq_range']

theorem mem_oneofs {q : MsgDesc} {g : GMessage} {ks : List Nat}
    (e : g.oneofs.map (·.fields) = ks.map (fun k => (group q k).map (factory own · (some k)))) (k : Nat) (hk : k ∈ ks)
    (f : FieldDesc) (hf : f ∈ group q k) : factory own f (some k) ∈ g.fields ++ g.oneofs.flatMap (·.fields) := by
  refine List.mem_append_right _ ?_
  have hm : (group q k).map (factory own · (some k)) ∈ g.oneofs.map (·.fields) := by
    rw [e]
    exact List.mem_map.mpr ⟨k, hk, rfl⟩
  obtain ⟨o, ho, eo⟩ := List.mem_map.mp hm
  exact List.mem_flatMap.mpr ⟨o, ho, by rw [eo]; exact List.mem_map.mpr ⟨f, hf, rfl⟩⟩

theorem mapM_inv {α β : Type} {F : α → Option β} : ∀ {l : List α} {r : List β}, l.mapM F = some r →
    r.length = l.length ∧ ∀ (i : Nat) p, l[i]? = some p → r[i]? = F p
  | [], r, h => by
    rw [List.mapM_nil] at h
    injection h with h
    subst h
    exact ⟨rfl, fun i p e => by simp at e⟩
  | a :: l, r, h => by
    rw [List.mapM_cons] at h
    obtain ⟨b, h1, h⟩ := Option.bind_eq_some_iff.mp h
    obtain ⟨r', h2, h⟩ := Option.bind_eq_some_iff.mp h
    injection h with h
    subst h
    obtain ⟨k1, k2⟩ := mapM_inv h2
    refine ⟨by simp [k1], fun i p e => ?_⟩
    cases i with
    | zero =>
      simp only [List.getElem?_cons_zero, Option.some.injEq] at e ⊢
      rw [← e, h1]
    | succ i =>
      simp only [List.getElem?_cons_succ] at e ⊢
      exact k2 i p e

theorem argument_mapM {names : List Str} {F : Str → Option Nat} {r : List Nat} (h : names.mapM F = some r) (s : Str) :
    argument names r s = if s ∈ names then F s else none := by
  obtain ⟨h1, h2⟩ := mapM_inv h
  unfold argument
  by_cases hs : s ∈ names
  · rw [if_pos hs]
    exact h2 _ s (by rw [List.getElem?_eq_getElem (List.idxOf_lt_length_iff.mpr hs), List.getElem_idxOf])
  · rw [if_neg hs, List.idxOf_eq_length hs, ← h1, List.getElem?_eq_none (Nat.le_refl _)]

theorem memberOK_inner {P : Str → List Str} {inner : Str → List Nat → Option ElemTy} {own : Str} {args : List Nat}
    {f : FieldDesc} {o : Option Nat} (h : memberOK P inner own args (factory own f o) = true) (h1 : f.typeName ≠ own)
    (h2 : f.type = .message) :
    ∃ args', (P f.typeName).mapM (fun p => argument (P own) args (innerParam own f p)) = some args' ∧
      inner f.typeName args' = some ((instanceTypes P inner own args).message f) := by
  have hs : (fieldInstance P inner own args f).isSome = true := by
    unfold memberOK at h
    simp only [factory, if_neg h1] at h
    by_cases h3 : f.repeated = true
    · simp only [if_pos h3, h2, Bool.and_eq_true] at h
      exact h.2
    · simp only [if_neg h3, h2, Bool.and_eq_true] at h
      exact h.2
  obtain ⟨T, hT⟩ := Option.isSome_iff_exists.mp hs
  show ∃ args', _ ∧ inner f.typeName args' = some ((fieldInstance P inner own args f).getD _)
  rw [hT]
  unfold fieldInstance at hT
  obtain ⟨args', h3, h⟩ := Option.bind_eq_some_iff.mp hT
  exact ⟨args', h3, h⟩

section
variable {files files' : List (Str × List MsgDesc)} {P P' : Str → List Str} (hR : ReorderedFiles files files')
  (ho : Ordered files) (ho' : Ordered files') (hc : Counted files) (hc' : Counted files')
  (hP : templates files = .ok P) (hP' : templates files' = .ok P')

include hR ho ho' hc hc' hP hP'

/-- The class from files in another order, with the same lengths, is the class with the members in another order. -/
theorem instantiate_moved : ∀ (n n' : Nat) {own : Str} {args args' : List Nat} {S T : ElemTy},
    SameArguments (P own) (P' own) args args' → instantiate files P n own args = some S →
    instantiate files' P' n' own args' = some T → Nonempty (S.Moved T)
  | 0, _, _, _, _, _, _, _, h, _ => nomatch h
  | _ + 1, 0, _, _, _, _, _, _, _, h => nomatch h
  | n + 1, n' + 1, own, args, args', S, T, hs, h, h' => by
    obtain ⟨l, g, f1, f2, f3, rfl⟩ := instantiate_succ h
    obtain ⟨m, g', f1', f2', f3', rfl⟩ := instantiate_succ h'
    have d := findMsg_some f1
    have d' := findMsg_some f1'
    have hnm := hR.message own l m d d'
    have hs : ∀ s, argument (P own) args s = argument (P' own) args' s := hs
    have key : ∀ f o g o', memberOK P (instantiate files P n) own args (factory own f o) = true →
        memberOK P' (instantiate files' P' n') own args' (factory own g o') = true → AlikeField f g → f.typeName ≠ own →
        AlikeIn (instanceTypes P (instantiate files P n) own args) (instanceTypes P' (instantiate files' P' n') own args') f g := by
      intro f o g o' k1 k2 ha hne
      have hlen : (instanceTypes P (instantiate files P n) own args).length f =
          (instanceTypes P' (instantiate files' P' n') own args').length g := by
        show (argument (P own) args (lengthParam own f)).getD 1 = (argument (P' own) args' (lengthParam own g)).getD 1
        rw [hs, lengthParam, lengthParam, ha.name]
      constructor
      · unfold Types.elem
        rw [← ha.type, ← ha.maxLength, hlen]
        cases ht : f.type with
        | scalar s => exact ⟨.same _⟩
        | enum => exact ⟨.same _⟩
        | string => exact ⟨.same _⟩
        | bytes => exact ⟨.same _⟩
        | message =>
          obtain ⟨a, h1, h2⟩ := memberOK_inner k1 hne ht
          obtain ⟨a', h1', h2'⟩ := memberOK_inner k2 (ha.typeName ▸ hne) (ha.type ▸ ht)
          rw [← ha.typeName] at h1' h2'
          refine instantiate_moved n n' ?_ h2 h2'
          intro s
          have e := argument_mapM h1 s
          have e' := argument_mapM h1' s
          have ht : ∃ q, Defined files f.typeName q := by
            cases n with
            | zero => exact nomatch h2
            | succ n =>
              obtain ⟨q, _, hq, _⟩ := instantiate_succ h2
              exact ⟨q, findMsg_some hq⟩
          obtain ⟨q, hq⟩ := ht
          show argument _ a s = argument _ a' s
          rw [e, e', innerParam, innerParam, ha.name, hs]
          by_cases hm : s ∈ P f.typeName
          · rw [if_pos hm, if_pos ((params_alike hR ho ho' hc hc' hP hP' hq s).mp hm)]
          · rw [if_neg hm, if_neg fun h => hm ((params_alike hR ho ho' hc hc' hP hP' hq s).mpr h)]
      · intro _ _
        show (argument (P own) args (countParam own f)).getD 1 = (argument (P' own) args' (countParam own g)).getD 1
        rw [hs, countParam, countParam, ha.name]
    obtain ⟨e1, ks, e2, e3⟩ := mkMessage_split (ho.fields own l d) f2
    obtain ⟨e1', ks', e2', e3'⟩ := mkMessage_split (ho'.fields own m d') f2'
    have A : Nonempty ((classFields (instanceTypes P (instantiate files P n) own args) g.fields).Moved
        (classFields (instanceTypes P' (instantiate files' P' n') own args') g'.fields)) := by
      rw [e1, e1']
      exact classFields_shuffled hnm.fields fun f hf g hg hs hne =>
        key f none g none (f3 _ (List.mem_append_left _ (e1 ▸ List.mem_map.mpr ⟨f, hf, rfl⟩)))
          (f3' _ (List.mem_append_left _ (e1' ▸ List.mem_map.mpr ⟨g, hg, rfl⟩))) hs hne
    have B : Nonempty ((classOneofs (instanceTypes P (instantiate files P n) own args) g.oneofs).Moved
        (classOneofs (instanceTypes P' (instantiate files' P' n') own args') g'.oneofs)) := by
      rw [classOneofs_eq e2, classOneofs_eq e2']
      exact oneofsOf_shuffled (by rw [e3, e3']; exact hnm.oneofs) fun k hk k' hk' f hf g hg hs hne =>
        key f (some k) g (some k') (f3 _ (mem_oneofs e2 k hk f hf)) (f3' _ (mem_oneofs e2' k' hk' g hg)) hs hne
    obtain ⟨a⟩ := A
    obtain ⟨b⟩ := B
    exact ⟨.msg a b⟩

end
end Gen
end EP
