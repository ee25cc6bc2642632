import Verif.Model.GenClass
import Verif.Proof.Accessors
import Verif.Proof.GenMessage

/-!
# The combinators of Model/Message.lean, field by field

`entries` pairs the fields of a message with the members of the class; what the combinators do is to do
something for each entry in turn.
-/

namespace EP.Gen

set_option linter.unusedVariables false

variable {E : Types}

/-- The fields outside oneofs and their data members; a field that is left out has none. -/
def entries (E : Types) : (gs : List GField) → List (GField × Option (ASlot (classFields E gs)))
  | [] => []
  | ⟨d, .recursive, o⟩ :: gs => (⟨d, .recursive, o⟩, none) :: entries E gs
  | ⟨d, .repeated, o⟩ :: gs =>
    (⟨d, .repeated, o⟩, some ⟨.repeated _ _ _ _⟩) ::
      (entries E gs).map fun e => (e.1, e.2.map fun s => ⟨.afterRepeated _ _ _ s.slot⟩)
  | ⟨⟨n, k, r, t, tn, i, true, l⟩, .single, o⟩ :: gs =>
    (⟨⟨n, k, r, t, tn, i, true, l⟩, .single, o⟩, some ⟨.optional _ _ _⟩) ::
      (entries E gs).map fun e => (e.1, e.2.map fun s => ⟨.afterOptional _ _ s.slot⟩)
  | ⟨⟨n, k, r, t, tn, i, false, l⟩, .single, o⟩ :: gs =>
    (⟨⟨n, k, r, t, tn, i, false, l⟩, .single, o⟩, some ⟨.plain _ _ _⟩) ::
      (entries E gs).map fun e => (e.1, e.2.map fun s => ⟨.afterPlain _ _ s.slot⟩)

theorem entries_fst : ∀ gs : List GField, (entries E gs).map (·.1) = gs
  | [] => rfl
  | ⟨d, .recursive, o⟩ :: gs => congrArg (_ :: ·) (entries_fst gs)
  | ⟨d, .repeated, o⟩ :: gs => by
    unfold entries
    rw [List.map_cons, List.map_map]
    exact congrArg (_ :: ·) (entries_fst gs)
  | ⟨⟨n, k, r, t, tn, i, true, l⟩, .single, o⟩ :: gs => by
    unfold entries
    rw [List.map_cons, List.map_map]
    exact congrArg (_ :: ·) (entries_fst gs)
  | ⟨⟨n, k, r, t, tn, i, false, l⟩, .single, o⟩ :: gs => by
    unfold entries
    rw [List.map_cons, List.map_map]
    exact congrArg (_ :: ·) (entries_fst gs)

/-- The kind of member a field gets. -/
def GField.card (E : Types) (g : GField) : Card :=
  match g.shape with
  | .repeated => .rep (if g.desc.maxLength = 0 then E.repLength g.desc else g.desc.maxLength)
  | _ => if g.desc.proto3Optional then .opt else .single

/-- What an entry is. -/
def EntryOk (E : Types) {fs : Fields} (e : GField × Option (ASlot fs)) : Prop :=
  match e.2 with
  | none => e.1.shape = .recursive
  | some s => e.1.shape ≠ .recursive ∧ s.num = e.1.desc.number ∧ s.c = e.1.card E ∧ s.t = E.elem e.1.desc

theorem EntryOk.map {fs fs' : Fields} {e : GField × Option (ASlot fs)} (h : EntryOk E e) (f : ASlot fs → ASlot fs')
    (hf : ∀ s, (f s).num = s.num ∧ (f s).c = s.c ∧ (f s).t = s.t) : EntryOk E (e.1, e.2.map f) := by
  obtain ⟨g, s⟩ := e
  cases s with
  | none => exact h
  | some s =>
    obtain ⟨h1, h2, h3, h4⟩ := h
    obtain ⟨f1, f2, f3⟩ := hf s
    exact ⟨h1, f1.trans h2, f2.trans h3, f3.trans h4⟩

theorem entries_ok : ∀ (gs : List GField), ∀ e ∈ entries E gs, EntryOk E e
  | [], e, h => nomatch h
  | ⟨d, .recursive, o⟩ :: gs, e, h => by
    unfold entries at h
    rcases List.mem_cons.mp h with rfl | h
    · rfl
    · exact entries_ok gs e h
  | ⟨d, .repeated, o⟩ :: gs, e, h => by
    unfold entries at h
    rcases List.mem_cons.mp h with rfl | h
    · exact ⟨by simp, rfl, rfl, rfl⟩
    · obtain ⟨e', he', rfl⟩ := List.mem_map.mp h
      exact (entries_ok gs e' he').map _ fun s => ⟨rfl, rfl, rfl⟩
  | ⟨⟨n, k, r, t, tn, i, true, l⟩, .single, o⟩ :: gs, e, h => by
    unfold entries at h
    rcases List.mem_cons.mp h with rfl | h
    · exact ⟨by simp, rfl, rfl, rfl⟩
    · obtain ⟨e', he', rfl⟩ := List.mem_map.mp h
      exact (entries_ok gs e' he').map _ fun s => ⟨rfl, rfl, rfl⟩
  | ⟨⟨n, k, r, t, tn, i, false, l⟩, .single, o⟩ :: gs, e, h => by
    unfold entries at h
    rcases List.mem_cons.mp h with rfl | h
    · exact ⟨by simp, rfl, rfl, rfl⟩
    · obtain ⟨e', he', rfl⟩ := List.mem_map.mp h
      exact (entries_ok gs e' he').map _ fun s => ⟨rfl, rfl, rfl⟩

/-- The names of the data members. -/
def varNames (gs : List GField) : List Str :=
  (gs.filter fun g => g.shape != .recursive).map fun g => under g.desc.name

theorem mem_varNames {gs : List GField} {g : GField} (h : g ∈ gs) (hs : g.shape ≠ .recursive) :
    under g.desc.name ∈ varNames gs :=
  List.mem_map.mpr ⟨g, List.mem_filter.mpr ⟨h, by simpa using hs⟩, rfl⟩

theorem entries_some_mem {gs : List GField} {e : GField × Option (ASlot (classFields E gs))} (h : e ∈ entries E gs) :
    e.1 ∈ gs := by
  have := List.mem_map_of_mem (f := (·.1)) h
  rwa [entries_fst] at this

theorem mem_entries {gs : List GField} {g : GField} (h : g ∈ gs) : ∃ s, (g, s) ∈ entries E gs := by
  rw [← entries_fst (E := E) gs] at h
  obtain ⟨e, he, rfl⟩ := List.mem_map.mp h
  exact ⟨e.2, he⟩

/-- Looking a name up finds the member of the field. -/
theorem findVar_entries : ∀ (gs : List GField), (varNames gs).Nodup → ∀ (g : GField) (s : ASlot (classFields E gs)),
    (g, some s) ∈ entries E gs → findVar (classFields E gs) (varNames gs) (under g.desc.name) = some s
  | [], _, _, _, h => nomatch h
  | ⟨d, .recursive, o⟩ :: gs, hn, g, s, h => by
    unfold entries at h
    rcases List.mem_cons.mp h with h | h
    · exact nomatch h
    · exact findVar_entries gs hn g s h
  | ⟨d, .repeated, o⟩ :: gs, hn, g, s, h => by
    have hn' : (under d.name :: varNames gs).Nodup := hn
    rw [List.nodup_cons] at hn'
    unfold entries at h
    rcases List.mem_cons.mp h with h | h
    · injection h with h1 h2
      injection h2 with h2
      subst h1 h2
      exact if_pos rfl
    · obtain ⟨⟨g', s'⟩, he', h'⟩ := List.mem_map.mp h
      injection h' with h1 h2
      dsimp only at h1 h2
      subst h1
      cases s' with
      | none => exact nomatch h2
      | some s' =>
        injection h2 with h2
        subst h2
        have hne : under g'.desc.name ≠ under d.name := fun e =>
          hn'.1 (e ▸ mem_varNames (entries_some_mem he') (entries_ok gs _ he').1)
        have ih := findVar_entries gs hn'.2 g' s' he'
        refine (if_neg hne).trans ?_
        exact congrArg (Option.map _) ih
  | ⟨⟨n, k, r, t, tn, i, true, l⟩, .single, o⟩ :: gs, hn, g, s, h => by
    have hn' : (under n :: varNames gs).Nodup := hn
    rw [List.nodup_cons] at hn'
    unfold entries at h
    rcases List.mem_cons.mp h with h | h
    · injection h with h1 h2
      injection h2 with h2
      subst h1 h2
      exact if_pos rfl
    · obtain ⟨⟨g', s'⟩, he', h'⟩ := List.mem_map.mp h
      injection h' with h1 h2
      dsimp only at h1 h2
      subst h1
      cases s' with
      | none => exact nomatch h2
      | some s' =>
        injection h2 with h2
        subst h2
        have hne : under g'.desc.name ≠ under n := fun e =>
          hn'.1 (e ▸ mem_varNames (entries_some_mem he') (entries_ok gs _ he').1)
        have ih := findVar_entries gs hn'.2 g' s' he'
        refine (if_neg hne).trans ?_
        exact congrArg (Option.map _) ih
  | ⟨⟨n, k, r, t, tn, i, false, l⟩, .single, o⟩ :: gs, hn, g, s, h => by
    have hn' : (under n :: varNames gs).Nodup := hn
    rw [List.nodup_cons] at hn'
    unfold entries at h
    rcases List.mem_cons.mp h with h | h
    · injection h with h1 h2
      injection h2 with h2
      subst h1 h2
      exact if_pos rfl
    · obtain ⟨⟨g', s'⟩, he', h'⟩ := List.mem_map.mp h
      injection h' with h1 h2
      dsimp only at h1 h2
      subst h1
      cases s' with
      | none => exact nomatch h2
      | some s' =>
        injection h2 with h2
        subst h2
        have hne : under g'.desc.name ≠ under n := fun e =>
          hn'.1 (e ▸ mem_varNames (entries_some_mem he') (entries_ok gs _ he').1)
        have ih := findVar_entries gs hn'.2 g' s' he'
        refine (if_neg hne).trans ?_
        exact congrArg (Option.map _) ih

/-- The names of the fields whose presence is tracked. -/
def presenceNames (gs : List GField) : List Str :=
  (gs.filter (·.desc.proto3Optional)).map fun g => upper g.desc.name

/-- The flag of an optional field is at the position of its name. -/
theorem presence_entries : ∀ (gs : List GField), (∀ g ∈ gs, g.desc.proto3Optional = true → g.shape = .single) →
    (presenceNames gs).Nodup → ∀ (g : GField) (s : ASlot (classFields E gs)),
    (g, some s) ∈ entries E gs → g.desc.proto3Optional = true → ∀ idx,
    ∃ i, (presenceNames gs).idxOf? (upper g.desc.name) = some i ∧ s.slot.bit idx = idx + i
  | [], _, _, _, _, h, _, _ => nomatch h
  | ⟨d, .recursive, o⟩ :: gs, hs, hn, g, s, h, ho, idx => by
    have hd : d.proto3Optional = false := by
      cases e : d.proto3Optional with
      | false => rfl
      | true => exact nomatch hs _ (List.mem_cons_self ..) e
    have en : presenceNames (⟨d, .recursive, o⟩ :: gs) = presenceNames gs := by
      unfold presenceNames
      rw [List.filter_cons_of_neg (by simp [hd])]
    rw [en] at hn ⊢
    unfold entries at h
    rcases List.mem_cons.mp h with h | h
    · exact nomatch h
    · exact presence_entries gs (fun g hg => hs g (List.mem_cons_of_mem _ hg)) hn g s h ho idx
  | ⟨d, .repeated, o⟩ :: gs, hs, hn, g, s, h, ho, idx => by
    have hd : d.proto3Optional = false := by
      cases e : d.proto3Optional with
      | false => rfl
      | true => exact nomatch hs _ (List.mem_cons_self ..) e
    have en : presenceNames (⟨d, .repeated, o⟩ :: gs) = presenceNames gs := by
      unfold presenceNames
      rw [List.filter_cons_of_neg (by simp [hd])]
    rw [en] at hn ⊢
    unfold entries at h
    rcases List.mem_cons.mp h with h | h
    · injection h with h1 h2
      subst h1
      exact absurd ho (by simp [hd])
    · obtain ⟨⟨g', s'⟩, he', h'⟩ := List.mem_map.mp h
      injection h' with h1 h2
      dsimp only at h1 h2
      subst h1
      cases s' with
      | none => exact nomatch h2
      | some s' =>
        injection h2 with h2
        subst h2
        exact presence_entries gs (fun g hg => hs g (List.mem_cons_of_mem _ hg)) hn g' s' he' ho idx
  | ⟨⟨n, k, r, t, tn, i, true, l⟩, .single, o⟩ :: gs, hs, hn, g, s, h, ho, idx => by
    have hn' : (upper n :: presenceNames gs).Nodup := hn
    rw [List.nodup_cons] at hn'
    show ∃ i, (upper n :: presenceNames gs).idxOf? (upper g.desc.name) = some i ∧ _
    unfold entries at h
    rcases List.mem_cons.mp h with h | h
    · injection h with h1 h2
      injection h2 with h2
      subst h1 h2
      exact ⟨0, by simp [List.idxOf?_cons], rfl⟩
    · obtain ⟨⟨g', s'⟩, he', h'⟩ := List.mem_map.mp h
      injection h' with h1 h2
      dsimp only at h1 h2
      subst h1
      cases s' with
      | none => exact nomatch h2
      | some s' =>
        injection h2 with h2
        subst h2
        obtain ⟨j, e1, e2⟩ := presence_entries gs (fun g hg => hs g (List.mem_cons_of_mem _ hg)) hn'.2 g' s' he' ho
          (idx + 1)
        have hne : upper n ≠ upper g'.desc.name := fun e => hn'.1 (e ▸ List.mem_map.mpr
          ⟨g', List.mem_filter.mpr ⟨entries_some_mem he', ho⟩, rfl⟩)
        refine ⟨j + 1, ?_, ?_⟩
        · rw [List.idxOf?_cons, if_neg (by simpa using hne), e1]
          rfl
        · show s'.slot.bit (idx + 1) = _
          omega
  | ⟨⟨n, k, r, t, tn, i, false, l⟩, .single, o⟩ :: gs, hs, hn, g, s, h, ho, idx => by
    unfold entries at h
    rcases List.mem_cons.mp h with h | h
    · injection h with h1 h2
      subst h1
      exact nomatch ho
    · obtain ⟨⟨g', s'⟩, he', h'⟩ := List.mem_map.mp h
      injection h' with h1 h2
      dsimp only at h1 h2
      subst h1
      cases s' with
      | none => exact nomatch h2
      | some s' =>
        injection h2 with h2
        subst h2
        exact presence_entries gs (fun g hg => hs g (List.mem_cons_of_mem _ hg)) hn g' s' he' ho idx

theorem nOptional_eq : ∀ (gs : List GField), (∀ g ∈ gs, g.desc.proto3Optional = true → g.shape = .single) →
    (classFields E gs).nOptional = (presenceNames gs).length
  | [], _ => rfl
  | ⟨d, .recursive, o⟩ :: gs, hs => by
    have hd : d.proto3Optional = false := by
      cases e : d.proto3Optional with
      | false => rfl
      | true => exact nomatch hs _ (List.mem_cons_self ..) e
    have en : presenceNames (⟨d, .recursive, o⟩ :: gs) = presenceNames gs := by
      unfold presenceNames
      rw [List.filter_cons_of_neg (by simp [hd])]
    rw [en]
    exact nOptional_eq gs fun g hg => hs g (List.mem_cons_of_mem _ hg)
  | ⟨d, .repeated, o⟩ :: gs, hs => by
    have hd : d.proto3Optional = false := by
      cases e : d.proto3Optional with
      | false => rfl
      | true => exact nomatch hs _ (List.mem_cons_self ..) e
    have en : presenceNames (⟨d, .repeated, o⟩ :: gs) = presenceNames gs := by
      unfold presenceNames
      rw [List.filter_cons_of_neg (by simp [hd])]
    rw [en]
    exact nOptional_eq gs fun g hg => hs g (List.mem_cons_of_mem _ hg)
  | ⟨⟨n, k, r, t, tn, i, true, l⟩, .single, o⟩ :: gs, hs =>
    congrArg (· + 1) (nOptional_eq gs fun g hg => hs g (List.mem_cons_of_mem _ hg))
  | ⟨⟨n, k, r, t, tn, i, false, l⟩, .single, o⟩ :: gs, hs =>
    nOptional_eq gs fun g hg => hs g (List.mem_cons_of_mem _ hg)

/-! ## Folds -/

theorem foldlM_lift {α σ τ : Type} (f : σ → α → Res σ) (g : τ → α → Res τ) (emb : σ → τ)
    (l : List α) (h : ∀ a ∈ l, ∀ s, g (emb s) a = f s a >>= fun s => pure (emb s)) (s : σ) :
    l.foldlM g (emb s) = l.foldlM f s >>= fun s => pure (emb s) := by
  induction l generalizing s with
  | nil => rfl
  | cons a l ih =>
    rw [List.foldlM_cons, List.foldlM_cons, h a (List.mem_cons_self ..) s]
    cases f s a with
    | ok s' => exact ih (fun a ha => h a (List.mem_cons_of_mem _ ha)) s'
    | ub => rfl
    | diverge => rfl

/-- A member whose presence is tracked. -/
def _root_.EP.Card.isOpt : Card → Bool
  | .opt => true
  | _ => false

section
variable {fs : Fields} {num : Nat} {c : Card} {t : ElemTy} {ω β : Type}

/-- The assignment of one field in `operator=`. -/
def _root_.EP.Slot.assignFrom (s : Slot fs num c t) (idx : Nat) (r l : Presence × (fs.cls idx).State) :
    Res (Presence × (fs.cls idx).State) :=
  if c.isOpt then do
    let has ← Presence.has r.1 (s.bit idx)
    if has then do
      let p ← Presence.setBit l.1 (s.bit idx)
      let x ← (c.cls t).set (s.state idx l.2) (s.state idx r.2)
      pure (p, s.setState idx l.2 x)
    else do
      let p ← Presence.clearBit l.1 (s.bit idx)
      let x ← (c.cls t).clear (s.state idx l.2)
      pure (p, s.setState idx l.2 x)
  else do
    let x ← (c.cls t).set (s.state idx l.2) (s.state idx r.2)
    pure (l.1, s.setState idx l.2 x)

/-- The statement of one field in `serialize`. -/
def _root_.EP.Slot.serAt [WriteBuffer ω] (s : Slot fs num c t) (idx : Nat) (p : Presence) (x : (fs.cls idx).State)
    (r : Error × ω) : Res (Error × ω) :=
  if c.isOpt then do
    let has ← Presence.has p (s.bit idx)
    if has = true ∧ r.1 = .noErrors then (c.cls t).serializeWithId num (s.state idx x) r.2 true else pure r
  else
    if (c.cls t).plainGuard (s.state idx x) = true ∧ r.1 = .noErrors then
      (c.cls t).serializeWithId num (s.state idx x) r.2 false
    else pure r

/-- The statements of one field in `deserialize`. -/
def _root_.EP.Slot.desAt [ReadBuffer β] (s : Slot fs num c t) (idx fuel : Nat) (wt : WireType) (b : β) (p : Presence)
    (x : (fs.cls idx).State) : Res (Error × β × Presence × (fs.cls idx).State) := do
  let p ← c.mark (s.bit idx) p
  let (e, b, z) ← (c.cls t).deserializeCheckType fuel b wt (s.state idx x)
  pure (e, b, p, s.setState idx x z)

end

def entryClear {fs : Fields} (idx : Nat) (l : Presence × (fs.cls idx).State) :
    Option (ASlot fs) → Res (Presence × (fs.cls idx).State)
  | none => pure l
  | some a => a.slot.clearAccess idx l

def entryAssign {fs : Fields} (idx : Nat) (r l : Presence × (fs.cls idx).State) :
    Option (ASlot fs) → Res (Presence × (fs.cls idx).State)
  | none => pure l
  | some a => a.slot.assignFrom idx r l

def entrySer {ω : Type} [WriteBuffer ω] {fs : Fields} (idx : Nat) (p : Presence) (x : (fs.cls idx).State) (r : Error × ω) :
    Option (ASlot fs) → Res (Error × ω)
  | none => pure r
  | some a => a.slot.serAt idx p x r

/-- The case for the number `id`. -/
def entryDes {β : Type} [ReadBuffer β] {fs : Fields} (idx fuel id : Nat) (wt : WireType) (b : β) (p : Presence)
    (x : (fs.cls idx).State) : List (GField × Option (ASlot fs)) →
    Option (Res (Error × β × Presence × (fs.cls idx).State))
  | [] => none
  | (g, s) :: l =>
    if id = g.desc.number then some (match s with
      | none => pure (.noErrors, b, p, x)
      | some a => a.slot.desAt idx fuel wt b p x)
    else entryDes idx fuel id wt b p x l

/-- The data members in order. -/
def slots : (fs : Fields) → List (ASlot fs)
  | .nil => []
  | .plain num t rest => ⟨.plain num t rest⟩ :: (slots rest).map fun s => ⟨.afterPlain num t s.slot⟩
  | .optional num t rest => ⟨.optional num t rest⟩ :: (slots rest).map fun s => ⟨.afterOptional num t s.slot⟩
  | .repeated num cap t rest =>
    ⟨.repeated num cap t rest⟩ :: (slots rest).map fun s => ⟨.afterRepeated num cap t s.slot⟩

theorem filterMap_map_snd {α β γ : Type} (f : β → γ) (l : List (α × Option β)) :
    (l.map fun e => (e.1, e.2.map f)).filterMap (·.2) = (l.filterMap (·.2)).map f := by
  induction l with
  | nil => rfl
  | cons e l ih =>
    obtain ⟨a, b⟩ := e
    cases b with
    | none => exact ih
    | some b => exact congrArg (f b :: ·) ih

theorem entries_slots : ∀ gs : List GField, (entries E gs).filterMap (·.2) = slots (classFields E gs)
  | [] => rfl
  | ⟨d, .recursive, o⟩ :: gs => entries_slots gs
  | ⟨d, .repeated, o⟩ :: gs =>
    congrArg (_ :: ·) ((filterMap_map_snd _ _).trans (congrArg (List.map _) (entries_slots gs)))
  | ⟨⟨n, k, r, t, tn, i, true, l⟩, .single, o⟩ :: gs =>
    congrArg (_ :: ·) ((filterMap_map_snd _ _).trans (congrArg (List.map _) (entries_slots gs)))
  | ⟨⟨n, k, r, t, tn, i, false, l⟩, .single, o⟩ :: gs =>
    congrArg (_ :: ·) ((filterMap_map_snd _ _).trans (congrArg (List.map _) (entries_slots gs)))

/-- Entries without a member do nothing. -/
theorem foldlM_filterMap_snd {α β σ : Type} (f : σ → Option β → Res σ) (hf : ∀ s, f s none = pure s)
    (l : List (α × Option β)) (s : σ) :
    l.foldlM (fun s e => f s e.2) s = (l.filterMap (·.2)).foldlM (fun s b => f s (some b)) s := by
  induction l generalizing s with
  | nil => rfl
  | cons e l ih =>
    obtain ⟨a, b⟩ := e
    rw [List.foldlM_cons]
    cases b with
    | none =>
      show (f s none >>= _ : Res _) = _
      rw [hf s]
      exact ih s
    | some b =>
      show (f s (some b) >>= _ : Res _) = (f s (some b) >>= _ : Res _)
      cases f s (some b) with
      | ok s' => exact ih s'
      | ub => rfl
      | diverge => rfl

theorem foldlM_head {α γ σ τ X : Type} (g : τ → γ → Res τ) (h : σ → α → Res σ) (f : α → γ) (c : γ) (l : List α)
    (r : Res X) (emb : X → σ → τ) (s₀ : X → σ) (t₀ : τ)
    (hc : g t₀ c = r >>= fun x => pure (emb x (s₀ x)))
    (hs : ∀ x a s, g (emb x s) (f a) = h s a >>= fun s => pure (emb x s)) :
    (c :: l.map f).foldlM g t₀ = r >>= fun x => l.foldlM h (s₀ x) >>= fun s => pure (emb x s) := by
  rw [List.foldlM_cons, hc]
  cases r with
  | ub => rfl
  | diverge => rfl
  | ok x =>
    rw [Res.ok_bind, Res.pure_eq, Res.ok_bind, Res.ok_bind, List.foldlM_map]
    exact foldlM_lift h _ (emb x) l (fun a _ s => hs x a s) (s₀ x)

theorem bind_left {α β : Type} {m m' : Res α} (h : m = m') (f : α → Res β) : m >>= f = m' >>= f := by rw [h]

theorem fold_clear : ∀ (fs : Fields) (idx : Nat) (l : Presence × (fs.cls idx).State),
    (slots fs).foldlM (fun l s => s.slot.clearAccess idx l) l = (fs.cls idx).clear l.1 l.2
  | .nil, _, _ => rfl
  | .plain num t rest, idx, (p, x, y) => by
    refine (foldlM_head (fun l (s : ASlot (.plain num t rest)) => s.slot.clearAccess idx l) (fun l (s : ASlot rest) => s.slot.clearAccess idx l) _ _ _
      (t.cls.clear x) (fun x r => (r.1, x, r.2)) (fun _ => (p, y)) (p, x, y) rfl fun _ _ _ => rfl).trans ?_
    show (t.cls.clear x >>= _ : Res _) = (t.cls.clear x >>= _ : Res _)
    cases t.cls.clear x with
    | ok x => exact bind_left (fold_clear rest idx (p, y)) fun s => pure (s.1, x, s.2)
    | ub => rfl
    | diverge => rfl
  | .optional num t rest, idx, (p, x, y) => by
    refine (foldlM_head (fun l (s : ASlot (.optional num t rest)) => s.slot.clearAccess idx l) (fun l (s : ASlot rest) => s.slot.clearAccess (idx + 1) l) _ _ _
      (Presence.clearBit p idx >>= fun p => t.cls.clear x >>= fun x => pure (p, x))
      (fun q r => (r.1, q.2, r.2)) (fun q => (q.1, y)) (p, x, y) ?_ fun _ _ _ => rfl).trans ?_
    · show (Presence.clearBit p idx >>= _ : Res _) = _
      cases Presence.clearBit p idx with
      | ok p => cases t.cls.clear x <;> rfl
      | ub => rfl
      | diverge => rfl
    · show _ = (Presence.clearBit p idx >>= fun p => t.cls.clear x >>= _ : Res _)
      cases Presence.clearBit p idx with
      | ok p =>
        rw [Res.ok_bind, Res.ok_bind]
        cases t.cls.clear x with
        | ok x => exact bind_left (fold_clear rest (idx + 1) (p, y)) fun s => pure (s.1, x, s.2)
        | ub => rfl
        | diverge => rfl
      | ub => rfl
      | diverge => rfl
  | .repeated num cap t rest, idx, (p, x, y) => by
    refine (foldlM_head (fun l (s : ASlot (.repeated num cap t rest)) => s.slot.clearAccess idx l) (fun l (s : ASlot rest) => s.slot.clearAccess idx l) _ _ _
      ((repeatedClass t.cls cap).clear x) (fun x r => (r.1, x, r.2)) (fun _ => (p, y)) (p, x, y) rfl fun _ _ _ => rfl).trans ?_
    show ((repeatedClass t.cls cap).clear x >>= _ : Res _) = ((repeatedClass t.cls cap).clear x >>= _ : Res _)
    cases (repeatedClass t.cls cap).clear x with
    | ok x => exact bind_left (fold_clear rest idx (p, y)) fun s => pure (s.1, x, s.2)
    | ub => rfl
    | diverge => rfl

theorem assignFrom_lift {fs rest : Fields} {num : Nat} {c : Card} {t : ElemTy} (a : Slot rest num c t) (b : Slot fs num c t)
    (i j : Nat) (q p : Presence) (v y : (rest.cls i).State) {v' : (fs.cls j).State}
    (emb : (rest.cls i).State → (fs.cls j).State) (hb : b.bit j = a.bit i) (hv : b.state j v' = a.state i v)
    (hy : b.state j (emb y) = a.state i y) (hs : ∀ w, b.setState j (emb y) w = emb (a.setState i y w)) :
    b.assignFrom j (q, v') (p, emb y) =
      a.assignFrom i (q, v) (p, y) >>= fun s => pure (s.1, emb s.2) := by
  unfold Slot.assignFrom
  dsimp only
  rw [hb, hv, hy]
  cases c.isOpt with
  | false =>
    rw [if_neg (by decide), if_neg (by decide)]
    cases (c.cls t).set (a.state i y) (a.state i v) with
    | ok w =>
      show Res.ok (p, b.setState j (emb y) w) = Res.ok (p, emb (a.setState i y w))
      rw [hs]
    | ub => rfl
    | diverge => rfl
  | true =>
    rw [if_pos rfl, if_pos rfl]
    cases Presence.has q (a.bit i) with
    | ub => rfl
    | diverge => rfl
    | ok h =>
      cases h with
      | true =>
        rw [Res.ok_bind, Res.ok_bind, if_pos rfl, if_pos rfl]
        cases Presence.setBit p (a.bit i) with
        | ub => rfl
        | diverge => rfl
        | ok p' =>
          rw [Res.ok_bind, Res.ok_bind]
          cases (c.cls t).set (a.state i y) (a.state i v) with
          | ok w =>
            show Res.ok (p', b.setState j (emb y) w) = Res.ok (p', emb (a.setState i y w))
            rw [hs]
          | ub => rfl
          | diverge => rfl
      | false =>
        rw [Res.ok_bind, Res.ok_bind, if_neg (by decide), if_neg (by decide)]
        cases Presence.clearBit p (a.bit i) with
        | ub => rfl
        | diverge => rfl
        | ok p' =>
          rw [Res.ok_bind, Res.ok_bind]
          cases (c.cls t).clear (a.state i y) with
          | ok w =>
            show Res.ok (p', b.setState j (emb y) w) = Res.ok (p', emb (a.setState i y w))
            rw [hs]
          | ub => rfl
          | diverge => rfl

theorem fold_assign : ∀ (fs : Fields) (idx : Nat) (r l : Presence × (fs.cls idx).State),
    (slots fs).foldlM (fun l s => s.slot.assignFrom idx r l) l = (fs.cls idx).assign l r
  | .nil, _, _, _ => rfl
  | .plain num t rest, idx, (q, u, v), (p, x, y) => by
    refine (foldlM_head (fun l (s : ASlot (.plain num t rest)) => s.slot.assignFrom idx (q, u, v) l)
      (fun l (s : ASlot rest) => s.slot.assignFrom idx (q, v) l) _ _ _
      (t.cls.set x u) (fun x r => (r.1, x, r.2)) (fun _ => (p, y)) (p, x, y) rfl ?_).trans ?_
    · intro x a s
      exact assignFrom_lift a.slot (.afterPlain num t a.slot) idx idx _ _ _ _ (fun s => (x, s)) rfl rfl rfl (fun _ => rfl)
    show (t.cls.set x u >>= _ : Res _) = (t.cls.set x u >>= _ : Res _)
    cases t.cls.set x u with
    | ok x => exact bind_left (fold_assign rest idx (q, v) (p, y)) fun s => pure (s.1, x, s.2)
    | ub => rfl
    | diverge => rfl
  | .repeated num cap t rest, idx, (q, u, v), (p, x, y) => by
    refine (foldlM_head (fun l (s : ASlot (.repeated num cap t rest)) => s.slot.assignFrom idx (q, u, v) l)
      (fun l (s : ASlot rest) => s.slot.assignFrom idx (q, v) l) _ _ _
      ((repeatedClass t.cls cap).set x u) (fun x r => (r.1, x, r.2)) (fun _ => (p, y)) (p, x, y) rfl ?_).trans ?_
    · intro x a s
      exact assignFrom_lift a.slot (.afterRepeated num cap t a.slot) idx idx _ _ _ _ (fun s => (x, s)) rfl rfl rfl (fun _ => rfl)
    show ((repeatedClass t.cls cap).set x u >>= _ : Res _) = ((repeatedClass t.cls cap).set x u >>= _ : Res _)
    cases (repeatedClass t.cls cap).set x u with
    | ok x => exact bind_left (fold_assign rest idx (q, v) (p, y)) fun s => pure (s.1, x, s.2)
    | ub => rfl
    | diverge => rfl
  | .optional num t rest, idx, (q, u, v), (p, x, y) => by
    refine (foldlM_head (fun l (s : ASlot (.optional num t rest)) => s.slot.assignFrom idx (q, u, v) l)
      (fun l (s : ASlot rest) => s.slot.assignFrom (idx + 1) (q, v) l) _ _ _
      (Presence.has q idx >>= fun has => if has then
          Presence.setBit p idx >>= fun p => t.cls.set x u >>= fun x => pure (p, x)
        else Presence.clearBit p idx >>= fun p => t.cls.clear x >>= fun x => pure (p, x))
      (fun k r => (r.1, k.2, r.2)) (fun k => (k.1, y)) (p, x, y) ?_ ?_).trans ?_
    · show (Presence.has q idx >>= _ : Res _) = _
      cases Presence.has q idx with
      | ub => rfl
      | diverge => rfl
      | ok h =>
        cases h with
        | true =>
          show (Presence.setBit p idx >>= _ : Res _) = ((Presence.setBit p idx >>= _) >>= _ : Res _)
          cases Presence.setBit p idx with
          | ok p =>
            show (t.cls.set x u >>= _ : Res _) = ((t.cls.set x u >>= _) >>= _ : Res _)
            cases t.cls.set x u <;> rfl
          | ub => rfl
          | diverge => rfl
        | false =>
          show (Presence.clearBit p idx >>= _ : Res _) = ((Presence.clearBit p idx >>= _) >>= _ : Res _)
          cases Presence.clearBit p idx with
          | ok p =>
            show (t.cls.clear x >>= _ : Res _) = ((t.cls.clear x >>= _) >>= _ : Res _)
            cases t.cls.clear x <;> rfl
          | ub => rfl
          | diverge => rfl
    · intro x a s
      exact assignFrom_lift a.slot (.afterOptional num t a.slot) (idx + 1) idx _ _ _ _ (fun s => (x.2, s)) rfl rfl rfl
        (fun _ => rfl)
    · show _ = (Presence.has q idx >>= _ : Res _)
      cases Presence.has q idx with
      | ub => rfl
      | diverge => rfl
      | ok h =>
        cases h with
        | true =>
          show ((Presence.setBit p idx >>= _) >>= _ : Res _) = ((Presence.setBit p idx >>= _) >>= _ : Res _)
          cases Presence.setBit p idx with
          | ub => rfl
          | diverge => rfl
          | ok p =>
            show ((t.cls.set x u >>= _) >>= _ : Res _) = ((t.cls.set x u >>= _) >>= _ : Res _)
            cases t.cls.set x u with
            | ok x => exact bind_left (fold_assign rest (idx + 1) (q, v) (p, y)) fun s => pure (s.1, x, s.2)
            | ub => rfl
            | diverge => rfl
        | false =>
          show ((Presence.clearBit p idx >>= _) >>= _ : Res _) = ((Presence.clearBit p idx >>= _) >>= _ : Res _)
          cases Presence.clearBit p idx with
          | ub => rfl
          | diverge => rfl
          | ok p =>
            show ((t.cls.clear x >>= _) >>= _ : Res _) = ((t.cls.clear x >>= _) >>= _ : Res _)
            cases t.cls.clear x with
            | ok x => exact bind_left (fold_assign rest (idx + 1) (q, v) (p, y)) fun s => pure (s.1, x, s.2)
            | ub => rfl
            | diverge => rfl

theorem foldlM_cons_map {α γ τ : Type} (g : τ → γ → Res τ) (f : α → γ) (c : γ) (l : List α) (t₀ : τ) :
    (c :: l.map f).foldlM g t₀ = g t₀ c >>= fun t => l.foldlM (fun t a => g t (f a)) t := by
  rw [List.foldlM_cons]
  cases g t₀ c with
  | ok t => exact List.foldlM_map
  | ub => rfl
  | diverge => rfl

theorem fold_ser {ω : Type} [WriteBuffer ω] : ∀ (fs : Fields) (idx : Nat) (p : Presence) (x : (fs.cls idx).State)
    (r : Error × ω), (slots fs).foldlM (fun r s => s.slot.serAt idx p x r) r = (fs.cls idx).serialize p x r.1 r.2
  | .nil, _, _, _, _ => rfl
  | .plain num t rest, idx, p, x, (e, w) => by
    refine (foldlM_cons_map _ _ _ (slots rest) _).trans ?_
    show ((if t.cls.plainGuard x.1 = true ∧ e = .noErrors then t.cls.serializeWithId num x.1 w false else pure (e, w) : Res _) >>= _) =
      ((if t.cls.plainGuard x.1 = true ∧ e = .noErrors then t.cls.serializeWithId num x.1 w false else pure (e, w) : Res _) >>= _)
    cases (if t.cls.plainGuard x.1 = true ∧ e = .noErrors then t.cls.serializeWithId num x.1 w false else pure (e, w) : Res _) with
    | ok r => exact fold_ser rest idx p x.2 r
    | ub => rfl
    | diverge => rfl
  | .repeated num cap t rest, idx, p, x, (e, w) => by
    refine (foldlM_cons_map _ _ _ (slots rest) _).trans ?_
    show ((if (repeatedClass t.cls cap).plainGuard x.1 = true ∧ e = .noErrors then
        (repeatedClass t.cls cap).serializeWithId num x.1 w false else pure (e, w) : Res _) >>= _) =
      ((if (repeatedClass t.cls cap).plainGuard x.1 = true ∧ e = .noErrors then
        (repeatedClass t.cls cap).serializeWithId num x.1 w false else pure (e, w) : Res _) >>= _)
    cases (if (repeatedClass t.cls cap).plainGuard x.1 = true ∧ e = .noErrors then
        (repeatedClass t.cls cap).serializeWithId num x.1 w false else pure (e, w) : Res _) with
    | ok r => exact fold_ser rest idx p x.2 r
    | ub => rfl
    | diverge => rfl
  | .optional num t rest, idx, p, x, (e, w) => by
    refine (foldlM_cons_map _ _ _ (slots rest) _).trans ?_
    show ((Presence.has p idx >>= _) >>= _ : Res _) = (Presence.has p idx >>= _ : Res _)
    cases Presence.has p idx with
    | ub => rfl
    | diverge => rfl
    | ok h =>
      show ((if h = true ∧ e = .noErrors then t.cls.serializeWithId num x.1 w true else pure (e, w) : Res _) >>= _) =
        ((if h = true ∧ e = .noErrors then t.cls.serializeWithId num x.1 w true else pure (e, w) : Res _) >>= _)
      cases (if h = true ∧ e = .noErrors then t.cls.serializeWithId num x.1 w true else pure (e, w) : Res _) with
      | ok r => exact fold_ser rest (idx + 1) p x.2 r
      | ub => rfl
      | diverge => rfl

/-- The first member with the number. -/
def desSlot {β : Type} [ReadBuffer β] {fs : Fields} (idx fuel id : Nat) (wt : WireType) (b : β) (p : Presence)
    (x : (fs.cls idx).State) : List (ASlot fs) → Option (Res (Error × β × Presence × (fs.cls idx).State))
  | [] => none
  | s :: l => if id = s.num then some (s.slot.desAt idx fuel wt b p x) else desSlot idx fuel id wt b p x l

theorem desSlot_map {β : Type} [ReadBuffer β] {fs rest : Fields} (i j fuel id : Nat) (wt : WireType) (b : β) (p : Presence)
    (y : (rest.cls i).State) (emb : (rest.cls i).State → (fs.cls j).State) (f : ASlot rest → ASlot fs)
    (hn : ∀ a, (f a).num = a.num)
    (hf : ∀ a, (f a).slot.desAt j fuel wt b p (emb y) =
      a.slot.desAt i fuel wt b p y >>= fun r => pure (r.1, r.2.1, r.2.2.1, emb r.2.2.2)) (l : List (ASlot rest)) :
    desSlot j fuel id wt b p (emb y) (l.map f) = match desSlot i fuel id wt b p y l with
      | none => none
      | some r => some (r >>= fun r => pure (r.1, r.2.1, r.2.2.1, emb r.2.2.2)) := by
  induction l with
  | nil => rfl
  | cons a l ih =>
    by_cases h : id = a.num
    · have e : desSlot i fuel id wt b p y (a :: l) = some (a.slot.desAt i fuel wt b p y) := if_pos h
      rw [e]
      exact (if_pos (h.trans (hn a).symm)).trans (congrArg some (hf a))
    · have e : desSlot i fuel id wt b p y (a :: l) = desSlot i fuel id wt b p y l := if_neg h
      rw [e]
      exact (if_neg fun h' => h (h'.trans (hn a))).trans ih

theorem desAt_lift {β : Type} [ReadBuffer β] {fs rest : Fields} {num : Nat} {c : Card} {t : ElemTy} (a : Slot rest num c t)
    (s : Slot fs num c t) (i j fuel : Nat) (wt : WireType) (b : β) (p : Presence) (y : (rest.cls i).State)
    (emb : (rest.cls i).State → (fs.cls j).State) (hb : s.bit j = a.bit i)
    (hy : s.state j (emb y) = a.state i y) (hs : ∀ w, s.setState j (emb y) w = emb (a.setState i y w)) :
    s.desAt j fuel wt b p (emb y) =
      a.desAt i fuel wt b p y >>= fun r => pure (r.1, r.2.1, r.2.2.1, emb r.2.2.2) := by
  unfold Slot.desAt
  rw [hb, hy]
  cases c.mark (a.bit i) p with
  | ub => rfl
  | diverge => rfl
  | ok p =>
    rw [Res.ok_bind, Res.ok_bind]
    cases (c.cls t).deserializeCheckType fuel b wt (a.state i y) with
    | ub => rfl
    | diverge => rfl
    | ok r =>
      obtain ⟨e, b, z⟩ := r
      show Res.ok (e, b, p, s.setState j (emb y) z) = Res.ok (e, b, p, emb (a.setState i y z))
      rw [hs]

theorem dispatch_slots {β : Type} [ReadBuffer β] (fuel id : Nat) (wt : WireType) (b : β) (p : Presence) :
    ∀ (fs : Fields) (idx : Nat) (x : (fs.cls idx).State),
    (fs.cls idx).dispatch fuel id wt b p x = desSlot idx fuel id wt b p x (slots fs)
  | .nil, _, _ => rfl
  | .plain num t rest, idx, (x, y) => by
    show (if id = num then _ else _) = (if id = num then _ else _)
    by_cases h : id = num
    · refine (if_pos h).trans (Eq.trans ?_ (if_pos h).symm)
      rfl
    · refine (if_neg h).trans (Eq.trans ?_ (if_neg h).symm)
      dsimp only
      rw [dispatch_slots fuel id wt b p rest idx y]
      refine Eq.trans ?_ (desSlot_map idx idx fuel id wt b p y (fs := .plain num t rest) (fun s => (x, s))
        (fun s => ⟨.afterPlain num t s.slot⟩) (fun _ => rfl)
        (fun a => desAt_lift a.slot (.afterPlain num t a.slot) idx idx fuel wt b p y (fun s => (x, s)) rfl rfl fun _ => rfl)
        (slots rest)).symm
      cases desSlot idx fuel id wt b p y (slots rest) <;> rfl
  | .optional num t rest, idx, (x, y) => by
    show (if id = num then _ else _) = (if id = num then _ else _)
    by_cases h : id = num
    · refine (if_pos h).trans (Eq.trans ?_ (if_pos h).symm)
      rfl
    · refine (if_neg h).trans (Eq.trans ?_ (if_neg h).symm)
      dsimp only
      rw [dispatch_slots fuel id wt b p rest (idx + 1) y]
      refine Eq.trans ?_ (desSlot_map (idx + 1) idx fuel id wt b p y (fs := .optional num t rest) (fun s => (x, s))
        (fun s => ⟨.afterOptional num t s.slot⟩) (fun _ => rfl)
        (fun a => desAt_lift a.slot (.afterOptional num t a.slot) (idx + 1) idx fuel wt b p y (fun s => (x, s)) rfl rfl
          fun _ => rfl)
        (slots rest)).symm
      cases desSlot (idx + 1) fuel id wt b p y (slots rest) <;> rfl
  | .repeated num cap t rest, idx, (x, y) => by
    show (if id = num then _ else _) = (if id = num then _ else _)
    by_cases h : id = num
    · refine (if_pos h).trans (Eq.trans ?_ (if_pos h).symm)
      rfl
    · refine (if_neg h).trans (Eq.trans ?_ (if_neg h).symm)
      dsimp only
      rw [dispatch_slots fuel id wt b p rest idx y]
      refine Eq.trans ?_ (desSlot_map idx idx fuel id wt b p y (fs := .repeated num cap t rest) (fun s => (x, s))
        (fun s => ⟨.afterRepeated num cap t s.slot⟩) (fun _ => rfl)
        (fun a => desAt_lift a.slot (.afterRepeated num cap t a.slot) idx idx fuel wt b p y (fun s => (x, s)) rfl rfl
          fun _ => rfl)
        (slots rest)).symm
      cases desSlot idx fuel id wt b p y (slots rest) <;> rfl

end EP.Gen
