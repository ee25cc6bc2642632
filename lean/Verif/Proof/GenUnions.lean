import Verif.Proof.GenSlots
import Verif.Proof.Member

/-!
# The combinators for oneofs, oneof by oneof and member by member
-/

namespace EP

namespace Member
variable {a : Alts} {num : Nat} {t : ElemTy}

theorem serialize (m : Member a num t) (hn : a.numbers.Nodup) {ω : Type} [WriteBuffer ω] (x : t.Obj) (e : Error) (w : ω) :
    a.cls.serialize num (some (m.injState x)) e w =
      if e = .noErrors then t.cls.serializeWithId num x w true else pure (e, w) := by
  induction m with
  | here n t rest => exact if_pos rfl
  | after k u m ih =>
    have hn' := List.nodup_cons.mp hn
    have hne : _ ≠ k := fun e => hn'.1 (e ▸ m.mem)
    exact (if_neg hne).trans (ih hn'.2 x)

theorem setFrom (m : Member a num t) (hn : a.numbers.Nodup) (x y : t.Obj) :
    a.cls.setFrom num (some (m.injState x)) (some (m.injState y)) =
      t.cls.set x y >>= fun z => .ok (some (m.injState z)) := by
  induction m with
  | here n t rest => exact if_pos rfl
  | after k u m ih =>
    have hn' := List.nodup_cons.mp hn
    have hne : _ ≠ k := fun e => hn'.1 (e ▸ m.mem)
    refine (if_neg hne).trans ?_
    refine (congrArg (· >>= fun v => pure (AltsClass.inr? v)) (ih hn'.2 x y)).trans ?_
    rw [bind_assoc]
    rfl

/-- Assigning an object in which the member is set. -/
theorem assignObj (m : Member a num t) (h : a.WF) (hn : a.numbers.Nodup) (h0 : 0 ∉ a.numbers)
    {o : OneofObj a.cls.U} (ho : a.spec.ObjInv o) (y : t.Obj) :
    a.cls.assignObj o ⟨num, some (m.injState y)⟩ =
      t.cls.set (m.current o) y >>= fun z => .ok ⟨num, some (m.injState z)⟩ := by
  unfold AltsClass.assignObj
  have hcase : a.cls.hasCase num = true := by
    rw [(Alts.base a h hn).hasCase, decide_eq_true m.mem]
  dsimp only
  have tail : ∀ o' : OneofObj a.cls.U, a.spec.ObjInv o' → m.current o' = m.current o →
      (if a.cls.hasCase num then do
        let o ← a.cls.activate o' num
        let u ← a.cls.setFrom num o.live (some (m.injState y))
        pure ⟨o.which, u⟩
      else pure o' : Res (OneofObj a.cls.U)) =
      t.cls.set (m.current o) y >>= fun z => .ok ⟨num, some (m.injState z)⟩ := by
    intro o' ho' hc
    rw [hcase, if_pos rfl, (m.activate h hn h0 ho').1, Res.ok_bind]
    dsimp only
    rw [m.setFrom hn, hc]
    cases t.cls.set (m.current o) y <;> rfl
  by_cases hw : num ≠ o.which
  · rw [if_pos hw, clearObj_eq (Alts.base a h hn).toAltsInit h0 o ho, Res.ok_bind]
    refine tail _ rfl ?_
    obtain ⟨which, live⟩ := o
    cases live with
    | none => rfl
    | some u =>
      have hu : which = a.spec.num u := ho.1
      unfold current
      rw [Option.bind_some, m.projState_of_num h hn u (fun e => hw (hu.trans e).symm)]
      rfl
  · rw [if_neg hw, Res.pure_eq, Res.ok_bind]
    exact tail o ho rfl

end Member

section
variable {a : Alts}

/-- Assigning an object in which no member is set. -/
theorem Alts.assignObj_none (h : a.WF) (hn : a.numbers.Nodup) (h0 : 0 ∉ a.numbers)
    {o : OneofObj a.cls.U} (ho : a.spec.ObjInv o) : a.cls.assignObj o ⟨0, none⟩ = .ok ⟨0, none⟩ := by
  unfold AltsClass.assignObj
  have hcase : a.cls.hasCase 0 = false := by
    rw [(Alts.base a h hn).hasCase, decide_eq_false h0]
  dsimp only
  rw [hcase]
  by_cases hw : (0 : Nat) ≠ o.which
  · rw [if_pos hw, clearObj_eq (Alts.base a h hn).toAltsInit h0 o ho, Res.ok_bind]
    rfl
  · rw [if_neg hw, Res.pure_eq, Res.ok_bind]
    obtain ⟨which, live⟩ := o
    have hw : 0 = which := Decidable.not_not.mp hw
    subst hw
    cases live with
    | none => rfl
    | some u =>
      have e : 0 = a.spec.num u := ho.1
      exact absurd (e ▸ (Alts.base a h hn).num_mem u) h0

theorem Alts.serialize_none : ∀ (a : Alts), 0 ∉ a.numbers → {ω : Type} → [WriteBuffer ω] → (e : Error) → (w : ω) →
    a.cls.serialize 0 none e w = pure (e, w)
  | .nil, _, _, _, _, _ => rfl
  | .cons num _ rest, h, _, _, e, w =>
    (if_neg fun (e : 0 = num) => h (e ▸ List.mem_cons_self)).trans
      (Alts.serialize_none rest (fun h' => h (List.mem_cons_of_mem _ h')) e w)

end

namespace Gen

set_option linter.unusedVariables false

/-! ## Oneofs -/

/-- One of the oneofs. -/
structure BUnion (os : Oneofs) where
  {a : Alts}
  slot : OneofSlot os a

/-- The oneofs in order. -/
def bunions : (os : Oneofs) → List (BUnion os)
  | .nil => []
  | .cons a rest => ⟨.here a rest⟩ :: (bunions rest).map fun u => ⟨.after a u.slot⟩

theorem fold_clearOneofs : ∀ (os : Oneofs) (x : os.cls.State),
    (bunions os).foldlM (fun x u => u.slot.access u.a.cls.clearObj x) x = os.cls.clear x
  | .nil, _ => rfl
  | .cons a rest, (o, y) => by
    refine (foldlM_head (fun x (u : BUnion (.cons a rest)) => u.slot.access u.a.cls.clearObj x)
      (fun x (u : BUnion rest) => u.slot.access u.a.cls.clearObj x) _ _ _
      (a.cls.clearObj o) (fun o y => (o, y)) (fun _ => y) (o, y) rfl fun _ _ _ => rfl).trans ?_
    show (a.cls.clearObj o >>= _ : Res _) = (a.cls.clearObj o >>= _ : Res _)
    cases a.cls.clearObj o with
    | ok o => exact bind_left (fold_clearOneofs rest y) fun s => pure (o, s)
    | ub => rfl
    | diverge => rfl

theorem fold_assignOneofs : ∀ (os : Oneofs) (r x : os.cls.State),
    (bunions os).foldlM (fun x u => u.slot.access (u.a.cls.assignObj · (u.slot.state r)) x) x = os.cls.assign x r
  | .nil, _, _ => rfl
  | .cons a rest, (q, v), (o, y) => by
    refine (foldlM_head (fun x (u : BUnion (.cons a rest)) => u.slot.access (u.a.cls.assignObj · (u.slot.state (q, v))) x)
      (fun x (u : BUnion rest) => u.slot.access (u.a.cls.assignObj · (u.slot.state v)) x) _ _ _
      (a.cls.assignObj o q) (fun o y => (o, y)) (fun _ => y) (o, y) rfl fun _ _ _ => rfl).trans ?_
    show (a.cls.assignObj o q >>= _ : Res _) = (a.cls.assignObj o q >>= _ : Res _)
    cases a.cls.assignObj o q with
    | ok o => exact bind_left (fold_assignOneofs rest v y) fun s => pure (o, s)
    | ub => rfl
    | diverge => rfl

theorem fold_serOneofs {ω : Type} [WriteBuffer ω] : ∀ (os : Oneofs) (x : os.cls.State) (r : Error × ω),
    (bunions os).foldlM (fun r u => u.a.cls.serialize (u.slot.state x).which (u.slot.state x).live r.1 r.2) r =
      os.cls.serialize x r.1 r.2
  | .nil, _, _ => rfl
  | .cons a rest, x, (e, w) => by
    refine (foldlM_cons_map _ _ _ (bunions rest) _).trans ?_
    show (a.cls.serialize x.1.which x.1.live e w >>= _ : Res _) = (a.cls.serialize x.1.which x.1.live e w >>= _ : Res _)
    cases a.cls.serialize x.1.which x.1.live e w with
    | ok r => exact fold_serOneofs rest x.2 r
    | ub => rfl
    | diverge => rfl

/-- The first oneof that has the number. -/
def desUnion {β : Type} [ReadBuffer β] {os : Oneofs} (fuel id : Nat) (wt : WireType) (b : β) (x : os.cls.State) :
    List (BUnion os) → Option (Res (Error × β × os.cls.State))
  | [] => none
  | u :: l => if u.a.cls.hasCase id then
      some (u.a.cls.deserializeObj fuel id b wt (u.slot.state x) >>= fun r => pure (r.1, r.2.1, u.slot.setState x r.2.2))
    else desUnion fuel id wt b x l

theorem desUnion_map {β : Type} [ReadBuffer β] {os rest : Oneofs} (fuel id : Nat) (wt : WireType) (b : β)
    (y : rest.cls.State) (emb : rest.cls.State → os.cls.State) (f : BUnion rest → BUnion os)
    (hn : ∀ u, (f u).a.cls.hasCase id = u.a.cls.hasCase id)
    (hf : ∀ u, ((f u).a.cls.deserializeObj fuel id b wt ((f u).slot.state (emb y)) >>=
        fun r => pure (r.1, r.2.1, (f u).slot.setState (emb y) r.2.2) : Res _) =
      (u.a.cls.deserializeObj fuel id b wt (u.slot.state y) >>= fun r => pure (r.1, r.2.1, emb (u.slot.setState y r.2.2)) : Res _))
    (l : List (BUnion rest)) :
    desUnion fuel id wt b (emb y) (l.map f) = match desUnion fuel id wt b y l with
      | none => none
      | some r => some (r >>= fun r => pure (r.1, r.2.1, emb r.2.2)) := by
  induction l with
  | nil => rfl
  | cons u l ih =>
    cases h : u.a.cls.hasCase id with
    | true =>
      have e : desUnion fuel id wt b y (u :: l) = some (u.a.cls.deserializeObj fuel id b wt (u.slot.state y) >>=
        fun r => pure (r.1, r.2.1, u.slot.setState y r.2.2)) := if_pos h
      rw [e]
      refine (if_pos ((hn u).trans h)).trans (congrArg some ((hf u).trans ?_))
      rw [bind_assoc]
      rfl
    | false =>
      have e : desUnion fuel id wt b y (u :: l) = desUnion fuel id wt b y l := if_neg (by rw [h]; decide)
      rw [e]
      exact (if_neg (by rw [hn u, h]; decide)).trans ih

theorem dispatch_unions {β : Type} [ReadBuffer β] (fuel id : Nat) (wt : WireType) (b : β) :
    ∀ (os : Oneofs) (x : os.cls.State), os.cls.dispatch fuel id wt b x = desUnion fuel id wt b x (bunions os)
  | .nil, _ => rfl
  | .cons a rest, (x, y) => by
    show (if a.cls.hasCase id = true then _ else _) = (if a.cls.hasCase id = true then _ else _)
    by_cases h : a.cls.hasCase id = true
    · exact (if_pos h).trans (Eq.trans rfl (if_pos h).symm)
    · refine (if_neg h).trans (Eq.trans ?_ (if_neg h).symm)
      dsimp only
      rw [dispatch_unions fuel id wt b rest y]
      refine Eq.trans ?_ (desUnion_map fuel id wt b y (os := .cons a rest) (fun s => (x, s))
        (fun u => ⟨.after a u.slot⟩) (fun _ => rfl) (fun _ => rfl) (bunions rest)).symm
      cases desUnion fuel id wt b y (bunions rest) <;> rfl

/-! ## The unions of a message -/

variable {E : Types}

/-- A oneof and its union. -/
structure OEntry (E : Types) (os : Oneofs) where
  o : GOneof
  slot : OneofSlot os (classAlts E o.fields)

def oEntries (E : Types) : (os : List GOneof) → List (OEntry E (classOneofs E os))
  | [] => []
  | o :: os => ⟨o, .here _ _⟩ :: (oEntries E os).map fun e => ⟨e.o, .after _ e.slot⟩

theorem oEntries_fst : ∀ os : List GOneof, (oEntries E os).map (·.o) = os
  | [] => rfl
  | o :: os => by
    unfold oEntries
    rw [List.map_cons, List.map_map]
    exact congrArg (_ :: ·) (oEntries_fst os)

theorem oEntries_bunions : ∀ os : List GOneof, ((oEntries E os).map fun e => (⟨e.slot⟩ : BUnion _)) = bunions (classOneofs E os)
  | [] => rfl
  | o :: os => by
    unfold oEntries
    rw [List.map_cons, List.map_map]
    refine congrArg (_ :: ·) (Eq.trans ?_ (congrArg (List.map fun u => (⟨.after _ u.slot⟩ : BUnion (classOneofs E (o :: os))))
      (oEntries_bunions os)))
    rw [List.map_map]
    rfl

theorem oEntries_mem {os : List GOneof} {e : OEntry E (classOneofs E os)} (h : e ∈ oEntries E os) : e.o ∈ os := by
  have := List.mem_map_of_mem (f := (·.o)) h
  rwa [oEntries_fst] at this

theorem mem_oEntries {os : List GOneof} {o : GOneof} (h : o ∈ os) : ∃ e ∈ oEntries E os, e.o = o := by
  rw [← oEntries_fst (E := E) os] at h
  exact List.mem_map.mp h

/-- The union of a oneof — TypeDefMsg.h:403-415. -/
def unionOf (o : GOneof) : Union where
  type := o.name
  which := whichName o.name
  var := under o.name
  members := varNames o.fields

theorem findUnion_entries (key : Union → Str) : ∀ (os : List GOneof), (os.map fun o => key (unionOf o)).Nodup →
    ∀ e ∈ oEntries E os, findUnion (key · == key (unionOf e.o)) (classOneofs E os) (os.map unionOf) =
      some ⟨e.slot, varNames e.o.fields⟩
  | [], _, _, h => nomatch h
  | o :: os, hn, e, h => by
    rw [List.map_cons, List.nodup_cons] at hn
    unfold oEntries at h
    rcases List.mem_cons.mp h with rfl | h
    · exact if_pos (beq_self_eq_true _)
    · obtain ⟨e', he', rfl⟩ := List.mem_map.mp h
      have hne : ¬ (key (unionOf o) == key (unionOf e'.o)) = true := by
        intro eq
        exact hn.1 (beq_iff_eq.mp eq ▸ List.mem_map_of_mem (f := fun o => key (unionOf o)) (oEntries_mem he'))
      refine (if_neg hne).trans ?_
      exact congrArg (Option.map _) (findUnion_entries key os hn.2 e' he')

/-! ## The members of a union -/

/-- A member of a oneof. -/
structure AEntry (E : Types) (a : Alts) where
  g : GField
  member : Member a g.desc.number (E.elem g.desc)

def aEntries (E : Types) : (gs : List GField) → List (AEntry E (classAlts E gs))
  | [] => []
  | ⟨d, .recursive, o⟩ :: gs => aEntries E gs
  | ⟨d, .repeated, o⟩ :: gs => ⟨⟨d, .repeated, o⟩, .here _ _ _⟩ :: (aEntries E gs).map fun e => ⟨e.g, .after _ _ e.member⟩
  | ⟨d, .single, o⟩ :: gs => ⟨⟨d, .single, o⟩, .here _ _ _⟩ :: (aEntries E gs).map fun e => ⟨e.g, .after _ _ e.member⟩

theorem aEntries_fst : ∀ gs : List GField, (∀ g ∈ gs, g.shape ≠ .recursive) → (aEntries E gs).map (·.g) = gs
  | [], _ => rfl
  | ⟨d, .recursive, o⟩ :: gs, h => absurd rfl (h _ List.mem_cons_self)
  | ⟨d, .repeated, o⟩ :: gs, h => by
    unfold aEntries
    rw [List.map_cons, List.map_map]
    exact congrArg (_ :: ·) (aEntries_fst gs fun g hg => h g (List.mem_cons_of_mem _ hg))
  | ⟨d, .single, o⟩ :: gs, h => by
    unfold aEntries
    rw [List.map_cons, List.map_map]
    exact congrArg (_ :: ·) (aEntries_fst gs fun g hg => h g (List.mem_cons_of_mem _ hg))

theorem aEntries_mem {gs : List GField} (h : ∀ g ∈ gs, g.shape ≠ .recursive) {e : AEntry E (classAlts E gs)}
    (he : e ∈ aEntries E gs) : e.g ∈ gs := by
  have := List.mem_map_of_mem (f := (·.g)) he
  rwa [aEntries_fst gs h] at this

theorem mem_aEntries {gs : List GField} (h : ∀ g ∈ gs, g.shape ≠ .recursive) {g : GField} (hg : g ∈ gs) :
    ∃ e ∈ aEntries E gs, e.g = g := by
  rw [← aEntries_fst (E := E) gs h] at hg
  exact List.mem_map.mp hg

theorem findMember_entries : ∀ (gs : List GField), (∀ g ∈ gs, g.shape ≠ .recursive) → (varNames gs).Nodup →
    ∀ e ∈ aEntries E gs, findMember (classAlts E gs) (varNames gs) (under e.g.desc.name) = some ⟨e.member⟩
  | [], _, _, _, h => nomatch h
  | ⟨d, .recursive, o⟩ :: gs, hs, _, _, _ => absurd rfl (hs _ List.mem_cons_self)
  | ⟨d, .repeated, o⟩ :: gs, hs, hn, e, h => by
    have hs' : ∀ g ∈ gs, g.shape ≠ .recursive := fun g hg => hs g (List.mem_cons_of_mem _ hg)
    have hn' : (under d.name :: varNames gs).Nodup := hn
    rw [List.nodup_cons] at hn'
    unfold aEntries at h
    rcases List.mem_cons.mp h with rfl | h
    · exact if_pos rfl
    · obtain ⟨e', he', rfl⟩ := List.mem_map.mp h
      have hm := aEntries_mem hs' he'
      have hne : under e'.g.desc.name ≠ under d.name := fun eq => hn'.1 (eq ▸ mem_varNames hm (hs' _ hm))
      refine (if_neg hne).trans ?_
      exact congrArg (Option.map _) (findMember_entries gs hs' hn'.2 e' he')
  | ⟨d, .single, o⟩ :: gs, hs, hn, e, h => by
    have hs' : ∀ g ∈ gs, g.shape ≠ .recursive := fun g hg => hs g (List.mem_cons_of_mem _ hg)
    have hn' : (under d.name :: varNames gs).Nodup := hn
    rw [List.nodup_cons] at hn'
    unfold aEntries at h
    rcases List.mem_cons.mp h with rfl | h
    · exact if_pos rfl
    · obtain ⟨e', he', rfl⟩ := List.mem_map.mp h
      have hm := aEntries_mem hs' he'
      have hne : under e'.g.desc.name ≠ under d.name := fun eq => hn'.1 (eq ▸ mem_varNames hm (hs' _ hm))
      refine (if_neg hne).trans ?_
      exact congrArg (Option.map _) (findMember_entries gs hs' hn'.2 e' he')

/-- An object of a oneof: nothing is set, or one of the members. -/
theorem oneof_cases {gs : List GField} (h : ∀ g ∈ gs, g.shape ≠ .recursive) (hw : (classAlts E gs).WF)
    (hn : (classAlts E gs).numbers.Nodup) {o : OneofObj (classAlts E gs).cls.U} (ho : (classAlts E gs).spec.ObjInv o) :
    o = ⟨0, none⟩ ∨ ∃ e ∈ aEntries E gs, ∃ x, o = ⟨e.g.desc.number, some (e.member.injState x)⟩ := by
  obtain ⟨which, live⟩ := o
  cases live with
  | none =>
    have : which = 0 := ho
    exact .inl (by rw [this])
  | some u =>
    have hu : which = (classAlts E gs).spec.num u := ho.1
    have hm := (Alts.base _ hw hn).num_mem u
    rw [classAlts_numbers E gs h] at hm
    obtain ⟨g, hg, eg⟩ := List.mem_map.mp hm
    obtain ⟨e, he, rfl⟩ := mem_aEntries (E := E) h hg
    obtain ⟨x, rfl⟩ := e.member.of_num hw hn u eg.symm
    exact .inr ⟨e, he, x, by rw [hu, ← eg]⟩

end Gen

end EP
