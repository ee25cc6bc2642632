import Verif.Proof.GenServed
import Verif.Proof.Parts

/-!
# The objects a program makes with the functions of the generated class

They are those of the class of the declaration, so what holds for all objects of that class holds for them.
-/

namespace EP

section
variable {fs : Fields} {os : Oneofs} {num : Nat} {c : Card} {t : ElemTy} {a : Alts}

/-- A call of the interface, or none. -/
def Called (t : ElemTy) (x : t.Obj) (r : Res t.Obj) : Prop := r = .ok x ∨ ∃ f, t.Api t.Reach f ∧ f x = r

theorem Called.reach {t : ElemTy} {x y : t.Obj} (h : Called t x (.ok y)) (hx : t.Reach x) : t.Reach y := by
  rcases h with h | ⟨f, hf, e⟩
  · injection h with h
    exact h ▸ hx
  · exact .step (fun _ h => h) hf hx e

theorem Called.no_ub {t : ElemTy} {x : t.Obj} (h : Called t x .ub) (hw : t.WF) (hx : t.Reach x) : False := by
  rcases h with h | ⟨f, hf, e⟩
  · exact nomatch h
  · have hs := ElemTy.api_law t hw t.Reach f (fun z hz => ElemTy.reach_inv t hw hz) hf x (ElemTy.reach_inv t hw hx)
    rw [e] at hs
    exact hs

theorem Call.called (k : Call fs os) (hk : k.Legal) {x : (ElemTy.msg fs os).cls.State}
    {r : Res (ElemTy.msg fs os).cls.State} (h : k.run x = r) : Called (ElemTy.msg fs os) x r :=
  .inr ⟨_, k.sound hk, h⟩

theorem Card.api_common (c : Card) (t : ElemTy) {g : (c.cls t).State → Res (c.cls t).State}
    (hg : CommonApi (c.cls t) (c.Reach t) g) : c.Api t g := by
  cases c with
  | single => exact .inr ⟨t.Reach, fun _ h => h, t.api_common hg⟩
  | opt => exact .inr ⟨t.Reach, fun _ h => h, t.api_common hg⟩
  | rep cap => exact .inr ⟨t.RepReach cap, fun _ h => h, .inl hg⟩

theorem Slot.clearAccess_access (s : Slot fs num c t) (hc : c ≠ .opt) (idx : Nat) :
    s.clearAccess idx = s.access idx (c.cls t).clear := by
  induction s generalizing idx with
  | plain => rfl
  | optional => exact absurd rfl hc
  | repeated => rfl
  | afterPlain _ _ s ih => exact congrArg onRest (ih hc idx)
  | afterOptional _ _ s ih => exact congrArg onRest (ih hc (idx + 1))
  | afterRepeated _ _ _ s ih => exact congrArg onRest (ih hc idx)

theorem Slot.clear_called (s : Slot fs num c t) {x : (ElemTy.msg fs os).cls.State}
    {r : Res (ElemTy.msg fs os).cls.State} (h : s.clearCall (os := os) x = r) : Called (ElemTy.msg fs os) x r := by
  by_cases hc : c = .opt
  · subst hc
    exact (Call.clearField s).called trivial h
  · refine (Call.field s (c.cls t).clear).called (c.api_common t (.inl rfl)) (Eq.trans ?_ h)
    exact congrArg (fun g => onFields (O := os.cls.State) g x) (s.clearAccess_access hc 0).symm

theorem OneofSlot.clear_called (s : OneofSlot os a) (h : (ElemTy.msg fs os).WF) {x : (ElemTy.msg fs os).cls.State}
    {r : Res (ElemTy.msg fs os).cls.State} (hx : (ElemTy.msg fs os).Reach x)
    (e : onOneofs (s.access a.cls.clearObj) x = r) : Called (ElemTy.msg fs os) x r := by
  have hi := ElemTy.reach_inv _ h hx
  have h' := h
  simp only [ElemTy.WF] at h'
  have hd := (List.nodup_append.mp h'.2.2.1).2.1
  obtain ⟨h1, h2⟩ := s.wf h'.2.1 hd
  have h0 : 0 ∉ a.numbers := fun h => absurd (h'.2.2.2 0 (List.mem_append_right _ (s.mem h))).1 (by decide)
  have ho := s.inv_state hi.2.2
  have hA := (a.base h1 h2).toAltsInit
  cases hl : (s.state x.oneofs).live with
  | none =>
    unfold AltsSpec.ObjInv at ho
    rw [hl] at ho
    have hz : a.cls.clearObj (s.state x.oneofs) = .ok (s.state x.oneofs) := by
      have := clearObj_eq hA h0 (s.state x.oneofs) (s.inv_state hi.2.2)
      rw [this]
      generalize s.state x.oneofs = o at hl ho
      obtain ⟨w, l⟩ := o
      dsimp only at hl ho
      subst hl ho
      rfl
    have e : (s.access a.cls.clearObj x.oneofs >>= fun o => pure { x with oneofs := o } : Res _) = r := e
    rw [s.access_eq, hz, Res.ok_bind] at e
    have e : Res.ok { x with oneofs := s.setState x.oneofs (s.state x.oneofs) } = r := e
    rw [s.setState_state] at e
    exact .inl e.symm
  | some u =>
    unfold AltsSpec.ObjInv at ho
    rw [hl] at ho
    refine .inr ⟨onOneofs (s.access (clearMember a.cls (s.state x.oneofs).which)), ?_, ?_⟩
    · exact .inr (.inr ⟨_, s.api_clear _ (ho.1 ▸ hA.num_mem u), rfl⟩)
    · refine Eq.trans ?_ e
      show (s.access _ x.oneofs >>= _) = (s.access _ x.oneofs >>= _)
      rw [s.access_eq, s.access_eq]
      have : clearMember a.cls (s.state x.oneofs).which (s.state x.oneofs) = a.cls.clearObj (s.state x.oneofs) := if_pos rfl
      rw [this]

end
end EP

namespace EP.Gen

variable {E : Types} {K : Class} {fields : List FieldDesc} {oneofs : List Str}

section
variable {f : FieldDesc} {c : Card} {t : ElemTy} {s : Slot K.fs f.number c t} (h : FieldServed K f s)
include h

theorem FieldServed.change {G : (C : FieldClass) → C.State → Res C.State} (hG : LegalUse K f G) {x : K.Obj} {n : Str} {σ : Sig}
    (hn : (n = mutableName f.name ∧ σ = .mutable ∧ (f.type ≠ .enum ∨ f.repeated = true)) ∨ (f.repeated = true ∧
      ((n = mutableName f.name ∧ σ = .mutableAt) ∨ (n = setName f.name ∧ σ = .setAt) ∨ (n = addName f.name ∧ σ = .value)))) :
    Called (ElemTy.msg K.fs K.os) x (K.runOn n σ G x) := by
  refine (Call.field s (G (c.cls t))).called (hG.1 c t s) ?_
  rcases hn with ⟨rfl, rfl, ht⟩ | ⟨hr, ⟨rfl, rfl⟩ | ⟨rfl, rfl⟩ | ⟨rfl, rfl⟩⟩
  · exact (h.mutable ht G x).symm
  · exact (h.mutableAt hr G x).symm
  · exact (h.setAt hr G x).symm
  · exact (h.add hr G x).symm

end

/-- What a program does with the functions of the generated class are calls of the class of the declaration. -/
theorem Implements.called (h : Implements E K fields oneofs) {P : K.Obj → Prop} {x : K.Obj} {r : Res K.Obj}
    (hu : Use K fields oneofs P x r) (hP : ∀ z, P z → (ElemTy.msg K.fs K.os).Reach z)
    (hx : (ElemTy.msg K.fs K.os).Reach x) : Called (ElemTy.msg K.fs K.os) x r := by
  have served : ∀ f ∈ fields,
      (∃ c t, ∃ s : Slot K.fs f.number c t, FieldServed K f s ∧ (f.oneofIndex = none ∨ f.proto3Optional = true)) ∨
      (∃ i a t o, f.oneofIndex = some i ∧ f.proto3Optional = false ∧ oneofs[i]? = some o ∧
        ∃ (s : OneofSlot K.os a) (m : Member a f.number t), MemberServed K o f s m) := by
    intro f hf
    have := h.fields f hf
    unfold Served at this
    split at this
    · next ho =>
      obtain ⟨s, hs⟩ := this
      exact .inl ⟨_, _, s, hs, .inr ho⟩
    · next ho =>
      split at this
      · next hi =>
        split at this
        · obtain ⟨s, hs⟩ := this
          exact .inl ⟨_, _, s, hs, .inl hi⟩
        · obtain ⟨s, hs⟩ := this
          exact .inl ⟨_, _, s, hs, .inl hi⟩
      · next i hi =>
        obtain ⟨a, _, s, m, o, h1, h2⟩ := this
        exact .inr ⟨i, a, _, o, hi, by simpa using ho, h1, s, m, h2⟩
  cases hu with
  | clear =>
    rw [h.clear _ hx]
    exact Call.clear.called trivial rfl
  | assign hz =>
    rw [h.assign _ _ hx (hP _ hz)]
    exact (Call.assign _).called (hP _ hz) rfl
  | deserialize src fuel =>
    rw [h.deserialize src fuel _ hx]
    exact (Call.receive src fuel).called trivial rfl
  | clearField hf =>
    rcases served _ hf with ⟨c, t, s, hs, _⟩ | ⟨i, a, t, o, _, _, _, s, m, hs⟩
    · rw [hs.clear]
      exact s.clear_called rfl
    · rw [hs.clear _ hx]
      exact (Call.clearMember s m).called trivial rfl
  | clearOneof hf hi hp ho =>
    rcases served _ hf with ⟨c, t, s, hs, hc⟩ | ⟨j, a, t, o', h1, h2, h3, s, m, hs⟩
    · rw [hi, hp] at hc
      simp at hc
    · rw [hi] at h1
      injection h1 with h1
      subst h1
      rw [ho] at h3
      injection h3 with h3
      subst h3
      rw [hs.clearAll _ hx]
      exact s.clear_called h.wf hx rfl
  | @set z f hf hz hg =>
    have hz := hP _ hz
    have hp := msg_parts h.wf hz
    rcases served _ hf with ⟨c, t, s, hs, _⟩ | ⟨i, a, t, o, _, _, _, s, m, hs⟩
    · rw [hs.set]
      exact (Call.field s _).called (c.api_common t (.inr (.inr (.inl ⟨_, s.parts 0 _ hp.1, rfl⟩)))) rfl
    · rw [hs.get] at hg
      cases hv : m.get (fs := K.fs) s z with
      | ok v =>
        rw [hs.set _ _ v hx hz hv]
        have hv : t.Reach v := m.part v (s.parts _ hp.2 _ (m.readUnion_ok hv))
        exact (Call.member s m _).called (Card.api_common .single t (.inr (.inr (.inl ⟨v, hv, rfl⟩)))) rfl
      | ub => rw [hv] at hg; exact nomatch hg
      | diverge => rw [hv] at hg; exact nomatch hg
  | @change f n σ G hf hn hG =>
    unfold changers at hn
    rcases served _ hf with ⟨c, t, s, hs, hc⟩ | ⟨i, a, t, o, h1, h2, _, s, m, hs⟩
    · refine hs.change hG ?_
      split at hn
      · next hx => rcases hc with hc | hc <;> simp [hc] at hx
      · split at hn
        · next hr =>
          simp only [List.mem_cons, Prod.mk.injEq, List.not_mem_nil, or_false] at hn
          rcases hn with ⟨rfl, rfl⟩ | hn
          · exact .inl ⟨rfl, rfl, .inr hr⟩
          · exact .inr ⟨hr, hn⟩
        · split at hn
          · exact nomatch hn
          · next ht =>
            simp only [List.mem_singleton, Prod.mk.injEq] at hn
            exact .inl ⟨hn.1, hn.2, .inl ht⟩
    · have : n = mutableName f.name ∧ σ = .mutable ∧ (f.type = .string ∨ f.type = .bytes ∨ f.type = .message) := by
        split at hn
        · split at hn
          · next ht =>
            simp only [List.mem_singleton, Prod.mk.injEq] at hn
            exact ⟨hn.1, hn.2, ht⟩
          · exact nomatch hn
        · next hx => exact absurd ⟨by rw [h1]; simp, h2⟩ hx
      obtain ⟨rfl, rfl, ht⟩ := this
      rw [hs.mutable ht G _ hx]
      exact (Call.member s m _).called (hG.2 a t s m) rfl

/-- What a program makes with the generated class is an object of the class of the declaration. -/
theorem Implements.reach (h : Implements E K fields oneofs) {x : K.Obj} (hx : Made K fields oneofs x) :
    (ElemTy.msg K.fs K.os).Reach x := by
  induction hx with
  | new =>
    rw [h.new]
    exact .init
  | use _ _ hu e ihP ih =>
    subst e
    exact (h.called hu ihP ih).reach ih

end EP.Gen
