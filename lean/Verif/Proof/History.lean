import Verif.Proof.Accessors
import Verif.Proof.Record

/-! # The effect of decoding on single fields, and labelled histories -/

namespace EP
open Spec

variable {fs : Fields} {os : Oneofs}

/-- What decoding that met the given field numbers and ended with error `e` can have changed.  Data
members of numbers not met are as before; optional fields of numbers met are present; of a oneof the last
member met is set, or nothing if its record was rejected. -/
structure Decoded (e : Error) (ids : List Nat) (x y : (ElemTy.msg fs os).Obj) : Prop where
  fields : ∀ num c t (s : Slot fs num c t), num ∉ ids →
    s.member (os := os) y = s.member (os := os) x ∧
    s.get ((ElemTy.msg fs os).abs y).1 = s.get ((ElemTy.msg fs os).abs x).1
  flags : ∀ num t (s : Slot fs num .opt t), num ∈ ids →
    Option.isSome (α := t.Val) (s.get ((ElemTy.msg fs os).abs y).1) = true
  oneofs : ∀ a (s : OneofSlot os a), match (ids.filter (· ∈ a.numbers)).getLast? with
    | none => s.member (fs := fs) y = s.member (fs := fs) x
    | some num => s.which (fs := fs) y = num ∨ (s.which (fs := fs) y = 0 ∧ e ≠ .noErrors)

theorem Decoded.refl (e : Error) (x : (ElemTy.msg fs os).Obj) : Decoded (fs := fs) (os := os) e [] x x where
  fields _ _ _ _ _ := ⟨rfl, rfl⟩
  flags _ _ _ h := nomatch h
  oneofs _ _ := rfl

theorem Decoded.trans {e : Error} {i j : List Nat} {x y z : (ElemTy.msg fs os).Obj}
    (h₁ : Decoded (fs := fs) (os := os) .noErrors i x y) (h₂ : Decoded (fs := fs) (os := os) e j y z) :
    Decoded (fs := fs) (os := os) e (i ++ j) x z where
  fields num c t s hn := by
    rw [List.mem_append, not_or] at hn
    have g₁ := h₁.fields num c t s hn.1
    have g₂ := h₂.fields num c t s hn.2
    exact ⟨g₂.1.trans g₁.1, g₂.2.trans g₁.2⟩
  flags num t s hn := by
    by_cases hj : num ∈ j
    · exact h₂.flags num t s hj
    · rcases List.mem_append.mp hn with hi | hi
      · rw [(h₂.fields num .opt t s hj).2]
        exact h₁.flags num t s hi
      · exact absurd hi hj
  oneofs a s := by
    have g₁ := h₁.oneofs a s
    have g₂ := h₂.oneofs a s
    rw [List.filter_append, List.getLast?_append]
    revert g₁ g₂
    cases (j.filter (· ∈ a.numbers)).getLast? with
    | some num => exact fun _ g => g
    | none =>
      intro g₁ g₂
      have g₂ : s.member (fs := fs) z = s.member (fs := fs) y := g₂
      revert g₁
      show _ → (match (i.filter (· ∈ a.numbers)).getLast? with
        | none => _
        | some num => _ : Prop)
      cases (i.filter (· ∈ a.numbers)).getLast? with
      | none => exact fun g₁ => g₂.trans g₁
      | some num =>
        intro g₁
        have hw : s.which (fs := fs) z = s.which (fs := fs) y := congrArg OneofObj.which g₂
        rcases g₁ with g₁ | g₁
        · exact Or.inl (hw.trans g₁)
        · exact absurd rfl g₁.2

/-- One record. -/
theorem step_decoded (h : (ElemTy.msg fs os).WF) {β : Type} [ReadBuffer β] (fuel id : Nat) (wt : WireType)
    (b b' : β) (e : Error) (x y : (ElemTy.msg fs os).Obj) (hx : (ElemTy.msg fs os).Inv x)
    (hs : MsgObj.step (fs.cls 0) os.cls fuel id wt b x = .ok (e, b', y)) :
    Decoded (fs := fs) (os := os) e [id] x y := by
  have hw := h
  simp only [ElemTy.WF] at hw
  have hn := List.nodup_append.mp hw.2.2.1
  -- the record of a field
  have hfield : ∀ c t (s : Slot fs id c t), ∃ z, s.Written (os := os) x z true y := by
    intro c t s
    obtain ⟨f, f1, f2⟩ := s.step_written h hx fuel wt b
    rw [hs] at f1
    cases hd : (c.cls t).deserializeCheckType fuel b wt (s.member (os := os) x) with
    | ok r =>
      rw [hd] at f1
      obtain ⟨e', b'', z⟩ := r
      have : y = f z := by injection f1 with f1; injection f1 with _ f1; injection f1
      exact ⟨z, this ▸ f2 z⟩
    | ub => rw [hd] at f1; exact nomatch f1
    | diverge => rw [hd] at f1; exact nomatch f1
  -- the record of a oneof
  have honeof : ∀ a (s : OneofSlot os a), id ∈ a.numbers → ∃ o, s.Written (fs := fs) x o y ∧
      (o.which = id ∨ (o.which = 0 ∧ e ≠ .noErrors)) := by
    intro a s ha
    have f1 := s.step h ha x fuel wt b
    rw [hs] at f1
    obtain ⟨t, ⟨m⟩⟩ := a.exists_member id ha
    have hwa := s.wf hw.2.1 hn.2.1
    have h0 : 0 ∉ a.numbers := fun hm => by
      have := hw.2.2.2 0 (List.mem_append_right _ (s.mem hm))
      omega
    have e1 := m.deserializeObj hwa.1 hwa.2 h0 (s.inv_state hx.2.2) fuel b wt
    have e1 : a.cls.deserializeObj fuel id b wt (s.member (fs := fs) x) = _ := e1
    rw [e1] at f1
    cases hd : t.cls.deserializeCheckType fuel b wt (m.current (s.state x.oneofs)) with
    | ok r =>
      rw [hd] at f1
      obtain ⟨e', b'', z⟩ := r
      simp only [Res.ok_bind, Res.pure_eq, Res.ok.injEq, Prod.mk.injEq] at f1
      obtain ⟨rfl, _, rfl⟩ := f1
      refine ⟨_, s.written hx _, ?_⟩
      by_cases he : e = .noErrors
      · rw [if_pos he]; exact Or.inl rfl
      · rw [if_neg he]; exact Or.inr ⟨rfl, he⟩
    | ub => rw [hd] at f1; exact nomatch f1
    | diverge => rw [hd] at f1; exact nomatch f1
  -- other numbers
  have hunk : id ∉ fs.numbers ++ os.numbers → y = x := by
    intro hu
    rw [List.mem_append, not_or] at hu
    unfold MsgObj.step at hs
    have h1 := (Fields.dec_law fs 0 fs.nOptional hw.1 hn.1 (by omega)).none β fuel id wt b x.presence x.fields
      hu.1
    have h2 := (Oneofs.dec_law os hw.2.1 hn.2.1 (fun k hk =>
      (hw.2.2.2 k (List.mem_append_right _ hk)).1)).none β fuel id wt b x.oneofs hu.2
    rw [h1] at hs
    dsimp only at hs
    rw [h2] at hs
    dsimp only at hs
    split at hs
    · injection hs with hs; injection hs with _ hs; injection hs with _ hs; exact hs.symm
    · cases hk : skipUnknownField b wt with
      | ok r =>
        rw [hk] at hs
        injection hs with hs; injection hs with _ hs; injection hs with _ hs; exact hs.symm
      | ub => rw [hk] at hs; exact nomatch hs
      | diverge => rw [hk] at hs; exact nomatch hs
  have hside : ∀ a (s : OneofSlot os a), id ∉ a.numbers → s.member (fs := fs) y = s.member (fs := fs) x := by
    intro a s ha
    by_cases hf : id ∈ fs.numbers
    · obtain ⟨c, t, ⟨s'⟩⟩ := fs.exists_slot id hf
      obtain ⟨z, hz⟩ := hfield c t s'
      exact congrArg s.state hz.oneofs
    · by_cases ho : id ∈ os.numbers
      · obtain ⟨a', ha', ⟨s'⟩⟩ := os.exists_slot id ho
        obtain ⟨o, hz, _⟩ := honeof a' s' ha'
        exact hz.others a s (fun e => ha (e ▸ ha'))
      · rw [hunk (by rw [List.mem_append, not_or]; exact ⟨hf, ho⟩)]
  refine ⟨fun num c t s hne => ?_, fun num t s hmem => ?_, fun a s => ?_⟩
  · have hne : num ≠ id := fun e => hne (e ▸ List.mem_singleton.mpr rfl)
    by_cases hf : id ∈ fs.numbers
    · obtain ⟨c', t', ⟨s'⟩⟩ := fs.exists_slot id hf
      obtain ⟨z, hz⟩ := hfield c' t' s'
      refine ⟨hz.others num c t s hne, ?_⟩
      rw [hz.abs]
      exact s.get_put_ne s' hne _ _
    · by_cases ho : id ∈ os.numbers
      · obtain ⟨a', ha', ⟨s'⟩⟩ := os.exists_slot id ho
        obtain ⟨o, hz, _⟩ := honeof a' s' ha'
        refine ⟨congrArg (s.state 0) hz.fields.2, ?_⟩
        rw [hz.abs]
      · rw [hunk (by rw [List.mem_append, not_or]; exact ⟨hf, ho⟩)]
        exact ⟨rfl, rfl⟩
  · have hmem : num = id := List.mem_singleton.mp hmem
    subst hmem
    obtain ⟨z, hz⟩ := hfield .opt t s
    rw [hz.abs]
    have := s.get_put ((ElemTy.msg fs os).abs x).1 (Card.observe .opt t true (t.abs z))
    exact (congrArg (Option.isSome (α := t.Val)) this).trans rfl
  · by_cases ha : id ∈ a.numbers
    · have : ([id].filter (· ∈ a.numbers)).getLast? = some id := by simp [ha]
      rw [this]
      obtain ⟨o, hz, ho⟩ := honeof a s ha
      have : s.which (fs := fs) y = o.which := congrArg OneofObj.which hz.member
      dsimp only
      rw [this]
      exact ho
    · have : ([id].filter (· ∈ a.numbers)).getLast? = none := by simp [ha]
      rw [this]
      exact hside a s ha

section
variable {β : Type} [ReadBuffer β] (M : ReadModel β)

theorem msg_step_safe (h : (ElemTy.msg fs os).WF) (fuel id : Nat) (wt : WireType) (b : β)
    (x : (ElemTy.msg fs os).Obj) (hb : M.Inv b) (hx : (ElemTy.msg fs os).Inv x) :
    (MsgObj.step (fs.cls 0) os.cls fuel id wt b x).Safe False fun r =>
      M.Inv r.2.1 ∧ (ElemTy.msg fs os).Inv r.2.2 := by
  simp only [ElemTy.WF] at h
  have hd := List.nodup_append.mp h.2.2.1
  have h₁ := Fields.safe_law fs 0 fs.nOptional h.1 (by omega)
  rw [Nat.zero_add] at h₁
  exact ((step_safe h₁ (Oneofs.safe_law os h.2.1 hd.2.1
    (fun k hk => (h.2.2.2 k (List.mem_append_right _ hk)).1)) M fuel id wt b x hb hx).weaken
      False.elim).mono fun r hr => ⟨hr.1, hr.2.1⟩

/-- A loop whose steps keep `J` and `P` and relate objects by `Q`. -/
theorem tagLoop_rel {σ : Type} (step : Nat → WireType → β → σ → Res (Error × β × σ)) {P : σ → Prop}
    {Q : Error → List Nat → σ → σ → Prop} (hrefl : ∀ e x, Q e [] x x)
    (htrans : ∀ e i j x y z, Q .noErrors i x y → Q e j y z → Q e (i ++ j) x z)
    (hstep : ∀ id wt b x e b' y, M.Inv b → P x → step id wt b x = .ok (e, b', y) →
      M.Inv b' ∧ P y ∧ Q e [id] x y)
    (k : Nat) (b b' : β) (e : Error) (x y : σ) (hb : M.Inv b) (hx : P x)
    (hr : tagLoop step k b x = .ok (e, b', y)) : Q e (tagNumbers step k b x) x y := by
  induction k generalizing b x with
  | zero => exact nomatch hr
  | succ k ih =>
    rw [tagLoop] at hr
    unfold tagNumbers
    have ht := tag_class M b hb
    cases hd : deserializeTag b with
    | ub => rw [hd] at ht; exact ht.elim
    | diverge => rw [hd] at ht; exact ht.elim
    | ok r =>
      rw [hd] at ht hr
      obtain ⟨r, b₁⟩ := r
      rw [Res.ok_bind] at hr
      cases r with
      | error e' =>
        injection hr with hr
        injection hr with _ hr
        injection hr with _ hr
        exact hr ▸ hrefl e x
      | ok r =>
        obtain ⟨wt, id⟩ := r
        dsimp only at hr ⊢
        cases hst : step id wt b₁ x with
        | ub => rw [hst] at hr; exact nomatch hr
        | diverge => rw [hst] at hr; exact nomatch hr
        | ok r =>
          obtain ⟨e₁, b₂, x₂⟩ := r
          rw [hst, Res.ok_bind] at hr
          dsimp only at hr ⊢
          obtain ⟨g1, g2, g3⟩ := hstep id wt b₁ x e₁ b₂ x₂ ht.1 hx hst
          by_cases he : e₁ = .noErrors
          · subst he
            rw [if_pos rfl] at hr
            exact htrans e [id] _ x x₂ y g3 (ih b₂ x₂ g1 g2 hr)
          · rw [if_neg he] at hr
            injection hr with hr
            injection hr with h1 hr
            injection hr with _ h2
            subst h1 h2
            cases e₁ <;> first | exact absurd rfl he | exact g3

/-- `deserialize` of any input. -/
theorem deserialize_decoded (h : (ElemTy.msg fs os).WF) (fuel : Nat) (b b' : β) (e : Error)
    (x y : (ElemTy.msg fs os).Obj) (hb : M.Inv b) (hx : (ElemTy.msg fs os).Inv x)
    (hr : (ElemTy.msg fs os).cls.deserialize fuel b x = .ok (e, b', y)) :
    Decoded (fs := fs) (os := os) e (met fs os fuel b x) x y := by
  refine tagLoop_rel M (MsgObj.step (fs.cls 0) os.cls fuel) (P := (ElemTy.msg fs os).Inv)
    (Q := Decoded (fs := fs) (os := os)) Decoded.refl (fun e i j x y z h₁ h₂ => h₁.trans h₂)
    (fun id wt b x e b' y hb hx hs => ?_) fuel b b' e x y hb hx hr
  have := msg_step_safe M h fuel id wt b x hb hx
  rw [hs] at this
  exact ⟨this.1, this.2, step_decoded h fuel id wt b b' e x y hx hs⟩

/-- `deserialize_check_type` of any input. -/
theorem check_decoded (h : (ElemTy.msg fs os).WF) (fuel : Nat) (b b' : β) (wt : WireType) (e : Error)
    (x y : (ElemTy.msg fs os).Obj) (hb : M.Inv b) (hx : (ElemTy.msg fs os).Inv x)
    (hr : (ElemTy.msg fs os).cls.deserializeCheckType fuel b wt x = .ok (e, b', y)) :
    Decoded (fs := fs) (os := os) e (metNested fs os fuel b wt x) x y := by
  have hr : MsgObj.deserializeCheckType (fs.cls 0) os.cls fuel b wt x = .ok (e, b', y) := hr
  unfold MsgObj.deserializeCheckType at hr
  unfold metNested
  by_cases hwt : wt = .lengthDelimited
  · rw [if_pos hwt] at hr ⊢
    have hv := deserializeVarint_total M 32 (by decide) b hb
    cases hd : deserializeVarint 32 b with
    | ub => rw [hd] at hr; exact nomatch hr
    | diverge => rw [hd] at hr; exact nomatch hr
    | ok r =>
      obtain ⟨r, b₁⟩ := r
      rw [hd] at hr hv
      rw [Res.ok_bind] at hr
      cases r with
      | error e' =>
        dsimp only at hr
        injection hr with hr; injection hr with _ hr; injection hr with _ hr
        exact hr ▸ Decoded.refl e x
      | ok v =>
        dsimp only at hr ⊢
        cases hq : MsgObj.deserialize (fs.cls 0) os.cls fuel (Section.new b₁ v.toNat) x with
        | ub => rw [hq] at hr; exact nomatch hr
        | diverge => rw [hq] at hr; exact nomatch hr
        | ok r =>
          obtain ⟨e', s, z⟩ := r
          rw [hq, Res.ok_bind] at hr
          injection hr with hr; injection hr with h1 hr; injection hr with _ h2
          subst h1 h2
          exact deserialize_decoded (Section.model M (M.view b₁)) h fuel _ s e' x z
            (Section.new_inv M b₁ v.toNat hv.1) hx hq
  · rw [if_neg hwt] at hr ⊢
    injection hr with hr; injection hr with _ hr; injection hr with _ hr
    exact hr ▸ Decoded.refl e x

end

/-! ## The labelled calls are all the calls -/

theorem Fields.api_slot : (fs : Fields) → (idx : Nat) → (f : _) → fs.Api idx f →
    (∃ num c t, ∃ (s : Slot fs num c t) (g : _), c.Api t g ∧ f = s.access idx g) ∨
    (∃ num t, ∃ s : Slot fs num .opt t, f = s.clearAccess idx)
  | .nil, _, _, h => by simp only [Fields.Api] at h
  | .plain n t rest, idx, f, h => by
    simp only [Fields.Api] at h
    rcases h with ⟨g, hg, rfl⟩ | ⟨g, hg, rfl⟩
    · exact Or.inl ⟨n, .single, t, .plain n t rest, g, hg, rfl⟩
    · rcases Fields.api_slot rest idx g hg with ⟨num, c, u, s, g', hg', rfl⟩ | ⟨num, u, s, rfl⟩
      · exact Or.inl ⟨num, c, u, .afterPlain _ _ s, g', hg', rfl⟩
      · exact Or.inr ⟨num, u, .afterPlain _ _ s, rfl⟩
  | .optional n t rest, idx, f, h => by
    simp only [Fields.Api] at h
    rcases h with ⟨g, hg, rfl⟩ | rfl | ⟨g, hg, rfl⟩
    · exact Or.inl ⟨n, .opt, t, .optional n t rest, g, hg, rfl⟩
    · exact Or.inr ⟨n, t, .optional n t rest, rfl⟩
    · rcases Fields.api_slot rest (idx + 1) g hg with ⟨num, c, u, s, g', hg', rfl⟩ | ⟨num, u, s, rfl⟩
      · exact Or.inl ⟨num, c, u, .afterOptional _ _ s, g', hg', rfl⟩
      · exact Or.inr ⟨num, u, .afterOptional _ _ s, rfl⟩
  | .repeated n cap t rest, idx, f, h => by
    simp only [Fields.Api] at h
    rcases h with ⟨g, hg, rfl⟩ | ⟨g, hg, rfl⟩
    · exact Or.inl ⟨n, .rep cap, t, .repeated n cap t rest, g, hg, rfl⟩
    · rcases Fields.api_slot rest idx g hg with ⟨num, c, u, s, g', hg', rfl⟩ | ⟨num, u, s, rfl⟩
      · exact Or.inl ⟨num, c, u, .afterRepeated _ _ _ s, g', hg', rfl⟩
      · exact Or.inr ⟨num, u, .afterRepeated _ _ _ s, rfl⟩

theorem Alts.api_member : (a : Alts) → (id : Nat) → (f : _) → a.Api id f →
    ∃ t, ∃ (m : Member a id t) (g : _), MemberApi t.cls.init t.Api g ∧ f = m.access g
  | .nil, _, _, h => by simp only [Alts.Api] at h
  | .cons n t rest, id, f, h => by
    simp only [Alts.Api] at h
    rcases h with ⟨rfl, g, hg, rfl⟩ | ⟨g, hg, rfl⟩
    · exact ⟨t, .here _ t rest, g, hg, rfl⟩
    · obtain ⟨u, m, g', hg', rfl⟩ := Alts.api_member rest id g hg
      exact ⟨u, .after _ _ m, g', hg', rfl⟩

theorem Oneofs.api_slot : (os : Oneofs) → (f : _) → os.Api f →
    (∃ a num t, ∃ (s : OneofSlot os a) (m : Member a num t) (g : _), MemberApi t.cls.init t.Api g ∧
      f = s.access (touchMember a.cls num (m.access g))) ∨
    (∃ a num t, ∃ (s : OneofSlot os a) (_ : Member a num t), f = s.access (clearMember a.cls num))
  | .nil, _, h => by simp only [Oneofs.Api] at h
  | .cons a rest, f, h => by
    simp only [Oneofs.Api] at h
    rcases h with ⟨id, g, hg, rfl⟩ | ⟨id, hid, rfl⟩ | ⟨g, hg, rfl⟩
    · obtain ⟨t, m, g', hg', rfl⟩ := a.api_member id g hg
      exact Or.inl ⟨a, id, t, .here a rest, m, g', hg', rfl⟩
    · obtain ⟨t, ⟨m⟩⟩ := a.exists_member id hid
      exact Or.inr ⟨a, id, t, .here a rest, m, rfl⟩
    · rcases Oneofs.api_slot rest g hg with ⟨a', num, t, s, m, g', hg', rfl⟩ | ⟨a', num, t, s, m, rfl⟩
      · exact Or.inl ⟨a', num, t, .after _ s, m, g', hg', rfl⟩
      · exact Or.inr ⟨a', num, t, .after _ s, m, rfl⟩

/-- Every call of the interface is one of the labelled calls. -/
theorem Call.complete {R : (ElemTy.msg fs os).cls.State → Prop} {f : _} (hR : ∀ z, R z → (ElemTy.msg fs os).Reach z)
    (hf : (ElemTy.msg fs os).Api R f) : ∃ c : Call fs os, c.Legal ∧ f = c.run := by
  simp only [ElemTy.Api] at hf
  rcases hf with (rfl | ⟨y, hy, rfl⟩ | ⟨y, hy, rfl⟩ | ⟨src, fuel, rfl⟩ | ⟨src, fuel, wt, rfl⟩) | ⟨g, hg, rfl⟩ | ⟨g, hg, rfl⟩
  · exact ⟨.clear, trivial, rfl⟩
  · exact ⟨.assign y, hR y hy, rfl⟩
  · exact ⟨.assign y, hR y hy, rfl⟩
  · exact ⟨.receive src fuel, trivial, rfl⟩
  · exact ⟨.receiveAs src fuel wt, trivial, rfl⟩
  · rcases fs.api_slot 0 g hg with ⟨num, c, t, s, g', hg', rfl⟩ | ⟨num, t, s, rfl⟩
    · exact ⟨.field s g', hg', rfl⟩
    · exact ⟨.clearField s, trivial, rfl⟩
  · rcases os.api_slot g hg with ⟨a, num, t, s, m, g', hg', rfl⟩ | ⟨a, num, t, s, m, rfl⟩
    · exact ⟨.member s m g', hg', rfl⟩
    · exact ⟨.clearMember s m, trivial, rfl⟩

theorem Slot.api_access {num : Nat} {c : Card} {t : ElemTy} (s : Slot fs num c t) (idx : Nat) (g : _) (hg : c.Api t g) :
    fs.Api idx (s.access idx g) := by
  induction s generalizing idx with
  | plain => simp only [Fields.Api]; exact Or.inl ⟨g, hg, rfl⟩
  | optional => simp only [Fields.Api]; exact Or.inl ⟨g, hg, rfl⟩
  | repeated => simp only [Fields.Api]; exact Or.inl ⟨g, hg, rfl⟩
  | afterPlain _ _ s ih => simp only [Fields.Api]; exact Or.inr ⟨_, ih idx g hg, rfl⟩
  | afterOptional _ _ s ih => simp only [Fields.Api]; exact Or.inr (Or.inr ⟨_, ih (idx + 1) g hg, rfl⟩)
  | afterRepeated _ _ _ s ih => simp only [Fields.Api]; exact Or.inr ⟨_, ih idx g hg, rfl⟩

theorem Slot.api_clear {num : Nat} {c : Card} {t : ElemTy} (s : Slot fs num c t) (hc : c = .opt) (idx : Nat) :
    fs.Api idx (s.clearAccess idx) := by
  induction s generalizing idx with
  | plain => exact nomatch hc
  | optional => simp only [Fields.Api]; exact Or.inr (Or.inl rfl)
  | repeated => exact nomatch hc
  | afterPlain _ _ s ih => simp only [Fields.Api]; exact Or.inr ⟨_, ih hc idx, rfl⟩
  | afterOptional _ _ s ih => simp only [Fields.Api]; exact Or.inr (Or.inr ⟨_, ih hc (idx + 1), rfl⟩)
  | afterRepeated _ _ _ s ih => simp only [Fields.Api]; exact Or.inr ⟨_, ih hc idx, rfl⟩

theorem Member.api_access {a : Alts} {num : Nat} {t : ElemTy} (m : Member a num t) (g : _)
    (hg : MemberApi t.cls.init t.Api g) : a.Api num (m.access g) := by
  induction m with
  | here => rw [Alts.Api]; exact Or.inl ⟨rfl, g, hg, rfl⟩
  | after _ _ m ih => simp only [Alts.Api]; exact Or.inr ⟨_, ih g hg, rfl⟩

theorem OneofSlot.api_touch {a : Alts} (s : OneofSlot os a) (id : Nat) (g : _) (hg : a.Api id g) :
    os.Api (s.access (touchMember a.cls id g)) := by
  induction s with
  | here => simp only [Oneofs.Api]; exact Or.inl ⟨id, g, hg, rfl⟩
  | after _ s ih => simp only [Oneofs.Api]; exact Or.inr (Or.inr ⟨_, ih g hg, rfl⟩)

theorem OneofSlot.api_clear {a : Alts} (s : OneofSlot os a) (id : Nat) (hid : id ∈ a.numbers) :
    os.Api (s.access (clearMember a.cls id)) := by
  induction s with
  | here => simp only [Oneofs.Api]; exact Or.inr (Or.inl ⟨id, hid, rfl⟩)
  | after _ s ih => simp only [Oneofs.Api]; exact Or.inr (Or.inr ⟨_, ih hid, rfl⟩)

/-- Every labelled call is a call of the interface. -/
theorem Call.sound (c : Call fs os) (hc : c.Legal) : (ElemTy.msg fs os).Api (ElemTy.msg fs os).Reach c.run := by
  simp only [ElemTy.Api]
  cases c with
  | clear => exact Or.inl (Or.inl rfl)
  | assign y => exact Or.inl (Or.inr (Or.inl ⟨y, hc, rfl⟩))
  | receive src fuel => exact Or.inl (Or.inr (Or.inr (Or.inr (Or.inl ⟨src, fuel, rfl⟩))))
  | receiveAs src fuel wt => exact Or.inl (Or.inr (Or.inr (Or.inr (Or.inr ⟨src, fuel, wt, rfl⟩))))
  | field s g => exact Or.inr (Or.inl ⟨_, s.api_access 0 g hc, rfl⟩)
  | clearField s => exact Or.inr (Or.inl ⟨_, s.api_clear rfl 0, rfl⟩)
  | member s m g => exact Or.inr (Or.inr ⟨_, s.api_touch _ _ (m.api_access g hc), rfl⟩)
  | clearMember s m => exact Or.inr (Or.inr ⟨_, s.api_clear _ m.mem, rfl⟩)

/-- The reachable states are those with a history. -/
theorem reach_iff_history (x : (ElemTy.msg fs os).cls.State) :
    (ElemTy.msg fs os).Reach x ↔ ∃ cs : List (Call fs os), History cs x := by
  constructor
  · intro hx
    induction hx with
    | init => exact ⟨[], .new⟩
    | step hR hf _ he _ ih =>
      obtain ⟨cs, hcs⟩ := ih
      obtain ⟨c, hc, rfl⟩ := Call.complete hR hf
      exact ⟨cs ++ [c], .call c hcs hc he⟩
  · rintro ⟨cs, hcs⟩
    induction hcs with
    | new => exact .init
    | call c _ hl he ih => exact .step (fun _ h => h) (c.sound hl) ih he

end EP
