import Verif.Proof.Safety
import Verif.Spec.Slot

/-! # Access to one field of a message object -/

namespace EP

variable {fs : Fields} {num : Nat} {c : Card} {t : ElemTy}

namespace Slot

theorem wf (s : Slot fs num c t) (h : fs.WF) :
    t.WF ∧ ∀ cap, c = .rep cap → cap < 2147483648 := by
  induction s with
  | plain => simp only [Fields.WF] at h; exact ⟨h.1, fun _ h => nomatch h⟩
  | optional => simp only [Fields.WF] at h; exact ⟨h.1, fun _ h => nomatch h⟩
  | repeated num cap =>
    simp only [Fields.WF] at h
    exact ⟨h.2.1, fun _ e => by injection e with e; subst e; exact h.1⟩
  | afterPlain _ _ s ih => simp only [Fields.WF] at h; exact ih h.2
  | afterOptional _ _ s ih => simp only [Fields.WF] at h; exact ih h.2
  | afterRepeated _ _ _ s ih => simp only [Fields.WF] at h; exact ih h.2.2

theorem bit_ge (s : Slot fs num c t) (idx : Nat) : idx ≤ s.bit idx := by
  induction s generalizing idx with
  | plain => exact Nat.le_refl _
  | optional => exact Nat.le_refl _
  | repeated => exact Nat.le_refl _
  | afterPlain _ _ s ih => exact ih idx
  | afterOptional _ _ s ih => exact Nat.le_of_succ_le (ih (idx + 1))
  | afterRepeated _ _ _ s ih => exact ih idx

theorem bit_lt (s : Slot fs num .opt t) (idx : Nat) : s.bit idx < idx + fs.nOptional := by
  generalize hc : Card.opt = c at s
  induction s generalizing idx with
  | plain => exact nomatch hc
  | optional => simp only [bit, Fields.nOptional]; omega
  | repeated => exact nomatch hc
  | afterPlain _ _ s ih => exact ih idx hc
  | afterOptional _ _ s ih => have := ih (idx + 1) hc; simp only [bit, Fields.nOptional]; omega
  | afterRepeated _ _ _ s ih => exact ih idx hc

/-- The value of the field, as observed. -/
theorem get_abs (s : Slot fs num c t) (idx : Nat) (has : Nat → Bool) (x : (fs.cls idx).State) :
    s.get ((fs.spec idx).abs has x) =
      c.observe t (has (s.bit idx)) ((c.spec t).abs (s.state idx x)) := by
  induction s generalizing idx with
  | plain => rfl
  | optional => rfl
  | repeated => rfl
  | afterPlain _ _ s ih => exact ih idx x.2
  | afterOptional _ _ s ih => exact ih (idx + 1) x.2
  | afterRepeated _ _ _ s ih => exact ih idx x.2

theorem inv_state (s : Slot fs num c t) (idx : Nat) {has : Nat → Bool} {x : (fs.cls idx).State}
    (h : (fs.spec idx).Inv has x) : (c.spec t).Inv (s.state idx x) := by
  induction s generalizing idx with
  | plain => exact h.1
  | optional => exact h.1.1
  | repeated => exact h.1
  | afterPlain _ _ s ih => exact ih idx h.2
  | afterOptional _ _ s ih => exact ih (idx + 1) h.2
  | afterRepeated _ _ _ s ih => exact ih idx h.2

theorem state_absent' (s : Slot fs num c t) (hc : c = .opt) (idx : Nat) {has : Nat → Bool}
    {x : (fs.cls idx).State} (h : (fs.spec idx).Inv has x) (hb : has (s.bit idx) = false) :
    s.state idx x = (c.cls t).init := by
  induction s generalizing idx with
  | plain => exact nomatch hc
  | optional => exact h.1.2 hb
  | repeated => exact nomatch hc
  | afterPlain _ _ s ih => exact ih hc idx h.2 hb
  | afterOptional _ _ s ih => exact ih hc (idx + 1) h.2 hb
  | afterRepeated _ _ _ s ih => exact ih hc idx h.2 hb

theorem state_absent (s : Slot fs num .opt t) (idx : Nat) {has : Nat → Bool} {x : (fs.cls idx).State}
    (h : (fs.spec idx).Inv has x) (hb : has (s.bit idx) = false) : s.state idx x = t.cls.init :=
  s.state_absent' rfl idx h hb

theorem state_setState (s : Slot fs num c t) (idx : Nat) (x : (fs.cls idx).State) (w : (c.cls t).State) :
    s.state idx (s.setState idx x w) = w := by
  induction s generalizing idx with
  | plain => rfl
  | optional => rfl
  | repeated => rfl
  | afterPlain _ _ s ih => exact ih idx x.2 w
  | afterOptional _ _ s ih => exact ih (idx + 1) x.2 w
  | afterRepeated _ _ _ s ih => exact ih idx x.2 w

/-- Presence flags after a change to the field: only its own flag may differ. -/
structure Flags (s : Slot fs num c t) (idx : Nat) (has has' : Nat → Bool) : Prop where
  other : ∀ i, i ≠ s.bit idx → has' i = has i
  same : c ≠ .opt → has' = has

/-- Replacing the data member replaces the value of the field and nothing else. -/
theorem abs_setState (s : Slot fs num c t) (h : fs.WF) (idx : Nat) (has has' : Nat → Bool)
    (x : (fs.cls idx).State) (w : (c.cls t).State) (hf : s.Flags idx has has') :
    (fs.spec idx).abs has' (s.setState idx x w) =
      s.put ((fs.spec idx).abs has x) (c.observe t (has' (s.bit idx)) ((c.spec t).abs w)) := by
  induction s generalizing idx with
  | plain =>
    have := hf.same (by simp)
    subst this
    rfl
  | optional num t rest =>
    simp only [Fields.WF] at h
    have hb := Fields.base rest (idx + 1) _ h.2 (Nat.le_refl _)
    have := (hb.congr has' has x.2 (fun i h1 _ => hf.other i (by simp only [bit]; omega))).1
    exact congrArg (Prod.mk _) this
  | repeated =>
    have := hf.same (by simp)
    subst this
    rfl
  | afterPlain m u s ih =>
    simp only [Fields.WF] at h
    exact congrArg (Prod.mk _) (ih h.2 idx x.2 w ⟨hf.other, hf.same⟩)
  | afterOptional m u s ih =>
    simp only [Fields.WF] at h
    have e := ih h.2 (idx + 1) x.2 w ⟨hf.other, hf.same⟩
    have e1 : has' idx = has idx := hf.other idx (by have := s.bit_ge (idx + 1); simp only [bit]; omega)
    refine Prod.ext ?_ e
    show (if has' idx then _ else _) = (if has idx then _ else _)
    exact e1 ▸ rfl
  | afterRepeated m k u s ih =>
    simp only [Fields.WF] at h
    exact congrArg (Prod.mk _) (ih h.2.2 idx x.2 w ⟨hf.other, hf.same⟩)

theorem inv_setState (s : Slot fs num c t) (h : fs.WF) (idx : Nat) {has has' : Nat → Bool}
    {x : (fs.cls idx).State} {w : (c.cls t).State} (hf : s.Flags idx has has')
    (hx : (fs.spec idx).Inv has x) (hw : (c.spec t).Inv w)
    (hi : c = .opt → has' (s.bit idx) = false → w = (c.cls t).init) :
    (fs.spec idx).Inv has' (s.setState idx x w) := by
  induction s generalizing idx with
  | plain =>
    have := hf.same (by simp)
    subst this
    exact ⟨hw, hx.2⟩
  | optional num t rest =>
    simp only [Fields.WF] at h
    have hb := Fields.base rest (idx + 1) _ h.2 (Nat.le_refl _)
    exact ⟨⟨hw, hi rfl⟩, (hb.congr has has' x.2 (fun i h1 _ => (hf.other i (by simp only [bit]; omega)).symm)).2 hx.2⟩
  | repeated =>
    have := hf.same (by simp)
    subst this
    exact ⟨hw, hx.2⟩
  | afterPlain m u s ih =>
    simp only [Fields.WF] at h
    exact ⟨hx.1, ih h.2 idx ⟨hf.other, hf.same⟩ hx.2 hw hi⟩
  | afterOptional m u s ih =>
    simp only [Fields.WF] at h
    have e1 : has' idx = has idx := hf.other idx (by have := s.bit_ge (idx + 1); simp only [bit]; omega)
    exact ⟨⟨hx.1.1, fun hh => hx.1.2 (e1 ▸ hh)⟩, ih h.2 (idx + 1) ⟨hf.other, hf.same⟩ hx.2 hw hi⟩
  | afterRepeated m k u s ih =>
    simp only [Fields.WF] at h
    exact ⟨hx.1, ih h.2.2 idx ⟨hf.other, hf.same⟩ hx.2 hw hi⟩

/-- What decoding does to the presence flags. -/
def _root_.EP.Card.mark (c : Card) (i : Nat) (p : Presence) : Res Presence :=
  match c with
  | .opt => Presence.setBit p i
  | _ => pure p

end Slot

section
variable {β : Type} [ReadBuffer β] (C : FieldClass) (R : FieldsClass) (n idx fuel id : Nat) (wt : WireType)
  (b : β) (p : Presence)

theorem plain_dispatch_self (s : C.State × R.State) :
    (FieldsClass.plain n C R).dispatch fuel n wt b p s = some (do
      let (e, b, x) ← C.deserializeCheckType fuel b wt s.1
      pure (e, b, p, (x, s.2))) := by
  simp only [FieldsClass.plain, ↓reduceIte]

theorem optional_dispatch_self (s : C.State × R.State) :
    (FieldsClass.optional n idx C R).dispatch fuel n wt b p s = some (do
      let p ← Presence.setBit p idx
      let (e, b, x) ← C.deserializeCheckType fuel b wt s.1
      pure (e, b, p, (x, s.2))) := by
  simp only [FieldsClass.optional, ↓reduceIte]

theorem plain_dispatch_ne {γ : Type} (h : id ≠ n) (s : C.State × R.State) {m : Res Presence}
    {d : Res (Error × β × γ)} {f : γ → R.State}
    (hr : R.dispatch fuel id wt b p s.2 = some (do
      let p ← m
      let (e, b, z) ← d
      pure (e, b, p, f z))) :
    (FieldsClass.plain n C R).dispatch fuel id wt b p s = some (do
      let p ← m
      let (e, b, z) ← d
      pure (e, b, p, (s.1, f z))) := by
  simp only [FieldsClass.plain, h, ↓reduceIte, hr]
  cases m <;> cases d <;> rfl

theorem optional_dispatch_ne {γ : Type} (h : id ≠ n) (s : C.State × R.State) {m : Res Presence}
    {d : Res (Error × β × γ)} {f : γ → R.State}
    (hr : R.dispatch fuel id wt b p s.2 = some (do
      let p ← m
      let (e, b, z) ← d
      pure (e, b, p, f z))) :
    (FieldsClass.optional n idx C R).dispatch fuel id wt b p s = some (do
      let p ← m
      let (e, b, z) ← d
      pure (e, b, p, (s.1, f z))) := by
  simp only [FieldsClass.optional, h, ↓reduceIte, hr]
  cases m <;> cases d <;> rfl

end

namespace Slot

/-- The `case` label of the field decodes into its data member. -/
theorem dispatch (s : Slot fs num c t) (h : fs.numbers.Nodup) (idx : Nat) {β : Type} [ReadBuffer β]
    (fuel : Nat) (wt : WireType) (b : β) (p : Presence) (x : (fs.cls idx).State) :
    (fs.cls idx).dispatch fuel num wt b p x = some (do
      let p ← c.mark (s.bit idx) p
      let (e, b, z) ← (c.cls t).deserializeCheckType fuel b wt (s.state idx x)
      pure (e, b, p, s.setState idx x z)) := by
  induction s generalizing idx with
  | plain num t rest => exact plain_dispatch_self _ _ _ _ _ _ _ x
  | optional num t rest => exact optional_dispatch_self _ _ _ _ _ _ _ _ x
  | repeated num cap t rest => exact plain_dispatch_self (repeatedClass t.cls cap) _ _ _ _ _ _ x
  | afterPlain m u s ih =>
    obtain ⟨h1, h2⟩ := List.nodup_cons.mp h
    have hne : _ ≠ m := fun e => h1 (e ▸ s.mem)
    exact plain_dispatch_ne _ _ _ _ _ _ _ _ hne x (ih h2 idx x.2)
  | afterOptional m u s ih =>
    obtain ⟨h1, h2⟩ := List.nodup_cons.mp h
    have hne : _ ≠ m := fun e => h1 (e ▸ s.mem)
    exact optional_dispatch_ne _ _ _ _ _ _ _ _ _ hne x (ih h2 (idx + 1) x.2)
  | afterRepeated m k u s ih =>
    obtain ⟨h1, h2⟩ := List.nodup_cons.mp h
    have hne : _ ≠ m := fun e => h1 (e ▸ s.mem)
    exact plain_dispatch_ne (repeatedClass u.cls k) _ _ _ _ _ _ _ hne x (ih h2 idx x.2)

end Slot

/-! ## Oneofs -/

namespace OneofSlot
variable {os : Oneofs} {a : Alts}

theorem wf (s : OneofSlot os a) (h : os.WF) (hn : os.numbers.Nodup) : a.WF ∧ a.numbers.Nodup := by
  induction s with
  | here => simp only [Oneofs.WF] at h; exact ⟨h.1, (List.nodup_append.mp hn).1⟩
  | after _ s ih => simp only [Oneofs.WF] at h; exact ih h.2 (List.nodup_append.mp hn).2.1

theorem get_abs (s : OneofSlot os a) (x : os.cls.State) :
    s.get (os.spec.abs x) = (s.state x).live.map a.spec.abs := by
  induction s with
  | here => rfl
  | after _ s ih => exact ih x.2

theorem inv_state (s : OneofSlot os a) {x : os.cls.State} (h : os.spec.Inv x) :
    a.spec.ObjInv (s.state x) := by
  induction s with
  | here => exact h.1
  | after _ s ih => exact ih h.2

theorem state_setState (s : OneofSlot os a) (x : os.cls.State) (w : OneofObj a.cls.U) :
    s.state (s.setState x w) = w := by
  induction s with
  | here => rfl
  | after _ s ih => exact ih x.2 w

theorem abs_setState (s : OneofSlot os a) (x : os.cls.State) (w : OneofObj a.cls.U) :
    os.spec.abs (s.setState x w) = s.put (os.spec.abs x) (w.live.map a.spec.abs) := by
  induction s with
  | here => rfl
  | after _ s ih => exact congrArg (Prod.mk _) (ih x.2 w)

theorem inv_setState (s : OneofSlot os a) {x : os.cls.State} {w : OneofObj a.cls.U} (hx : os.spec.Inv x)
    (hw : a.spec.ObjInv w) : os.spec.Inv (s.setState x w) := by
  induction s with
  | here => exact ⟨hw, hx.2⟩
  | after _ s ih => exact ⟨hx.1, ih hx.2 hw⟩

end OneofSlot

theorem oneofs_dispatch_self {β : Type} [ReadBuffer β] (A : AltsClass) (R : OneofsClass) (fuel id : Nat)
    (wt : WireType) (b : β) (s : OneofObj A.U × R.State) (h : A.hasCase id = true) :
    (OneofsClass.cons A R).dispatch fuel id wt b s = some (do
      let (e, b, o) ← A.deserializeObj fuel id b wt s.1
      pure (e, b, (o, s.2))) := by
  simp only [OneofsClass.cons, h, ↓reduceIte]

theorem oneofs_dispatch_ne {β γ : Type} [ReadBuffer β] (A : AltsClass) (R : OneofsClass) (fuel id : Nat)
    (wt : WireType) (b : β) (s : OneofObj A.U × R.State) (h : A.hasCase id = false)
    {d : Res (Error × β × γ)} {f : γ → R.State}
    (hr : R.dispatch fuel id wt b s.2 = some (do
      let (e, b, z) ← d
      pure (e, b, f z))) :
    (OneofsClass.cons A R).dispatch fuel id wt b s = some (do
      let (e, b, z) ← d
      pure (e, b, (s.1, f z))) := by
  simp only [OneofsClass.cons, h, Bool.false_eq_true, ↓reduceIte, hr]
  cases d <;> rfl

/-- The `case` label of a oneof member decodes into its oneof. -/
theorem OneofSlot.dispatch {os : Oneofs} {a : Alts} (s : OneofSlot os a) (h : os.WF)
    (hn : os.numbers.Nodup) {num : Nat} (hnum : num ∈ a.numbers) {β : Type} [ReadBuffer β]
    (fuel : Nat) (wt : WireType) (b : β) (x : os.cls.State) :
    os.cls.dispatch fuel num wt b x = some (do
      let (e, b, o) ← a.cls.deserializeObj fuel num b wt (s.state x)
      pure (e, b, s.setState x o)) := by
  induction s with
  | here a rest =>
    simp only [Oneofs.WF] at h
    exact oneofs_dispatch_self _ _ _ _ _ _ x
      (by rw [(Alts.base a h.1 (List.nodup_append.mp hn).1).hasCase]; exact decide_eq_true hnum)
  | after a' s ih =>
    simp only [Oneofs.WF] at h
    have hn' := List.nodup_append.mp hn
    refine oneofs_dispatch_ne _ _ _ _ _ _ x ?_ (ih h.2 hn'.2.1 hnum x.2)
    rw [(Alts.base a' h.1 hn'.1).hasCase]
    exact decide_eq_false (fun hm => hn'.2.2 num hm num (s.mem hnum) rfl)

/-! ## Messages -/

section Msg
variable {fs : Fields} {os : Oneofs}

/-- The data member of a field of a message object. -/
abbrev Slot.member (s : Slot fs num c t) (x : (ElemTy.msg fs os).Obj) : (c.cls t).State :=
  s.state 0 x.fields

/-- The data member of a oneof of a message object. -/
abbrev OneofSlot.member {a : Alts} (s : OneofSlot os a) (x : (ElemTy.msg fs os).Obj) :
    OneofObj a.cls.U := s.state x.oneofs

theorem Slot.inv_member (s : Slot fs num c t) {x : (ElemTy.msg fs os).Obj}
    (hx : (ElemTy.msg fs os).Inv x) : (c.spec t).Inv (s.member (os := os) x) := s.inv_state 0 hx.2.1

/-- A record whose number is that of a field is decoded into the data member of that field, and
nothing else changes, except that an optional field becomes present. -/
theorem Slot.step (s : Slot fs num c t) (h : (ElemTy.msg fs os).WF) {x : (ElemTy.msg fs os).Obj}
    (hx : (ElemTy.msg fs os).Inv x) {β : Type} [ReadBuffer β] (fuel : Nat) (wt : WireType) (b : β) :
    ∃ f : (c.cls t).State → (ElemTy.msg fs os).Obj,
      MsgObj.step (fs.cls 0) os.cls fuel num wt b x = (do
        let (e, b, z) ← (c.cls t).deserializeCheckType fuel b wt (s.member (os := os) x)
        pure (e, b, f z)) ∧
      ∀ z, s.member (os := os) (f z) = z ∧
        (ElemTy.msg fs os).abs (f z) =
          (s.put ((ElemTy.msg fs os).abs x).1 (c.observe t true ((c.spec t).abs z)),
           ((ElemTy.msg fs os).abs x).2) ∧
        ((c.spec t).Inv z → (ElemTy.msg fs os).Inv (f z)) := by
  simp only [ElemTy.WF] at h
  have hn := List.nodup_append.mp h.2.2.1
  obtain ⟨hx1, hx2, hx3⟩ := id hx
  obtain ⟨p', hp1, hp2, hp3, hp4⟩ : ∃ p', c.mark (s.bit 0) x.presence = .ok p' ∧
      Presence.WF fs.nOptional p' ∧ s.Flags 0 x.presence.bit p'.bit ∧
      (c = .opt → p'.bit (s.bit 0) = true) := by
    cases c with
    | opt =>
      have hlt := s.bit_lt 0
      rw [Nat.zero_add] at hlt
      obtain ⟨p', h1, h2, h3⟩ := Presence.setBit_eq hx1 hlt
      refine ⟨p', h1, h2, ⟨fun i hi => ?_, fun h => absurd rfl h⟩, fun _ => ?_⟩
      · rw [h3]; simp [hi]
      · rw [h3]; simp
    | single => exact ⟨x.presence, rfl, hx1, ⟨fun _ _ => rfl, fun _ => rfl⟩, fun h => nomatch h⟩
    | rep => exact ⟨x.presence, rfl, hx1, ⟨fun _ _ => rfl, fun _ => rfl⟩, fun h => nomatch h⟩
  refine ⟨fun z => { x with presence := p', fields := s.setState 0 x.fields z }, ?_, fun z => ⟨?_, ?_, ?_⟩⟩
  · unfold MsgObj.step
    rw [s.dispatch hn.1 0 fuel wt b x.presence x.fields]
    dsimp only
    rw [hp1, Res.ok_bind]
    cases (c.cls t).deserializeCheckType fuel b wt (s.member (os := os) x) <;> rfl
  · exact s.state_setState 0 _ z
  · refine Prod.ext ?_ rfl
    have e := s.abs_setState h.1 0 x.presence.bit p'.bit x.fields z hp3
    refine e.trans ?_
    congr 1
    cases c with
    | opt => rw [hp4 rfl]
    | single => rfl
    | rep => rfl
  · intro hz
    refine ⟨hp2, s.inv_setState h.1 0 hp3 hx2 hz (fun hc hb => ?_), hx3⟩
    rw [hp4 hc] at hb
    exact nomatch hb

/-- A record whose number is that of a oneof member is decoded into that oneof, and nothing else
changes. -/
theorem OneofSlot.step {a : Alts} (s : OneofSlot os a) (h : (ElemTy.msg fs os).WF) {num : Nat}
    (hnum : num ∈ a.numbers) (x : (ElemTy.msg fs os).Obj) {β : Type} [ReadBuffer β] (fuel : Nat)
    (wt : WireType) (b : β) :
    MsgObj.step (fs.cls 0) os.cls fuel num wt b x = (do
      let (e, b, o) ← a.cls.deserializeObj fuel num b wt (s.member (fs := fs) x)
      pure (e, b, { x with oneofs := s.setState x.oneofs o })) := by
  simp only [ElemTy.WF] at h
  have hn := List.nodup_append.mp h.2.2.1
  have hF : (fs.cls 0).dispatch fuel num wt b x.presence x.fields = none :=
    (Fields.dec_law fs 0 fs.nOptional h.1 hn.1 (by omega)).none β fuel num wt b _ _
      (fun hm => hn.2.2 num hm num (s.mem hnum) rfl)
  unfold MsgObj.step
  rw [hF]
  dsimp only
  rw [s.dispatch h.2.1 hn.2.1 hnum fuel wt b x.oneofs]
  dsimp only
  cases a.cls.deserializeObj fuel num b wt (s.member (fs := fs) x) <;> rfl

end Msg

/-! ## The first record of the input -/

section First
variable {fs : Fields} {os : Oneofs} {β : Type} [ReadBuffer β] (M : ReadModel β)

theorem tagLoop_failed {σ : Type} (step : Nat → WireType → β → σ → Res (Error × β × σ)) (k : Nat)
    {b b₁ b₂ : β} {x y : σ} {wt : WireType} {id : Nat} {e : Error}
    (h1 : deserializeTag b = .ok (.ok (wt, id), b₁)) (h2 : step id wt b₁ x = .ok (e, b₂, y))
    (he : e ≠ .noErrors) : tagLoop step (k + 1) b x = .ok (e, b₂, y) := by
  rw [tagLoop, h1, Res.ok_bind]
  dsimp only
  rw [h2, Res.ok_bind]
  dsimp only
  rw [if_neg he]
  rfl

theorem tagLoop_next {σ : Type} (step : Nat → WireType → β → σ → Res (Error × β × σ)) (k : Nat)
    {b b₁ b₂ : β} {x y : σ} {wt : WireType} {id : Nat}
    (h1 : deserializeTag b = .ok (.ok (wt, id), b₁)) (h2 : step id wt b₁ x = .ok (.noErrors, b₂, y)) :
    tagLoop step (k + 1) b x = tagLoop step k b₂ y := by
  rw [tagLoop, h1, Res.ok_bind]
  dsimp only
  rw [h2, Res.ok_bind]
  dsimp only
  rw [if_pos rfl]

theorem tagLoop_error {σ : Type} (step : Nat → WireType → β → σ → Res (Error × β × σ)) (k : Nat)
    {b b' : β} {x : σ} {e : Error} (h : deserializeTag b = .ok (.error e, b')) :
    tagLoop step (k + 1) b x = .ok (if e = .endOfBuffer then .noErrors else e, b', x) := by
  rw [tagLoop, h]
  rfl

/-- `deserialize` reads the tag, runs the `switch`, and goes on if there was no error. -/
theorem deserialize_first (fuel : Nat) (b : β) (x : (ElemTy.msg fs os).Obj) (tg r : List Byte)
    (num : Nat) (wt : WireType) (hb : M.Inv b) (hv : M.view b = tg ++ r)
    (ht : Spec.Varint 32 tg (8 * num + Spec.wireNumber wt)) (hf : 0 < fuel) :
    ∃ b₁, M.Inv b₁ ∧ M.view b₁ = r ∧ ∀ e b₂ y, e ≠ .noErrors →
      MsgObj.step (fs.cls 0) os.cls fuel num wt b₁ x = .ok (e, b₂, y) →
      (ElemTy.msg fs os).cls.deserialize fuel b x = .ok (e, b₂, y) := by
  obtain ⟨⟨q, b₁⟩, h1, h2, h3, h4⟩ := (deserializeTag_ok M tg r _ wt num ht rfl b hb hv).exists
  dsimp only at h2 h3 h4
  subst h2
  refine ⟨b₁, h3, h4, fun e b₂ y he hs => ?_⟩
  obtain ⟨k, hk⟩ : ∃ k, fuel = k + 1 := ⟨fuel - 1, by omega⟩
  have e : (ElemTy.msg fs os).cls.deserialize fuel b x =
    tagLoop (MsgObj.step (fs.cls 0) os.cls fuel) (k + 1) b x := by rw [← hk]; rfl
  rw [e]
  exact tagLoop_failed _ k h1 hs he

/-- An unreadable tag ends `deserialize`. -/
theorem deserialize_tag_error (fs : Fields) (os : Oneofs) (fuel : Nat) (b b' : β)
    (x : (ElemTy.msg fs os).Obj) (e : Error) (hf : 0 < fuel)
    (h : deserializeTag b = .ok (.error e, b')) :
    (ElemTy.msg fs os).cls.deserialize fuel b x =
      .ok (if e = .endOfBuffer then .noErrors else e, b', x) := by
  obtain ⟨k, hk⟩ : ∃ k, fuel = k + 1 := ⟨fuel - 1, by omega⟩
  have e' : (ElemTy.msg fs os).cls.deserialize fuel b x =
    tagLoop (MsgObj.step (fs.cls 0) os.cls fuel) (k + 1) b x := by rw [← hk]; rfl
  rw [e']
  exact tagLoop_error _ k h

end First

end EP
