import Verif.Proof.SlotRecord
import Verif.Proof.Member
import Verif.Model.Accessors

/-! # What the accessors of one field do -/

namespace EP
open Spec

variable {fs : Fields} {os : Oneofs} {num : Nat} {c : Card} {t : ElemTy} {a : Alts}

namespace Slot

theorem access_eq (s : Slot fs num c t) (idx : Nat) (g : (c.cls t).State → Res (c.cls t).State) (p : Presence)
    (x : (fs.cls idx).State) :
    s.access idx g (p, x) = (do
      let p' ← c.mark (s.bit idx) p
      let z ← g (s.state idx x)
      pure (p', s.setState idx x z)) := by
  induction s generalizing idx with
  | plain => rfl
  | optional => rfl
  | repeated => rfl
  | @afterPlain num c t rest m u s ih =>
    show (s.access idx g (p, x.2) >>= fun r => pure (r.1, x.1, r.2) : Res _) = _
    rw [ih]
    show _ = ((c.mark (s.bit idx) p) >>= fun p' => g (s.state idx x.2) >>= fun z =>
      pure (p', x.1, s.setState idx x.2 z) : Res _)
    cases c.mark (s.bit idx) p with
    | ok p' => cases g (s.state idx x.2) <;> rfl
    | ub => rfl
    | diverge => rfl
  | @afterOptional num c t rest m u s ih =>
    show (s.access (idx + 1) g (p, x.2) >>= fun r => pure (r.1, x.1, r.2) : Res _) = _
    rw [ih]
    show _ = ((c.mark (s.bit (idx + 1)) p) >>= fun p' => g (s.state (idx + 1) x.2) >>= fun z =>
      pure (p', x.1, s.setState (idx + 1) x.2 z) : Res _)
    cases c.mark (s.bit (idx + 1)) p with
    | ok p' => cases g (s.state (idx + 1) x.2) <;> rfl
    | ub => rfl
    | diverge => rfl
  | @afterRepeated num c t rest m k u s ih =>
    show (s.access idx g (p, x.2) >>= fun r => pure (r.1, x.1, r.2) : Res _) = _
    rw [ih]
    show _ = ((c.mark (s.bit idx) p) >>= fun p' => g (s.state idx x.2) >>= fun z =>
      pure (p', x.1, s.setState idx x.2 z) : Res _)
    cases c.mark (s.bit idx) p with
    | ok p' => cases g (s.state idx x.2) <;> rfl
    | ub => rfl
    | diverge => rfl

/-- The opposite of `Card.mark`: what `clear_x` does to the presence flags. -/
def _root_.EP.Card.unmark (c : Card) (i : Nat) (p : Presence) : Res Presence :=
  match c with
  | .opt => Presence.clearBit p i
  | _ => .ok p

theorem clearAccess_eq (s : Slot fs num c t) (idx : Nat) (p : Presence) (x : (fs.cls idx).State) :
    s.clearAccess idx (p, x) = (do
      let p' ← c.unmark (s.bit idx) p
      let z ← (c.cls t).clear (s.state idx x)
      pure (p', s.setState idx x z)) := by
  induction s generalizing idx with
  | plain => rfl
  | optional => rfl
  | repeated => rfl
  | @afterPlain num c t rest m u s ih =>
    show (s.clearAccess idx (p, x.2) >>= fun r => pure (r.1, x.1, r.2) : Res _) = _
    rw [ih]
    show _ = ((c.unmark (s.bit idx) p) >>= fun p' => (c.cls t).clear (s.state idx x.2) >>= fun z =>
      pure (p', x.1, s.setState idx x.2 z) : Res _)
    cases c.unmark (s.bit idx) p with
    | ok p' => cases (c.cls t).clear (s.state idx x.2) <;> rfl
    | ub => rfl
    | diverge => rfl
  | @afterOptional num c t rest m u s ih =>
    show (s.clearAccess (idx + 1) (p, x.2) >>= fun r => pure (r.1, x.1, r.2) : Res _) = _
    rw [ih]
    show _ = ((c.unmark (s.bit (idx + 1)) p) >>= fun p' => (c.cls t).clear (s.state (idx + 1) x.2) >>= fun z =>
      pure (p', x.1, s.setState (idx + 1) x.2 z) : Res _)
    cases c.unmark (s.bit (idx + 1)) p with
    | ok p' => cases (c.cls t).clear (s.state (idx + 1) x.2) <;> rfl
    | ub => rfl
    | diverge => rfl
  | @afterRepeated num c t rest m k u s ih =>
    show (s.clearAccess idx (p, x.2) >>= fun r => pure (r.1, x.1, r.2) : Res _) = _
    rw [ih]
    show _ = ((c.unmark (s.bit idx) p) >>= fun p' => (c.cls t).clear (s.state idx x.2) >>= fun z =>
      pure (p', x.1, s.setState idx x.2 z) : Res _)
    cases c.unmark (s.bit idx) p with
    | ok p' => cases (c.cls t).clear (s.state idx x.2) <;> rfl
    | ub => rfl
    | diverge => rfl

/-- Setting one data member leaves the others alone. -/
theorem state_setState_ne {num' : Nat} {c' : Card} {t' : ElemTy} (s : Slot fs num c t)
    (s' : Slot fs num' c' t') (h : num ≠ num') (idx : Nat) (x : (fs.cls idx).State)
    (w : (c'.cls t').State) : s.state idx (s'.setState idx x w) = s.state idx x := by
  induction s generalizing idx with
  | plain => cases s' with
    | plain => exact absurd rfl h
    | afterPlain => rfl
  | optional => cases s' with
    | optional => exact absurd rfl h
    | afterOptional => rfl
  | repeated => cases s' with
    | repeated => exact absurd rfl h
    | afterRepeated => rfl
  | afterPlain _ _ s ih => cases s' with
    | plain => rfl
    | afterPlain _ _ s' => exact ih s' h idx x.2
  | afterOptional _ _ s ih => cases s' with
    | optional => rfl
    | afterOptional _ _ s' => exact ih s' h (idx + 1) x.2
  | afterRepeated _ _ _ s ih => cases s' with
    | repeated => rfl
    | afterRepeated _ _ _ s' => exact ih s' h idx x.2

/-- The presence flags after a call that sets the flag of the field. -/
theorem marked (s : Slot fs num c t) {p : Presence} (hp : Presence.WF fs.nOptional p) :
    ∃ p', c.mark (s.bit 0) p = .ok p' ∧ Presence.WF fs.nOptional p' ∧ s.Flags 0 p.bit p'.bit ∧
      (c = .opt → p'.bit (s.bit 0) = true) := by
  cases c with
  | opt =>
    have hlt := s.bit_lt 0
    rw [Nat.zero_add] at hlt
    obtain ⟨p', h1, h2, h3⟩ := Presence.setBit_eq hp hlt
    refine ⟨p', h1, h2, ⟨fun i hi => ?_, fun h => absurd rfl h⟩, fun _ => ?_⟩
    · rw [h3]; simp [hi]
    · rw [h3]; simp
  | single => exact ⟨p, rfl, hp, ⟨fun _ _ => rfl, fun _ => rfl⟩, fun h => nomatch h⟩
  | rep => exact ⟨p, rfl, hp, ⟨fun _ _ => rfl, fun _ => rfl⟩, fun h => nomatch h⟩

theorem unmarked (s : Slot fs num c t) {p : Presence} (hp : Presence.WF fs.nOptional p) :
    ∃ p', c.unmark (s.bit 0) p = .ok p' ∧ Presence.WF fs.nOptional p' ∧ s.Flags 0 p.bit p'.bit ∧
      (c = .opt → p'.bit (s.bit 0) = false) := by
  cases c with
  | opt =>
    have hlt := s.bit_lt 0
    rw [Nat.zero_add] at hlt
    obtain ⟨p', h1, h2, h3⟩ := Presence.clearBit_eq hp hlt
    refine ⟨p', h1, h2, ⟨fun i hi => ?_, fun h => absurd rfl h⟩, fun _ => ?_⟩
    · rw [h3]; simp [hi]
    · rw [h3]; simp
  | single => exact ⟨p, rfl, hp, ⟨fun _ _ => rfl, fun _ => rfl⟩, fun h => nomatch h⟩
  | rep => exact ⟨p, rfl, hp, ⟨fun _ _ => rfl, fun _ => rfl⟩, fun h => nomatch h⟩

/-- The effect of a call that leaves `z` in the data member of the field: the other data members and the
oneofs keep their contents, and the value of the message changes in this field only. -/
structure Written (s : Slot fs num c t) (x : (ElemTy.msg fs os).Obj) (z : (c.cls t).State) (p : Bool)
    (y : (ElemTy.msg fs os).Obj) : Prop where
  member : s.member (os := os) y = z
  others : ∀ num' c' t' (s' : Slot fs num' c' t'), num' ≠ num →
    s'.member (os := os) y = s'.member (os := os) x
  oneofs : y.oneofs = x.oneofs
  abs : (ElemTy.msg fs os).abs y = (s.put ((ElemTy.msg fs os).abs x).1 (c.observe t p ((c.spec t).abs z)),
    ((ElemTy.msg fs os).abs x).2)
  inv : (c.spec t).Inv z → (c = .opt → p = false → z = (c.cls t).init) → (ElemTy.msg fs os).Inv y

theorem written (s : Slot fs num c t) (h : (ElemTy.msg fs os).WF) {x : (ElemTy.msg fs os).Obj}
    (hx : (ElemTy.msg fs os).Inv x) {p' : Presence} {b : Bool} (hp2 : Presence.WF fs.nOptional p')
    (hp3 : s.Flags 0 x.presence.bit p'.bit) (hp4 : c = .opt → p'.bit (s.bit 0) = b) (z : (c.cls t).State) :
    s.Written (os := os) x z b { x with presence := p', fields := s.setState 0 x.fields z } := by
  simp only [ElemTy.WF] at h
  obtain ⟨hx1, hx2, hx3⟩ := id hx
  refine ⟨s.state_setState 0 _ z, fun num' c' t' s' hne => s'.state_setState_ne s hne 0 _ z, rfl, ?_, ?_⟩
  · refine Prod.ext ?_ rfl
    have e := s.abs_setState h.1 0 x.presence.bit p'.bit x.fields z hp3
    refine e.trans ?_
    congr 1
    cases c with
    | opt => rw [hp4 rfl]
    | single => rfl
    | rep => rfl
  · intro hz ha
    refine ⟨hp2, s.inv_setState h.1 0 hp3 hx2 hz (fun hc hb => ?_), hx3⟩
    rw [hp4 hc] at hb
    exact ha hc hb

/-- Decoding a record of the field (see `Slot.step`), with the effect on the data members. -/
theorem step_written (s : Slot fs num c t) (h : (ElemTy.msg fs os).WF) {x : (ElemTy.msg fs os).Obj}
    (hx : (ElemTy.msg fs os).Inv x) {β : Type} [ReadBuffer β] (fuel : Nat) (wt : WireType) (b : β) :
    ∃ f : (c.cls t).State → (ElemTy.msg fs os).Obj,
      MsgObj.step (fs.cls 0) os.cls fuel num wt b x = (do
        let (e, b, z) ← (c.cls t).deserializeCheckType fuel b wt (s.member (os := os) x)
        pure (e, b, f z)) ∧
      ∀ z, s.Written (os := os) x z true (f z) := by
  have hw := h
  simp only [ElemTy.WF] at hw
  have hn := List.nodup_append.mp hw.2.2.1
  obtain ⟨p', hp1, hp2, hp3, hp4⟩ := s.marked hx.1
  refine ⟨fun z => { x with presence := p', fields := s.setState 0 x.fields z }, ?_,
    fun z => s.written h hx hp2 hp3 hp4 z⟩
  unfold MsgObj.step
  rw [s.dispatch hn.1 0 fuel wt b x.presence x.fields]
  dsimp only
  rw [hp1, Res.ok_bind]
  cases (c.cls t).deserializeCheckType fuel b wt (s.member (os := os) x) <;> rfl

/-- A call on the data member of a field. -/
theorem call_eq (s : Slot fs num c t) (h : (ElemTy.msg fs os).WF) {x : (ElemTy.msg fs os).Obj}
    (hx : (ElemTy.msg fs os).Inv x) : ∃ f : (c.cls t).State → (ElemTy.msg fs os).Obj,
      (∀ g, s.call (os := os) g x = g (s.member (os := os) x) >>= fun z => .ok (f z)) ∧
      ∀ z, s.Written (os := os) x z true (f z) := by
  obtain ⟨p', hp1, hp2, hp3, hp4⟩ := s.marked hx.1
  refine ⟨fun z => { x with presence := p', fields := s.setState 0 x.fields z }, fun g => ?_,
    fun z => s.written h hx hp2 hp3 hp4 z⟩
  have e : s.call (os := os) g x = (s.access 0 g (x.presence, x.fields) >>= fun r =>
    .ok { x with presence := r.1, fields := r.2 }) := rfl
  rw [e, s.access_eq, hp1, Res.ok_bind]
  show ((g (s.member (os := os) x) >>= fun z => Res.ok (p', s.setState 0 x.fields z)) >>= _ : Res _) = _
  cases g (s.member (os := os) x) <;> rfl

/-- `clear_x()`. -/
theorem clearCall_eq (s : Slot fs num c t) (h : (ElemTy.msg fs os).WF) {x : (ElemTy.msg fs os).Obj}
    (hx : (ElemTy.msg fs os).Inv x) : ∃ y, s.clearCall (os := os) x = .ok y ∧
      s.Written (os := os) x (c.cls t).init false y := by
  obtain ⟨p', hp1, hp2, hp3, hp4⟩ := s.unmarked hx.1
  refine ⟨{ x with presence := p', fields := s.setState 0 x.fields (c.cls t).init }, ?_,
    s.written h hx hp2 hp3 hp4 _⟩
  have e : s.clearCall (os := os) x = (s.clearAccess 0 (x.presence, x.fields) >>= fun r =>
    .ok { x with presence := r.1, fields := r.2 }) := rfl
  rw [e, s.clearAccess_eq, hp1, Res.ok_bind]
  have hw := h
  simp only [ElemTy.WF] at hw
  have ht := s.wf hw.1
  have hb : (c.cls t).clear (s.member (os := os) x) = .ok (c.cls t).init := by
    cases c with
    | single => exact (ElemTy.base t ht.1).clear _ (s.inv_member hx)
    | opt => exact (ElemTy.base t ht.1).clear _ (s.inv_member hx)
    | rep cap => exact (rep_base (ElemTy.base t ht.1)).clear _ (s.inv_member hx)
  show ((c.cls t).clear (s.member (os := os) x) >>= fun z => Res.ok (p', s.setState 0 x.fields z)) >>= _ = _
  rw [hb]
  rfl

/-- `has_x()` tells whether the field has a value. -/
theorem has_eq (s : Slot fs num .opt t) {x : (ElemTy.msg fs os).Obj} (hx : (ElemTy.msg fs os).Inv x) :
    s.has (os := os) x = .ok (s.get ((ElemTy.msg fs os).abs x).1 : Option t.Val).isSome := by
  have hlt := s.bit_lt 0
  rw [Nat.zero_add] at hlt
  refine (Presence.has_eq hx.1 hlt).trans ?_
  have e : s.get ((ElemTy.msg fs os).abs x).1 =
      Card.observe .opt t (x.presence.bit (s.bit 0)) (Card.spec .opt t |>.abs (s.member (os := os) x)) :=
    s.get_abs 0 x.presence.bit x.fields
  rw [e]
  unfold Card.observe
  cases x.presence.bit (s.bit 0) <;> rfl

end Slot

/-! ## Oneofs -/

namespace OneofSlot

theorem access_eq (s : OneofSlot os a) (g : OneofObj a.cls.U → Res (OneofObj a.cls.U)) (x : os.cls.State) :
    s.access g x = g (s.state x) >>= fun o => .ok (s.setState x o) := by
  induction s with
  | here a rest =>
    show (g x.1 >>= fun o => .ok (o, x.2) : Res _) = _
    rfl
  | after a' s ih =>
    show (s.access g x.2 >>= fun r => .ok (x.1, r) : Res _) = _
    rw [ih]
    show _ = (g (s.state x.2) >>= fun o => .ok (x.1, s.setState x.2 o) : Res _)
    cases g (s.state x.2) <;> rfl

theorem setState_state (s : OneofSlot os a) (x : os.cls.State) : s.setState x (s.state x) = x := by
  induction s with
  | here => rfl
  | after _ s ih => exact congrArg (Prod.mk x.1) (ih x.2)

theorem state_setState_ne {a' : Alts} (s : OneofSlot os a) (s' : OneofSlot os a') (hne : a ≠ a')
    (x : os.cls.State) (w : OneofObj a'.cls.U) : s.state (s'.setState x w) = s.state x := by
  induction s with
  | here => cases s' with
    | here => exact absurd rfl hne
    | after => rfl
  | after _ s ih => cases s' with
    | here => rfl
    | after _ s' => exact ih s' hne x.2

end OneofSlot

namespace Member

theorem access_eq (m : Member a num t) (g : t.cls.State → Res t.cls.State) (x : t.Obj) :
    m.access g (some (m.injState x)) = g x >>= fun z => .ok (some (m.injState z)) := by
  induction m with
  | here n t rest =>
    rfl
  | after k u m ih =>
    show (m.access g (some (m.injState x)) >>= fun v => .ok (AltsClass.inr? v) : Res _) = _
    rw [ih]
    show _ = (g x >>= fun z => .ok (some (Sum.inr (m.injState z))) : Res _)
    cases g x <;> rfl

theorem touch_eq (m : Member a num t) (h : a.WF) (hn : a.numbers.Nodup) (h0 : 0 ∉ a.numbers)
    {o : OneofObj a.cls.U} (ho : a.spec.ObjInv o) (g : t.cls.State → Res t.cls.State) :
    touchMember a.cls num (m.access g) o =
      g (m.current o) >>= fun z => .ok ⟨num, some (m.injState z)⟩ := by
  unfold touchMember
  rw [(m.activate h hn h0 ho).1, Res.ok_bind]
  dsimp only
  rw [m.access_eq]
  cases g (m.current o) <;> rfl

end Member

/-- The value of a oneof tells which member is set. -/
theorem OneofSlot.which_eq (s : OneofSlot os a) (h : (ElemTy.msg fs os).WF) {x : (ElemTy.msg fs os).Obj}
    (hx : (ElemTy.msg fs os).Inv x) {num : Nat} {t : ElemTy} (m : Member a num t) :
    s.which (fs := fs) x = num ↔ ∃ v, s.get ((ElemTy.msg fs os).abs x).2 = some (m.inj v) := by
  simp only [ElemTy.WF] at h
  have hn := List.nodup_append.mp h.2.2.1
  have hw := s.wf h.2.1 hn.2.1
  have ho := s.inv_state hx.2.2
  have hg : s.get ((ElemTy.msg fs os).abs x).2 = (s.state x.oneofs).live.map a.spec.abs := s.get_abs x.oneofs
  rw [hg]
  unfold OneofSlot.which
  generalize s.state x.oneofs = o at ho
  obtain ⟨w, l⟩ := o
  cases l with
  | none =>
    have hw' : w = 0 := ho
    constructor
    · intro e
      have hnum := s.mem m.mem
      have := h.2.2.2 num (List.mem_append_right _ hnum)
      dsimp only at e
      omega
    · rintro ⟨v, hv⟩
      exact nomatch hv
  | some u =>
    have hw' : w = a.spec.num u := ho.1
    constructor
    · intro e
      obtain ⟨z, rfl⟩ := m.of_num hw.1 hw.2 u (hw'.symm.trans e)
      exact ⟨t.abs z, congrArg some (m.abs_injState z)⟩
    · rintro ⟨v, hv⟩
      have hv : a.spec.abs u = m.inj v := Option.some.inj hv
      dsimp only
      rw [hw']
      refine Classical.byContradiction fun hne => ?_
      have e := m.proj_abs u
      rw [hv, m.proj_inj, m.projState_of_num hw.1 hw.2 u hne] at e
      exact nomatch e

theorem OneofSlot.which_zero (s : OneofSlot os a) (h : (ElemTy.msg fs os).WF) {x : (ElemTy.msg fs os).Obj}
    (hx : (ElemTy.msg fs os).Inv x) :
    s.which (fs := fs) x = 0 ↔ s.get ((ElemTy.msg fs os).abs x).2 = none := by
  simp only [ElemTy.WF] at h
  have hn := List.nodup_append.mp h.2.2.1
  have hw := s.wf h.2.1 hn.2.1
  have ho := s.inv_state hx.2.2
  have hg : s.get ((ElemTy.msg fs os).abs x).2 = (s.state x.oneofs).live.map a.spec.abs := s.get_abs x.oneofs
  rw [hg]
  unfold OneofSlot.which
  generalize s.state x.oneofs = o at ho
  obtain ⟨w, l⟩ := o
  cases l with
  | none => exact ⟨fun _ => rfl, fun _ => ho⟩
  | some u =>
    have hw' : w = a.spec.num u := ho.1
    refine ⟨fun e => ?_, fun hv => nomatch hv⟩
    have hm := (Alts.base a hw.1 hw.2).num_mem u
    have := h.2.2.2 _ (List.mem_append_right _ (s.mem hm))
    dsimp only at e
    omega

/-- The effect of a call that leaves the oneof `a` in state `o`. -/
structure OneofSlot.Written (s : OneofSlot os a) (x : (ElemTy.msg fs os).Obj) (o : OneofObj a.cls.U)
    (y : (ElemTy.msg fs os).Obj) : Prop where
  member : s.member (fs := fs) y = o
  others : ∀ a' (s' : OneofSlot os a'), a' ≠ a →
    s'.member (fs := fs) y = s'.member (fs := fs) x
  fields : y.presence = x.presence ∧ y.fields = x.fields
  abs : (ElemTy.msg fs os).abs y = (((ElemTy.msg fs os).abs x).1,
    s.put ((ElemTy.msg fs os).abs x).2 (o.live.map a.spec.abs))
  inv : a.spec.ObjInv o → (ElemTy.msg fs os).Inv y

theorem OneofSlot.written (s : OneofSlot os a) {x : (ElemTy.msg fs os).Obj}
    (hx : (ElemTy.msg fs os).Inv x) (o : OneofObj a.cls.U) :
    s.Written (fs := fs) x o { x with oneofs := s.setState x.oneofs o } where
  member := s.state_setState _ o
  others _ s' hne := s'.state_setState_ne s hne _ o
  fields := ⟨rfl, rfl⟩
  abs := Prod.ext rfl (s.abs_setState x.oneofs o)
  inv ho := ⟨hx.1, hx.2.1, s.inv_setState hx.2.2 ho⟩

/-- A call on a oneof member: the live one, or a new one in place of another. -/
theorem Member.call_eq (s : OneofSlot os a) (m : Member a num t) (h : (ElemTy.msg fs os).WF)
    {x : (ElemTy.msg fs os).Obj} (hx : (ElemTy.msg fs os).Inv x) :
    t.Inv (m.current (s.member (fs := fs) x)) ∧ ∃ f : t.Obj → (ElemTy.msg fs os).Obj,
      (∀ g, m.call (fs := fs) s g x = g (m.current (s.member (fs := fs) x)) >>= fun z => .ok (f z)) ∧
      ∀ z, s.Written (fs := fs) x ⟨num, some (m.injState z)⟩ (f z) := by
  have hw := h
  simp only [ElemTy.WF] at hw
  have hn := List.nodup_append.mp hw.2.2.1
  have ha := s.wf hw.2.1 hn.2.1
  have h0 : 0 ∉ a.numbers := fun hm => by
    have := hw.2.2.2 0 (List.mem_append_right _ (s.mem hm))
    omega
  have ho := s.inv_state hx.2.2
  refine ⟨(m.activate ha.1 ha.2 h0 ho).2,
    fun z => { x with oneofs := s.setState x.oneofs ⟨num, some (m.injState z)⟩ }, fun g => ?_,
    fun z => s.written hx _⟩
  show (s.access (touchMember a.cls num (m.access g)) x.oneofs >>= fun o => .ok { x with oneofs := o } : Res _) = _
  rw [s.access_eq, m.touch_eq ha.1 ha.2 h0 ho]
  show ((g (m.current (s.state x.oneofs)) >>= _) >>= _ >>= _ : Res _) =
    g (m.current (s.state x.oneofs)) >>= _
  cases g (m.current (s.state x.oneofs)) <;> rfl

/-- `clear_x()` of a oneof member: nothing happens unless it is the one that is set. -/
theorem Member.clearCall_eq (s : OneofSlot os a) (m : Member a num t) (h : (ElemTy.msg fs os).WF)
    {x : (ElemTy.msg fs os).Obj} (hx : (ElemTy.msg fs os).Inv x) :
    (s.which (fs := fs) x ≠ num → m.clearCall (fs := fs) s x = .ok x) ∧
    (s.which (fs := fs) x = num → ∃ y, m.clearCall (fs := fs) s x = .ok y ∧
      s.Written (fs := fs) x ⟨0, none⟩ y) := by
  have hw := h
  simp only [ElemTy.WF] at hw
  have hn := List.nodup_append.mp hw.2.2.1
  have ha := s.wf hw.2.1 hn.2.1
  have h0 : 0 ∉ a.numbers := fun hm => by
    have := hw.2.2.2 0 (List.mem_append_right _ (s.mem hm))
    omega
  have ho := s.inv_state hx.2.2
  have e : m.clearCall (fs := fs) s x =
      (s.access (clearMember a.cls num) x.oneofs >>= fun o => .ok { x with oneofs := o } : Res _) := rfl
  rw [e, s.access_eq]
  unfold OneofSlot.which clearMember
  constructor
  · intro hne
    have hne : ¬ num = (s.state x.oneofs).which := fun e => hne e.symm
    rw [if_neg hne]
    show Res.ok _ = _
    rw [s.setState_state]
    rfl
  · intro he
    rw [if_pos he.symm, clearObj_eq (Alts.base a ha.1 ha.2).toAltsInit h0 _ ho, Res.ok_bind]
    exact ⟨_, rfl, s.written hx _⟩

/-- `has_x()` of a oneof member. -/
theorem Member.has_eq (s : OneofSlot os a) (m : Member a num t) (x : (ElemTy.msg fs os).Obj) :
    m.has (fs := fs) s x = true ↔ s.which (fs := fs) x = num := by
  unfold Member.has
  rw [beq_iff_eq]
  exact eq_comm

end EP
