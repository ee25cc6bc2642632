import Verif.Model.Kept
import Verif.Proof.History
import Verif.Proof.Bounded

/-! # Using a reference that was kept -/

namespace EP
open Spec

variable {fs : Fields} {os : Oneofs} {num : Nat} {c : Card} {t : ElemTy} {a : Alts}

/-- Setting a flag that is set. -/
theorem Presence.setBit_same {n i : Nat} {p : Presence} (h : WF n p) (hi : i < n) (hb : p.bit i = true) :
    setBit p i = .ok p := by
  obtain ⟨p', h1, h2, h3⟩ := Presence.setBit_eq h hi
  rw [h1]
  congr 1
  refine Presence.ext (h2.1.trans h.1.symm) fun j => ?_
  rw [h3]
  by_cases hj : j = i
  · subst hj; simp [hb]
  · simp [hj]

namespace Slot

/-- If the flag of the field is set, or there is none, `mutable_x()` changes nothing. -/
theorem call_through (s : Slot fs num c t) {x : (ElemTy.msg fs os).Obj}
    (hm : c.mark (s.bit 0) x.presence = .ok x.presence) (g : (c.cls t).State → Res (c.cls t).State) :
    s.call (os := os) g x = s.through (os := os) g x := by
  have e : s.call (os := os) g x = (s.access 0 g (x.presence, x.fields) >>= fun r =>
    .ok { x with presence := r.1, fields := r.2 }) := rfl
  rw [e, s.access_eq, hm, Res.ok_bind]
  unfold Slot.through
  show ((g (s.place x) >>= fun z => Res.ok (x.presence, s.setState 0 x.fields z)) >>= _ : Res _) = _
  cases g (s.place x) <;> rfl

theorem through_ok {s : Slot fs num c t} {g : (c.cls t).State → Res (c.cls t).State} {x y : (ElemTy.msg fs os).Obj}
    (h : s.through (os := os) g x = .ok y) :
    ∃ z, g (s.place x) = .ok z ∧ y = { x with fields := s.setState 0 x.fields z } := by
  unfold Slot.through at h
  cases hg : g (s.place x) with
  | ub => rw [hg] at h; exact nomatch h
  | diverge => rw [hg] at h; exact nomatch h
  | ok z =>
    rw [hg] at h
    injection h with h
    exact ⟨z, rfl, h.symm⟩

theorem call_ok {s : Slot fs num c t} (h : (ElemTy.msg fs os).WF) {g : (c.cls t).State → Res (c.cls t).State}
    {x y : (ElemTy.msg fs os).Obj} (hx : (ElemTy.msg fs os).Inv x) (hy : s.call (os := os) g x = .ok y) :
    ∃ z, g (s.place x) = .ok z ∧ s.Written (os := os) x z true y := by
  obtain ⟨f, f1, f2⟩ := s.call_eq (os := os) h hx
  rw [f1] at hy
  cases hg : g (s.member (os := os) x) with
  | ub => rw [hg] at hy; exact nomatch hy
  | diverge => rw [hg] at hy; exact nomatch hy
  | ok z =>
    rw [hg] at hy
    injection hy with hy
    subst hy
    exact ⟨z, rfl, f2 z⟩

/-- What a call through a reference does to the value of the message. -/
theorem through_abs (s : Slot fs num c t) (h : (ElemTy.msg fs os).WF) {x : (ElemTy.msg fs os).Obj} (z : (c.cls t).State) :
    (ElemTy.msg fs os).abs { x with fields := s.setState 0 x.fields z } =
      (s.put ((ElemTy.msg fs os).abs x).1 (c.observe t (x.presence.bit (s.bit 0)) ((c.spec t).abs z)),
        ((ElemTy.msg fs os).abs x).2) := by
  simp only [ElemTy.WF] at h
  exact Prod.ext (s.abs_setState h.1 0 x.presence.bit x.presence.bit x.fields z ⟨fun _ _ => rfl, fun _ => rfl⟩) rfl

theorem get_place (s : Slot fs num c t) (x : (ElemTy.msg fs os).Obj) :
    s.get ((ElemTy.msg fs os).abs x).1 =
      c.observe t (x.presence.bit (s.bit 0)) ((c.spec t).abs (s.place (os := os) x)) :=
  s.get_abs 0 x.presence.bit x.fields

theorem put_same (s : Slot fs num c t) (x : (ElemTy.msg fs os).Obj) {w : c.Val t}
    (hw : w = s.get ((ElemTy.msg fs os).abs x).1) :
    (s.put ((ElemTy.msg fs os).abs x).1 w, ((ElemTy.msg fs os).abs x).2) = (ElemTy.msg fs os).abs x := by
  rw [hw, s.put_get]
  rfl

theorem put_other (s : Slot fs num c t) (x : (ElemTy.msg fs os).Obj) {w : c.Val t}
    (hw : w ≠ s.get ((ElemTy.msg fs os).abs x).1) :
    (s.put ((ElemTy.msg fs os).abs x).1 w, ((ElemTy.msg fs os).abs x).2) ≠ (ElemTy.msg fs os).abs x := by
  intro h
  apply hw
  rw [← s.get_put ((ElemTy.msg fs os).abs x).1 w]
  exact congrArg (fun v : (ElemTy.msg fs os).Val => s.get v.1) h

theorem has_bit (s : Slot fs num .opt t) {x : (ElemTy.msg fs os).Obj} (hx : (ElemTy.msg fs os).Inv x) :
    s.has (os := os) x = .ok (x.presence.bit (s.bit 0)) := by
  have hlt := s.bit_lt 0
  rw [Nat.zero_add] at hlt
  exact Presence.has_eq hx.1 hlt

theorem mark_same (s : Slot fs num .opt t) {x : (ElemTy.msg fs os).Obj} (hx : (ElemTy.msg fs os).Inv x)
    (hb : x.presence.bit (s.bit 0) = true) : Card.opt.mark (s.bit 0) x.presence = .ok x.presence := by
  have hlt := s.bit_lt 0
  rw [Nat.zero_add] at hlt
  exact Presence.setBit_same hx.1 hlt hb

end Slot

namespace RepObj
variable {E : FieldClass} {V : Type} {S : ClassSpec E V} {cap : Nat}

theorem through_eq {x : RepObj E.State} {i : Nat} (hi : i < x.data.length) (g : E.State → Res E.State) :
    RepObj.through i g x = g x.data[i] >>= fun z => .ok ⟨x.len, x.data.set i z⟩ := by
  unfold RepObj.through
  rw [arrayGet_of_lt hi, Res.ok_bind]
  cases g x.data[i] with
  | ub => rfl
  | diverge => rfl
  | ok z =>
    rw [Res.ok_bind, arraySet_of_lt hi]
    rfl

theorem modifyAt_fin (hc : cap < 2147483648) {x : RepObj E.State} (hx : (repSpec S cap).Inv x) (i : Fin cap)
    (g : E.State → Res E.State) :
    ∃ h : i < x.data.length,
      x.modifyAt cap i g = (g x.data[i.val] >>= fun z => .ok ⟨max x.len (i + 1), x.data.set i z⟩) := by
  have hi := i.isLt
  obtain ⟨hl, e⟩ := modifyAt_eq (by omega) hc hx i g
  have hm : min i.val (cap - 1) = i.val := by omega
  simp only [hm] at hl e
  exact ⟨hl, e⟩

theorem abs_set {x : RepObj E.State} {i : Nat} {z : E.State} (hi : i < x.data.length) :
    ((repSpec S cap).abs ⟨x.len, x.data.set i z⟩ = (repSpec S cap).abs x) ↔ (i < x.len → S.abs z = S.abs x.data[i]) := by
  show (List.take x.len (x.data.set i z)).map S.abs = (List.take x.len x.data).map S.abs ↔ _
  rw [List.take_set, List.map_set]
  constructor
  · intro h hl
    have e := congrArg (fun l => l[i]?) h
    have hlt : i < (List.map S.abs (List.take x.len x.data)).length := by
      rw [List.length_map, List.length_take]
      omega
    rw [List.getElem?_set_self hlt, List.getElem?_eq_getElem hlt] at e
    simpa using e
  · intro h
    by_cases hl : i < x.len
    · rw [h hl]
      apply List.ext_getElem (by simp)
      intro n h1 h2
      rw [List.getElem_set]
      split
      · rename_i e
        subst e
        simp
      · rfl
    · rw [List.set_eq_of_length_le]
      rw [List.length_map, List.length_take]
      omega

end RepObj

namespace Member

theorem through_eq (s : OneofSlot os a) (m : Member a num t) {x : (ElemTy.msg fs os).Obj} {z : t.Obj}
    (hz : m.get (fs := fs) s x = .ok z) (g : t.Obj → Res t.Obj) :
    m.through (fs := fs) s g x = g z >>= fun z =>
      .ok { x with oneofs := s.setState x.oneofs ⟨(s.state x.oneofs).which, some (m.injState z)⟩ } := by
  unfold Member.through
  rw [hz, Res.ok_bind]
  rfl

theorem union_live (m : Member a num t) {o : Option a.cls.U} {z : t.Obj} (h : m.readUnion o = .ok z) :
    o = some (m.injState z) := by
  induction m with
  | here =>
    rcases o with _ | u | u
    · exact nomatch h
    · injection h with h
      subst h
      rfl
    · exact nomatch h
  | after _ _ m ih =>
    rcases o with _ | u | u
    · exact nomatch h
    · exact nomatch h
    · have := ih (o := some u) h
      injection this with this
      subst this
      rfl

theorem union_injState (m : Member a num t) (z : t.Obj) : m.readUnion (some (m.injState z)) = .ok z := by
  induction m with
  | here => rfl
  | after _ _ m ih => exact ih z

theorem union_defined (m : Member a num t) {o : Option a.cls.U} (h : m.readUnion o = .diverge) : False := by
  induction m with
  | here => rcases o with _ | u | u <;> exact nomatch h
  | after _ _ m ih =>
    rcases o with _ | u | u
    · exact nomatch h
    · exact nomatch h
    · exact ih (o := some u) h

/-- The member that is read is the live one, and `mutable_x()` returns it. -/
theorem get_live (s : OneofSlot os a) (m : Member a num t) {x : (ElemTy.msg fs os).Obj}
    (hx : (ElemTy.msg fs os).Inv x) {z : t.Obj} (hz : m.get (fs := fs) s x = .ok z) :
    (s.state x.oneofs).live = some (m.injState z) ∧ (s.state x.oneofs).which = num ∧ t.Inv z ∧
      m.current (s.state x.oneofs) = z := by
  have ho := s.inv_state hx.2.2
  have hl := m.union_live hz
  have hw : (s.state x.oneofs).which = num ∧ t.Inv z := by
    unfold AltsSpec.ObjInv at ho
    rw [hl] at ho
    exact ⟨ho.1.trans (m.num_injState z), (m.inv_injState z).mp ho.2⟩
  refine ⟨hl, hw.1, hw.2, ?_⟩
  unfold current
  rw [hl]
  simp [m.projState_injState]

theorem call_again (s : OneofSlot os a) (m : Member a num t) (h : (ElemTy.msg fs os).WF) {x : (ElemTy.msg fs os).Obj}
    (hx : (ElemTy.msg fs os).Inv x) {z : t.Obj} (hz : m.current (s.member (fs := fs) x) = z) (g : t.Obj → Res t.Obj) :
    m.call (fs := fs) s g x = g z >>= fun z =>
      .ok { x with oneofs := s.setState x.oneofs ⟨num, some (m.injState z)⟩ } := by
  have hw := h
  simp only [ElemTy.WF] at hw
  have hn := List.nodup_append.mp hw.2.2.1
  have ha := s.wf hw.2.1 hn.2.1
  have h0 : 0 ∉ a.numbers := fun hm => by
    have := hw.2.2.2 0 (List.mem_append_right _ (s.mem hm))
    omega
  have ho := s.inv_state hx.2.2
  have hz : m.current (s.state x.oneofs) = z := hz
  show (s.access (touchMember a.cls num (m.access g)) x.oneofs >>= fun o => .ok { x with oneofs := o } : Res _) = _
  rw [s.access_eq, m.touch_eq ha.1 ha.2 h0 ho, hz]
  cases g z <;> rfl

end Member

theorem Card.observe_inj {p : Bool} (hp : c = .opt → p = true) {v w : c.MVal t} (h : c.observe t p v = c.observe t p w) :
    v = w := by
  cases c with
  | single => exact h
  | rep => exact h
  | opt =>
    rw [hp rfl] at h
    exact Option.some.inj h

theorem OneofSlot.put_get : {os : Oneofs} → {a : Alts} → (s : OneofSlot os a) → (v : os.Val) → s.put v (s.get v) = v
  | _, _, .here _ _, _ => rfl
  | _, _, .after _ s, v => Prod.ext rfl (s.put_get v.2)

namespace Ref

/-- The object or array a reference points at is one that `g` can be done to. -/
theorem classified : {T t : ElemTy} → {c : Card} → (r : Ref T c t) → T.WF → (g : (c.cls t).State → Res (c.cls t).State) →
    (x : T.Obj) → T.Inv x →
    (r.status x = .alive → r.through g x = r.again g x) ∧
    (r.status x = .hidden → (∀ y, r.through g x = .ok y → T.abs y = T.abs x) ∧
      ∀ y, r.again g x = .ok y → T.abs y ≠ T.abs x) ∧
    (r.status x = .gone → r.through g x = .ub) ∧
    ((∀ z, (c.spec t).Inv z → g z ≠ .ub) → r.status x ≠ .gone → r.through g x ≠ .ub)
  | _, _, _, .here _, _, g, x, hx => ⟨fun _ => rfl, fun h => (nomatch h), fun h => (nomatch h), fun hg _ => hg x hx⟩
  | _, _, _, .single (os := os) s r, h, g, x, hx => by
    have hw := h
    simp only [ElemTy.WF] at hw
    obtain ⟨i1, i2, i3, i4⟩ := classified r (s.wf hw.1).1 g (s.place x) (s.inv_member hx)
    refine ⟨fun hs => ?_, fun hs => ⟨fun y hy => ?_, fun y hy => ?_⟩, fun hs => ?_, fun hg hs hu => ?_⟩
    · show s.through (r.through g) x = s.call (r.again g) x
      rw [s.call_through rfl]
      unfold Slot.through
      rw [i1 hs]
    · obtain ⟨z, h1, rfl⟩ := Slot.through_ok hy
      rw [s.through_abs h]
      refine s.put_same x ?_
      rw [s.get_place]
      exact (i2 hs).1 z h1
    · obtain ⟨z, h1, h2⟩ := Slot.call_ok h hx hy
      rw [h2.abs]
      refine s.put_other x ?_
      rw [s.get_place]
      exact (i2 hs).2 z h1
    · show s.through (r.through g) x = .ub
      unfold Slot.through
      rw [i3 hs]
      rfl
    · have hu : s.through (r.through g) x = .ub := hu
      unfold Slot.through at hu
      cases e : r.through g (s.place x) with
      | ub => exact i4 hg hs e
      | ok z => rw [e] at hu; exact nomatch hu
      | diverge => rw [e] at hu; exact nomatch hu
  | _, _, _, .optional (os := os) s r, h, g, x, hx => by
    have hw := h
    simp only [ElemTy.WF] at hw
    obtain ⟨i1, i2, i3, i4⟩ := classified r (s.wf hw.1).1 g (s.place x) (s.inv_member hx)
    have hb := s.has_bit hx
    have hst : (Ref.optional (os := os) s r).status x =
        if x.presence.bit (s.bit 0) = true then r.status (s.place x) else (r.status (s.place x)).hide := by
      show (match s.has x with
        | .ok true => r.status (s.place x)
        | _ => (r.status (s.place x)).hide) = _
      rw [hb]
      cases x.presence.bit (s.bit 0) <;> rfl
    rw [hst]
    have hgone : r.status (s.place x) = .gone → s.through (r.through g) x = .ub := by
      intro hs
      unfold Slot.through
      rw [i3 hs]
      rfl
    have hub : (∀ z, (Card.spec _ _).Inv z → g z ≠ .ub) → r.status (s.place x) ≠ .gone → s.through (r.through g) x ≠ .ub := by
      intro hg hs hu
      unfold Slot.through at hu
      cases e : r.through g (s.place x) with
      | ub => exact i4 hg hs e
      | ok z => rw [e] at hu; exact nomatch hu
      | diverge => rw [e] at hu; exact nomatch hu
    by_cases hp : x.presence.bit (s.bit 0) = true
    · rw [if_pos hp]
      refine ⟨fun hs => ?_, fun hs => ⟨fun y hy => ?_, fun y hy => ?_⟩, hgone, hub⟩
      · show s.through (r.through g) x = s.call (r.again g) x
        rw [s.call_through (s.mark_same hx hp)]
        unfold Slot.through
        rw [i1 hs]
      · obtain ⟨z, h1, rfl⟩ := Slot.through_ok hy
        rw [s.through_abs h]
        refine s.put_same x ?_
        rw [s.get_place]
        exact congrArg _ ((i2 hs).1 z h1)
      · obtain ⟨z, h1, h2⟩ := Slot.call_ok h hx hy
        rw [h2.abs]
        refine s.put_other x ?_
        rw [s.get_place, hp]
        exact fun e => (i2 hs).2 z h1 (Card.observe_inj (fun _ => rfl) e)
    · rw [if_neg hp]
      have hp := Bool.not_eq_true _ ▸ hp
      refine ⟨fun hs => ?_, fun hs => ⟨fun y hy => ?_, fun y hy => ?_⟩, fun hs => hgone ?_, fun hg hs => hub hg ?_⟩
      · cases e : r.status (s.place x) <;> rw [e] at hs <;> exact nomatch hs
      · obtain ⟨z, h1, rfl⟩ := Slot.through_ok hy
        rw [s.through_abs h]
        refine s.put_same x ?_
        rw [s.get_place, hp]
        rfl
      · obtain ⟨z, h1, h2⟩ := Slot.call_ok h hx hy
        rw [h2.abs]
        refine s.put_other x ?_
        rw [s.get_place, hp]
        exact fun e => nomatch e
      · cases e : r.status (s.place x) <;> rw [e] at hs <;> first | rfl | exact nomatch hs
      · intro e
        rw [e] at hs
        exact hs rfl
  | _, _, _, .repeated (os := os) s, h, g, x, hx => by
    refine ⟨fun _ => ?_, fun h => (nomatch h), fun h => (nomatch h), fun hg _ hu => ?_⟩
    · show s.through g x = s.call g x
      rw [s.call_through rfl]
    · have hu : s.through g x = .ub := hu
      unfold Slot.through at hu
      cases e : g (s.place x) with
      | ub => exact hg _ (s.inv_member hx) e
      | ok z => rw [e] at hu; exact nomatch hu
      | diverge => rw [e] at hu; exact nomatch hu
  | _, _, _, .element (os := os) (cap := cap) (u := u) s i r, h, g, x, hx => by
    have hw := h
    simp only [ElemTy.WF] at hw
    have hwf := s.wf hw.1
    have hc := (hwf.2 cap rfl)
    have hi : (repSpec u.spec cap).Inv (s.place x) := s.inv_member hx
    obtain ⟨hl, hm⟩ := RepObj.modifyAt_fin (S := u.spec) hc hi i (r.again g)
    obtain ⟨i1, i2, i3, i4⟩ := classified r hwf.1 g _ (hi.2.2 _ (List.getElem_mem hl))
    have hth := RepObj.through_eq (x := s.place x) hl (r.through g)
    have hst : (Ref.element (os := os) s i r).status x =
        if i < (RepObj.len (s.place x)) then r.status (RepObj.data (s.place x))[i.val]
        else (r.status (RepObj.data (s.place x))[i.val]).hide := by
      show (match arrayGet (RepObj.data (s.place x)) i with
        | .ok z => if i < RepObj.len (s.place x) then r.status z else (r.status z).hide
        | _ => .gone) = _
      rw [arrayGet_of_lt hl]
    rw [hst]
    have hgone : r.status (RepObj.data (s.place x))[i.val] = .gone → s.through (RepObj.through i (r.through g)) x = .ub := by
      intro hs
      unfold Slot.through
      rw [hth, i3 hs]
      rfl
    have hub : (∀ z, (Card.spec _ _).Inv z → g z ≠ .ub) → r.status (RepObj.data (s.place x))[i.val] ≠ .gone →
        s.through (RepObj.through i (r.through g)) x ≠ .ub := by
      intro hg hs hu
      unfold Slot.through at hu
      rw [hth] at hu
      cases e : r.through g (RepObj.data (s.place x))[i.val] with
      | ub => exact i4 hg hs e
      | ok z => rw [e] at hu; exact nomatch hu
      | diverge => rw [e] at hu; exact nomatch hu
    have hthru : ∀ y, s.through (RepObj.through i (r.through g)) x = .ok y →
        ∃ z, r.through g (RepObj.data (s.place x))[i.val] = .ok z ∧
          (ElemTy.msg _ os).abs y = (s.put ((ElemTy.msg _ os).abs x).1
            ((repSpec u.spec cap).abs ⟨RepObj.len (s.place x), (RepObj.data (s.place x)).set i z⟩),
            ((ElemTy.msg _ os).abs x).2) := by
      intro y hy
      obtain ⟨z, h1, rfl⟩ := Slot.through_ok hy
      rw [hth] at h1
      cases e : r.through g (RepObj.data (s.place x))[i.val] with
      | ub => rw [e] at h1; exact nomatch h1
      | diverge => rw [e] at h1; exact nomatch h1
      | ok z' =>
        rw [e] at h1
        injection h1 with h1
        subst h1
        exact ⟨z', rfl, s.through_abs h _⟩
    have hagain : ∀ y, s.call (fun y => RepObj.modifyAt cap y i (r.again g)) x = .ok y →
        ∃ z, r.again g (RepObj.data (s.place x))[i.val] = .ok z ∧
          (ElemTy.msg _ os).abs y = (s.put ((ElemTy.msg _ os).abs x).1
            ((repSpec u.spec cap).abs ⟨max (RepObj.len (s.place x)) (i + 1), (RepObj.data (s.place x)).set i z⟩),
            ((ElemTy.msg _ os).abs x).2) := by
      intro y hy
      obtain ⟨z, h1, h2⟩ := Slot.call_ok h hx hy
      have h1 := hm.symm.trans h1
      cases e : r.again g (RepObj.data (s.place x))[i.val] with
      | ub => rw [e] at h1; exact nomatch h1
      | diverge => rw [e] at h1; exact nomatch h1
      | ok z' =>
        rw [e] at h1
        injection h1 with h1
        subst h1
        exact ⟨z', rfl, h2.abs⟩
    have hget : s.get ((ElemTy.msg _ os).abs x).1 = (repSpec u.spec cap).abs (s.place x) := s.get_place x
    by_cases hp : i < (RepObj.len (s.place x))
    · rw [if_pos hp]
      have hmax : max (RepObj.len (s.place x)) (i + 1) = RepObj.len (s.place x) := by omega
      refine ⟨fun hs => ?_, fun hs => ⟨fun y hy => ?_, fun y hy => ?_⟩, hgone, hub⟩
      · show s.through (RepObj.through i (r.through g)) x = s.call (fun y => RepObj.modifyAt cap y i (r.again g)) x
        refine Eq.trans ?_ (s.call_through rfl _).symm
        unfold Slot.through
        have e : RepObj.through i (r.through g) (s.place x) = RepObj.modifyAt cap (s.place x) i (r.again g) := by
          rw [hth, hm, i1 hs, hmax]
        exact congrArg (fun w : Res (RepObj u.cls.State) => w >>= fun z =>
          Res.ok { x with fields := s.setState 0 x.fields z }) e
      · obtain ⟨z, h1, h2⟩ := hthru y hy
        rw [h2]
        refine s.put_same x ?_
        rw [hget]
        exact (RepObj.abs_set hl).mpr fun _ => (i2 hs).1 z h1
      · obtain ⟨z, h1, h2⟩ := hagain y hy
        rw [h2]
        refine s.put_other x ?_
        rw [hget, hmax]
        exact fun e => (i2 hs).2 z h1 ((RepObj.abs_set hl).mp e hp)
    · rw [if_neg hp]
      refine ⟨fun hs => ?_, fun hs => ⟨fun y hy => ?_, fun y hy => ?_⟩, fun hs => hgone ?_, fun hg hs => hub hg ?_⟩
      · cases e : r.status (RepObj.data (s.place x))[i.val] <;> rw [e] at hs <;> exact nomatch hs
      · obtain ⟨z, h1, h2⟩ := hthru y hy
        rw [h2]
        refine s.put_same x ?_
        rw [hget]
        exact (RepObj.abs_set hl).mpr fun e => absurd e hp
      · obtain ⟨z, h1, h2⟩ := hagain y hy
        rw [h2]
        refine s.put_other x ?_
        rw [hget]
        intro e
        have e := congrArg List.length e
        rw [abs_length hi] at e
        have e' : (List.map u.spec.abs (List.take (max (RepObj.len (s.place x)) (i + 1))
          ((RepObj.data (s.place x)).set i z))).length = RepObj.len (s.place x) := e
        rw [List.length_map, List.length_take, List.length_set] at e'
        omega
      · cases e : r.status (RepObj.data (s.place x))[i.val] <;> rw [e] at hs <;> first | rfl | exact nomatch hs
      · intro e
        rw [e] at hs
        exact hs rfl
  | _, _, _, .member (fs := fs) (os := os) (a := a) s m r, h, g, x, hx => by
    have hw := h
    simp only [ElemTy.WF] at hw
    have hn := List.nodup_append.mp hw.2.2.1
    have ha := s.wf hw.2.1 hn.2.1
    cases hz : m.get (fs := fs) s x with
    | ub =>
      have hst : (Ref.member (fs := fs) s m r).status x = .gone := by
        show (match m.get s x with
          | .ok z => r.status z
          | _ => .gone) = _
        rw [hz]
      rw [hst]
      refine ⟨fun h => (nomatch h), fun h => (nomatch h), fun _ => ?_, fun _ h => absurd rfl h⟩
      show m.through s (r.through g) x = .ub
      unfold Member.through
      rw [hz]
      rfl
    | diverge =>
      exfalso
      have : m.readUnion (s.state x.oneofs).live = .diverge := hz
      exact m.union_defined this
    | ok z =>
      have hst : (Ref.member (fs := fs) s m r).status x = r.status z := by
        show (match m.get s x with
          | .ok z => r.status z
          | _ => .gone) = _
        rw [hz]
      obtain ⟨l1, l2, l3, l4⟩ := m.get_live s hx hz
      obtain ⟨i1, i2, i3, i4⟩ := classified r (m.wf ha.1) g z l3
      have hth := m.through_eq s hz (r.through g)
      obtain ⟨_, f, f1, f2⟩ := m.call_eq (fs := fs) s h hx
      have l4 : m.current (s.member (fs := fs) x) = z := l4
      rw [l4] at f1
      have hget : s.get ((ElemTy.msg fs os).abs x).2 = some (m.inj (ElemTy.abs _ z)) := by
        have : s.get ((ElemTy.msg fs os).abs x).2 = (s.state x.oneofs).live.map a.spec.abs := s.get_abs x.oneofs
        rw [this, l1]
        exact congrArg some (m.abs_injState z)
      rw [hst]
      refine ⟨fun hs => ?_, fun hs => ⟨fun y hy => ?_, fun y hy => ?_⟩, fun hs => ?_, fun hg hs hu => ?_⟩
      · show m.through s (r.through g) x = m.call s (r.again g) x
        rw [hth, m.call_again s h hx l4, i1 hs, l2]
      · have hy : m.through s (r.through g) x = .ok y := hy
        rw [hth] at hy
        cases e : r.through g z with
        | ub => rw [e] at hy; exact nomatch hy
        | diverge => rw [e] at hy; exact nomatch hy
        | ok z' =>
          rw [e] at hy
          injection hy with hy
          subst hy
          rw [(s.written hx _).abs]
          have e' : Option.map a.spec.abs (some (m.injState z')) = s.get ((ElemTy.msg fs os).abs x).2 := by
            rw [hget, ← (i2 hs).1 z' e]
            exact congrArg some (m.abs_injState z')
          rw [e']
          exact Prod.ext rfl (s.put_get _)
      · have hy : m.call s (r.again g) x = .ok y := hy
        rw [f1] at hy
        cases e : r.again g z with
        | ub => rw [e] at hy; exact nomatch hy
        | diverge => rw [e] at hy; exact nomatch hy
        | ok z' =>
          rw [e] at hy
          injection hy with hy
          subst hy
          rw [(f2 z').abs]
          intro e'
          refine (i2 hs).2 z' e ?_
          have e' := congrArg (fun v : (ElemTy.msg fs os).Val => s.get v.2) e'
          dsimp only at e'
          rw [s.get_put, hget] at e'
          have e' := Option.some.inj e'
          rw [m.abs_injState] at e'
          have := congrArg m.proj e'
          rw [m.proj_inj, m.proj_inj] at this
          exact Option.some.inj this
      · show m.through s (r.through g) x = .ub
        rw [hth, i3 hs]
        rfl
      · have hu : m.through s (r.through g) x = .ub := hu
        rw [hth] at hu
        cases e : r.through g z with
        | ub => exact i4 hg hs e
        | ok z => rw [e] at hu; exact nomatch hu
        | diverge => rw [e] at hu; exact nomatch hu

/-! ## Reading, obtaining and legality -/

theorem read_through : {T t : ElemTy} → {c : Card} → (r : Ref T c t) → T.WF → (g : (c.cls t).State → Res (c.cls t).State) →
    (x : T.Obj) → T.Inv x → (y : T.Obj) → r.through g x = .ok y →
    ∃ z w, r.read x = .ok z ∧ g z = .ok w ∧ r.read y = .ok w
  | _, _, _, .here _, _, g, x, _, y, hy => ⟨x, y, rfl, hy, rfl⟩
  | _, _, _, .single (os := os) s r, h, g, x, hx, y, hy => by
    have hw := h
    simp only [ElemTy.WF] at hw
    obtain ⟨z, h1, rfl⟩ := Slot.through_ok (os := os) hy
    obtain ⟨z', w, k1, k2, k3⟩ := read_through r (s.wf hw.1).1 g (s.place x) (s.inv_member hx) z h1
    exact ⟨z', w, k1, k2, (congrArg r.read (s.state_setState 0 _ z)).trans k3⟩
  | _, _, _, .optional (os := os) s r, h, g, x, hx, y, hy => by
    have hw := h
    simp only [ElemTy.WF] at hw
    obtain ⟨z, h1, rfl⟩ := Slot.through_ok (os := os) hy
    obtain ⟨z', w, k1, k2, k3⟩ := read_through r (s.wf hw.1).1 g (s.place x) (s.inv_member hx) z h1
    exact ⟨z', w, k1, k2, (congrArg r.read (s.state_setState 0 _ z)).trans k3⟩
  | _, _, _, .repeated (os := os) s, _, g, x, _, y, hy => by
    obtain ⟨z, h1, rfl⟩ := Slot.through_ok (os := os) hy
    exact ⟨_, z, rfl, h1, congrArg Res.ok (s.state_setState 0 _ z)⟩
  | _, _, _, .element (os := os) (cap := cap) (u := u) s i r, h, g, x, hx, y, hy => by
    have hw := h
    simp only [ElemTy.WF] at hw
    have hwf := s.wf hw.1
    have hi : (repSpec u.spec cap).Inv (s.place x) := s.inv_member hx
    obtain ⟨hl, _⟩ := RepObj.modifyAt_fin (S := u.spec) (hwf.2 cap rfl) hi i (r.again g)
    obtain ⟨z, h1, rfl⟩ := Slot.through_ok (os := os) hy
    rw [RepObj.through_eq hl] at h1
    cases e : r.through g (RepObj.data (s.place x))[i.val] with
    | ub => rw [e] at h1; exact nomatch h1
    | diverge => rw [e] at h1; exact nomatch h1
    | ok z₁ =>
      rw [e] at h1
      injection h1 with h1
      subst h1
      obtain ⟨z', w, k1, k2, k3⟩ := read_through r hwf.1 g _ (hi.2.2 _ (List.getElem_mem hl)) z₁ e
      refine ⟨z', w, ?_, k2, ?_⟩
      · show (arrayGet (RepObj.data (s.place x)) i >>= r.read : Res _) = _
        rw [arrayGet_of_lt hl]
        exact k1
      · have e' : (s.place (os := os) { x with fields := s.setState 0 x.fields <|
            (⟨RepObj.len (s.place x), (RepObj.data (s.place x)).set i z₁⟩ : RepObj u.cls.State) } : RepObj u.cls.State) =
            ⟨RepObj.len (s.place x), (RepObj.data (s.place x)).set i z₁⟩ := s.state_setState 0 _ _
        refine (congrArg (fun y : RepObj u.cls.State => (arrayGet y.data i >>= r.read : Res _)) e').trans ?_
        dsimp only
        rw [arrayGet_of_lt (by rw [List.length_set]; exact hl), List.getElem_set_self]
        exact k3
  | _, _, _, .member (fs := fs) (os := os) s m r, h, g, x, hx, y, hy => by
    have hw := h
    simp only [ElemTy.WF] at hw
    have hn := List.nodup_append.mp hw.2.2.1
    have ha := s.wf hw.2.1 hn.2.1
    have hy : m.through s (r.through g) x = .ok y := hy
    cases hz : m.get (fs := fs) s x with
    | ub => unfold Member.through at hy; rw [hz] at hy; exact nomatch hy
    | diverge => unfold Member.through at hy; rw [hz] at hy; exact nomatch hy
    | ok z₀ =>
      rw [m.through_eq s hz] at hy
      cases e : r.through g z₀ with
      | ub => rw [e] at hy; exact nomatch hy
      | diverge => rw [e] at hy; exact nomatch hy
      | ok z₁ =>
        rw [e] at hy
        injection hy with hy
        subst hy
        obtain ⟨z', w, k1, k2, k3⟩ := read_through r (m.wf ha.1) g z₀ (m.get_live s hx hz).2.2.1 z₁ e
        refine ⟨z', w, ?_, k2, ?_⟩
        · show (m.get (fs := fs) s x >>= r.read : Res _) = _
          rw [hz]
          exact k1
        · show (m.readUnion (s.state (s.setState x.oneofs _)).live >>= r.read : Res _) = _
          rw [s.state_setState, m.union_injState]
          exact k3

/-- What the calls along the way return is alive. -/
theorem obtained : {T t : ElemTy} → {c : Card} → (r : Ref T c t) → T.WF → (g : (c.cls t).State → Res (c.cls t).State) →
    (∀ z w, (c.spec t).Inv z → g z = .ok w → (c.spec t).Inv w) → (x : T.Obj) → T.Inv x → (y : T.Obj) → r.again g x = .ok y →
    T.Inv y ∧ r.status y = .alive ∧ ∃ z w, (c.spec t).Inv z ∧ g z = .ok w ∧ r.read y = .ok w
  | _, _, _, .here _, _, g, hg, x, hx, y, hy => ⟨hg x y hx hy, rfl, x, y, hx, hy, rfl⟩
  | _, _, _, .single (os := os) s r, h, g, hg, x, hx, y, hy => by
    have hw := h
    simp only [ElemTy.WF] at hw
    obtain ⟨z, h1, h2⟩ := Slot.call_ok (os := os) h hx hy
    obtain ⟨k1, k2, z', w, k3, k4, k5⟩ := obtained r (s.wf hw.1).1 g hg (s.place x) (s.inv_member hx) z h1
    have e : s.place y = z := h2.member
    exact ⟨h2.inv k1 (fun h => nomatch h), (congrArg r.status e).trans k2, z', w, k3, k4, (congrArg r.read e).trans k5⟩
  | _, _, _, .optional (fs := fs) (os := os) s r, h, g, hg, x, hx, y, hy => by
    have hw := h
    simp only [ElemTy.WF] at hw
    obtain ⟨z, h1, h2⟩ := Slot.call_ok (os := os) h hx hy
    obtain ⟨k1, k2, z', w, k3, k4, k5⟩ := obtained r (s.wf hw.1).1 g hg (s.place x) (s.inv_member hx) z h1
    have e : s.place y = z := h2.member
    have hi := h2.inv k1 (fun _ h => nomatch h)
    refine ⟨hi, ?_, z', w, k3, k4, (congrArg r.read e).trans k5⟩
    have hb : y.presence.bit (s.bit 0) = true := by
      have h3 := s.get_place (os := os) y
      rw [h2.abs, s.get_put] at h3
      cases hb : y.presence.bit (s.bit 0) with
      | true => rfl
      | false => rw [hb] at h3; exact nomatch h3
    show (match s.has y with
      | .ok true => r.status (s.place y)
      | _ => (r.status (s.place y)).hide) = _
    rw [s.has_bit hi, hb, e]
    exact k2
  | _, _, _, .repeated (os := os) s, h, g, hg, x, hx, y, hy => by
    obtain ⟨z, h1, h2⟩ := Slot.call_ok (os := os) h hx hy
    exact ⟨h2.inv (hg _ _ (s.inv_member hx) h1) (fun h => nomatch h), rfl, _, z, s.inv_member hx, h1,
      congrArg Res.ok h2.member⟩
  | _, _, _, .element (os := os) (cap := cap) (u := u) s i r, h, g, hg, x, hx, y, hy => by
    have hw := h
    simp only [ElemTy.WF] at hw
    have hwf := s.wf hw.1
    have hi : (repSpec u.spec cap).Inv (s.place x) := s.inv_member hx
    obtain ⟨hl, hm⟩ := RepObj.modifyAt_fin (S := u.spec) (hwf.2 cap rfl) hi i (r.again g)
    obtain ⟨z, h1, h2⟩ := Slot.call_ok (os := os) h hx hy
    have h1 := hm.symm.trans h1
    cases e : r.again g (RepObj.data (s.place x))[i.val] with
    | ub => rw [e] at h1; exact nomatch h1
    | diverge => rw [e] at h1; exact nomatch h1
    | ok z₁ =>
      rw [e] at h1
      injection h1 with h1
      obtain ⟨k1, k2, z', w, k3, k4, k5⟩ := obtained r hwf.1 g hg _ (hi.2.2 _ (List.getElem_mem hl)) z₁ e
      have e' : (s.place y : RepObj u.cls.State) =
          ⟨max (RepObj.len (s.place x)) (i + 1), (RepObj.data (s.place x)).set i z₁⟩ := h2.member.trans h1.symm
      have hinv : (repSpec u.spec cap).Inv z := by
        rw [← h1]
        refine ⟨?_, ?_, ?_⟩
        · exact (List.length_set ..).trans hi.1
        · have := hi.2.1
          have := i.isLt
          simp only at *
          omega
        · intro w hw
          rcases List.mem_or_eq_of_mem_set hw with hw | hw
          · exact hi.2.2 w hw
          · rw [hw]; exact k1
      have hge : arrayGet ((RepObj.data (s.place x)).set i z₁) i = .ok z₁ := by
        rw [arrayGet_of_lt (by rw [List.length_set]; exact hl), List.getElem_set_self]
      refine ⟨h2.inv hinv (fun h => nomatch h), ?_, z', w, k3, k4, ?_⟩
      · show (match arrayGet (RepObj.data (s.place y)) i with
          | .ok z => if i < RepObj.len (s.place y) then r.status z else (r.status z).hide
          | _ => .gone) = _
        rw [e']
        dsimp only
        rw [hge]
        dsimp only
        rw [if_pos (by omega)]
        exact k2
      · show (arrayGet (RepObj.data (s.place y)) i >>= r.read : Res _) = _
        rw [e']
        dsimp only
        rw [hge]
        exact k5
  | _, _, _, .member (fs := fs) (os := os) s m r, h, g, hg, x, hx, y, hy => by
    have hw := h
    simp only [ElemTy.WF] at hw
    have hn := List.nodup_append.mp hw.2.2.1
    have ha := s.wf hw.2.1 hn.2.1
    obtain ⟨hc, f, f1, f2⟩ := m.call_eq (fs := fs) s h hx
    have hy : m.call (fs := fs) s (r.again g) x = .ok y := hy
    rw [f1] at hy
    cases e : r.again g (m.current (s.member (fs := fs) x)) with
    | ub => rw [e] at hy; exact nomatch hy
    | diverge => rw [e] at hy; exact nomatch hy
    | ok z =>
      rw [e] at hy
      injection hy with hy
      subst hy
      obtain ⟨k1, k2, z', w, k3, k4, k5⟩ := obtained r (m.wf ha.1) g hg _ hc z e
      have hge : m.get (fs := fs) s (f z) = .ok z := by
        show m.readUnion (s.state (f z).oneofs).live = _
        have : s.state (f z).oneofs = _ := (f2 z).member
        rw [this]
        exact m.union_injState z
      refine ⟨(f2 z).inv ?_, ?_, z', w, k3, k4, ?_⟩
      · exact ⟨(m.num_injState z).symm, (m.inv_injState z).mpr k1⟩
      · show (match m.get (fs := fs) s (f z) with
          | .ok z => r.status z
          | _ => .gone) = _
        rw [hge]
        exact k2
      · show (m.get (fs := fs) s (f z) >>= r.read : Res _) = _
        rw [hge]
        exact k5

/-- The calls along the way, made again, are a call of the interface. -/
theorem api : {T t : ElemTy} → {c : Card} → (r : Ref T c t) → (g : (c.cls t).State → Res (c.cls t).State) → c.Api t g →
    MemberApi T.cls.init T.Api (r.again g)
  | _, _, _, .here _, g, hg => hg
  | _, _, _, .single (os := os) s r, g, hg =>
    .inr ⟨_, fun _ h => h, Call.sound (.field (os := os) s (r.again g)) (r.api g hg)⟩
  | _, _, _, .optional (os := os) s r, g, hg =>
    .inr ⟨_, fun _ h => h, Call.sound (.field (os := os) s (r.again g)) (r.api g hg)⟩
  | _, _, _, .repeated (os := os) s, g, hg => .inr ⟨_, fun _ h => h, Call.sound (.field (os := os) s g) hg⟩
  | _, _, _, .element (os := os) (cap := cap) (u := u) s i r, g, hg => by
    have IH := r.api g hg
    refine .inr ⟨_, fun _ h => h, Call.sound (.field (os := os) s (fun y => RepObj.modifyAt cap y i (r.again g))) ?_⟩
    refine .inr ⟨u.RepReach cap, fun _ h => h, .inr ?_⟩
    rcases IH with e | ⟨R, hR, hA⟩
    · exact .inr (.inr (.inr (.inl ⟨i, i.pos, by rw [e]; rfl⟩)))
    · exact .inr (.inr (.inr (.inr ⟨i, R, _, i.pos, hR, hA, rfl⟩)))
  | _, _, _, .member (fs := fs) s m r, g, hg =>
    .inr ⟨_, fun _ h => h, Call.sound (.member (fs := fs) s m (r.again g)) (r.api g hg)⟩

end Ref
end EP
