import Verif.Spec.Steady
import Verif.Proof.Made
import Verif.Proof.Held
import Verif.Proof.Blank

/-! # Declarations in which nothing can be left behind: the objects -/

namespace EP
open Spec

variable {fs : Fields} {os : Oneofs} {num cap : Nat} {c : Card} {t : ElemTy} {a : Alts}

/-! ## Messages that are always empty -/

mutual
theorem ElemTy.steady_of_empty : (t : ElemTy) → (∀ v, t.Fits v → v = t.dflt) → t.Steady
  | .scalar _, _ => trivial
  | .str _, _ => trivial
  | .msg fs os, h => by
    refine ⟨Fields.steady_of_empty fs fun v hv => ?_, Oneofs.steady_of_empty os fun v hv => ?_⟩
    · exact congrArg Prod.fst (h (v, os.dflt) ⟨hv, os.fits_dflt⟩)
    · exact congrArg Prod.snd (h (fs.dflt, v) ⟨fs.fits_dflt, hv⟩)
theorem Fields.steady_of_empty : (fs : Fields) → (∀ v, fs.Fits v → v = fs.dflt) → fs.Steady
  | .nil, _ => trivial
  | .plain _ t rest, h => ⟨ElemTy.steady_of_empty t fun v hv => congrArg Prod.fst (h (v, rest.dflt) ⟨hv, rest.fits_dflt⟩),
      Fields.steady_of_empty rest fun v hv => congrArg Prod.snd (h (t.dflt, v) ⟨t.fits_dflt, hv⟩)⟩
  | .optional _ t rest, h => nomatch congrArg Prod.fst (h (some t.dflt, rest.dflt)
      ⟨fun _ e => Option.some.inj e ▸ t.fits_dflt, rest.fits_dflt⟩)
  | .repeated _ cap t rest, h => by
    refine ⟨fun _ => .inl (Classical.byContradiction fun hc => ?_), Fields.steady_of_empty rest fun v hv => ?_⟩
    · exact nomatch congrArg Prod.fst (h (([t.dflt] : List t.Val), rest.dflt)
        ⟨⟨Nat.pos_of_ne_zero hc, fun x hx => List.mem_singleton.mp hx ▸ t.fits_dflt⟩, rest.fits_dflt⟩)
    · exact congrArg Prod.snd (h (([] : List t.Val), v) ⟨⟨Nat.zero_le _, fun _ hx => nomatch hx⟩, hv⟩)
theorem Oneofs.steady_of_empty : (os : Oneofs) → (∀ v, os.Fits v → v = os.dflt) → os.Steady
  | .nil, _ => trivial
  | .cons a rest, h => by
    refine ⟨?_, Oneofs.steady_of_empty rest fun v hv => congrArg Prod.snd (h (none, v) ⟨nofun, hv⟩)⟩
    cases a with
    | nil => trivial
    | cons n t r => exact nomatch congrArg Prod.fst (h (some (.inl t.dflt), rest.dflt)
        ⟨fun _ e => Option.some.inj e ▸ t.fits_dflt, rest.fits_dflt⟩)
end

/-! ## Leftovers are blank -/

mutual
theorem ElemTy.blank_of_steady : (t : ElemTy) → t.Steady → (x : t.cls.State) → t.spec.Inv x → t.Blank (t.heldSpec.abs x)
  | .scalar _, _, _, _ => trivial
  | .str _, _, _, _ => trivial
  | .msg fs os, hs, x, h => ⟨Fields.blank_of_steady fs 0 hs.1 x.presence.bit x.fields h.2.1,
      Oneofs.blank_of_steady os hs.2 x.oneofs h.2.2⟩
theorem Fields.blank_of_steady : (fs : Fields) → (idx : Nat) → fs.Steady → (b : Nat → Bool) → (s : (fs.cls idx).State) →
    (fs.spec idx).Inv b s → fs.Blank ((fs.heldSpec idx).abs b s)
  | .nil, _, _, _, _, _ => trivial
  | .plain num t rest, idx, hs, b, s, h => ⟨ElemTy.blank_of_steady t hs.1 s.1 h.1, Fields.blank_of_steady rest idx hs.2 b s.2 h.2⟩
  | .optional num t rest, idx, hs, b, s, h => by
    refine ⟨fun x hx => ?_, Fields.blank_of_steady rest (idx + 1) hs.2 b s.2 h.2⟩
    have hx : (if b idx then some (t.heldSpec.abs s.1) else none) = some x := hx
    cases hb : b idx with
    | false => rw [hb] at hx; exact nomatch hx
    | true =>
      rw [hb] at hx
      injection hx with hx
      rw [← hx]
      exact ElemTy.blank_of_steady t hs.1 s.1 h.1.1
  | .repeated num cap t rest, idx, hs, b, s, h => by
    obtain ⟨⟨h1, h2, h3⟩, h4⟩ := h
    refine ⟨fun ht x hx => ?_, Fields.blank_of_steady rest idx hs.2 b s.2 h4⟩
    obtain ⟨d, hd, rfl⟩ := List.mem_map.mp hx
    have hm := List.mem_of_mem_drop hd
    rcases hs.1 ht with h0 | h0
    · rw [h0] at h1
      rw [List.eq_nil_of_length_eq_zero h1] at hm
      exact nomatch hm
    · refine ⟨(t.seen_held d).trans (h0 _ (t.fits_abs d (h3 d hm))), ?_⟩
      exact ElemTy.blank_of_steady t (t.steady_of_empty h0) d (h3 d hm)
theorem Alts.blank_of_steady : (a : Alts) → a.Steady → (u : a.cls.U) → a.spec.Inv u → a.Blank (a.heldSpec.abs u)
  | .nil, _, u, _ => nomatch u
  | .cons _ t _, hs, .inl x, h => ElemTy.blank_of_steady t hs.1 x h
  | .cons _ _ rest, hs, .inr u, h => Alts.blank_of_steady rest hs.2 u h
theorem Oneofs.blank_of_steady : (os : Oneofs) → os.Steady → (s : os.cls.State) → os.spec.Inv s →
    os.Blank (os.heldSpec.abs s)
  | .nil, _, _, _ => trivial
  | .cons a rest, hs, s, h => by
    refine ⟨fun x hx => ?_, Oneofs.blank_of_steady rest hs.2 s.2 h.2⟩
    obtain ⟨u, hu, rfl⟩ := Option.map_eq_some_iff.mp hx
    have := h.1
    unfold AltsSpec.ObjInv at this
    rw [hu] at this
    exact Alts.blank_of_steady a hs.1 u this.2
end

/-! ## Calls on a part are calls on the whole -/

theorem Slot.state_init (s : Slot fs num c t) (idx : Nat) : s.state idx (fs.cls idx).init = (c.cls t).init := by
  induction s generalizing idx with
  | plain => rfl
  | optional => rfl
  | repeated => rfl
  | afterPlain _ _ s ih => exact ih idx
  | afterOptional _ _ s ih => exact ih (idx + 1)
  | afterRepeated _ _ _ s ih => exact ih idx

theorem OneofSlot.state_init (s : OneofSlot os a) : (s.state os.cls.init).live = none := by
  induction s with
  | here => rfl
  | after _ s ih => exact ih

theorem lift_single (h : (ElemTy.msg fs os).WF) (s : Slot fs num .single t) {y : t.cls.State} (hy : t.Reach y) :
    ∃ x, (ElemTy.msg fs os).Reach x ∧ s.member (os := os) x = y := by
  induction hy with
  | init => exact ⟨_, .init, s.state_init 0⟩
  | @step R f y z hR hf _ e _ ih =>
    obtain ⟨x, hx, rfl⟩ := ih
    obtain ⟨k, k1, k2⟩ := s.call_eq h (ElemTy.reach_inv _ h hx)
    exact ⟨k z, .step (fun _ h => h) ((Call.field s f).sound (Or.inr ⟨R, hR, hf⟩)) hx ((k1 f).trans (by rw [e]; rfl)), (k2 z).member⟩

theorem lift_optional (h : (ElemTy.msg fs os).WF) (s : Slot fs num .opt t) {y : t.cls.State} (hy : t.Reach y) :
    ∃ x, (ElemTy.msg fs os).Reach x ∧ s.member (os := os) x = y ∧ s.get ((ElemTy.msg fs os).abs x).1 ≠ none := by
  have key : ∀ (x : (ElemTy.msg fs os).Obj) (f : t.cls.State → Res t.cls.State) (z : t.cls.State), (ElemTy.msg fs os).Reach x →
      MemberApi t.cls.init t.Api f → f (s.member (os := os) x) = .ok z →
      ∃ x, (ElemTy.msg fs os).Reach x ∧ s.member (os := os) x = z ∧ s.get ((ElemTy.msg fs os).abs x).1 ≠ none := by
    intro x f z hx hf e
    obtain ⟨k, k1, k2⟩ := s.call_eq h (ElemTy.reach_inv _ h hx)
    refine ⟨k z, .step (fun _ h => h) ((Call.field s f).sound hf) hx ((k1 f).trans (by rw [e]; rfl)), (k2 z).member, ?_⟩
    rw [(k2 z).abs, s.get_put]
    exact nofun
  induction hy with
  | init => exact key _ pure _ .init (Or.inl rfl) (congrArg Res.ok (s.state_init 0))
  | @step R f y z hR hf _ e _ ih =>
    obtain ⟨x, hx, rfl, _⟩ := ih
    exact key x f z hx (Or.inr ⟨R, hR, hf⟩) e

theorem lift_member (h : (ElemTy.msg fs os).WF) (s : OneofSlot os a) (m : Member a num t) {y : t.cls.State} (hy : t.Reach y) :
    ∃ x, (ElemTy.msg fs os).Reach x ∧ (s.member (fs := fs) x).live = some (m.injState y) := by
  have key : ∀ (x : (ElemTy.msg fs os).Obj) (f : t.cls.State → Res t.cls.State) (z : t.cls.State), (ElemTy.msg fs os).Reach x →
      MemberApi t.cls.init t.Api f → f (m.current (s.member (fs := fs) x)) = .ok z →
      ∃ x, (ElemTy.msg fs os).Reach x ∧ (s.member (fs := fs) x).live = some (m.injState z) := by
    intro x f z hx hf e
    obtain ⟨_, k, k1, k2⟩ := m.call_eq s h (ElemTy.reach_inv _ h hx)
    exact ⟨k z, .step (fun _ h => h) ((Call.member s m f).sound hf) hx ((k1 f).trans (by rw [e]; rfl)),
      congrArg OneofObj.live (k2 z).member⟩
  induction hy with
  | init =>
    refine key _ pure _ .init (Or.inl rfl) (congrArg Res.ok ?_)
    have e : (s.member (fs := fs) (ElemTy.msg fs os).cls.init).live = none := s.state_init
    unfold Member.current
    rw [e]
    rfl
  | @step R f y z hR hf _ e _ ih =>
    obtain ⟨x, hx, e'⟩ := ih
    refine key x f z hx (Or.inr ⟨R, hR, hf⟩) ?_
    unfold Member.current
    rw [e', Option.bind_some, m.projState_injState]
    exact e

/-- A full array of one element that was emptied with `set_data`. -/
theorem lift_stale (h : (ElemTy.msg fs os).WF) (s : Slot fs num (.rep cap) t) (hc : cap ≠ 0) {y : t.cls.State} (hy : t.Reach y) :
    ∃ x z rest, (ElemTy.msg fs os).Reach x ∧ RepObj.len (s.member (os := os) x) = 0 ∧
      RepObj.stale (s.member (os := os) x) = z :: rest ∧ t.abs z = t.abs y := by
  have hw := h
  simp only [ElemTy.WF] at hw
  have ht := s.wf hw.1
  have hx0 : (ElemTy.msg fs os).Reach (ElemTy.msg fs os).cls.init := .init
  have i0 := ElemTy.reach_inv _ h hx0
  obtain ⟨k, k1, k2⟩ := s.call_eq h i0
  have e0 : RepObj.len (s.member (os := os) (ElemTy.msg fs os).cls.init) = 0 := congrArg RepObj.len (s.state_init 0)
  have im : (repSpec t.spec cap).Inv (s.member (os := os) (ElemTy.msg fs os).cls.init) := s.inv_member i0
  obtain ⟨w, w1, _, w3⟩ := (rep_add_eq (ElemTy.base t ht.1) (ht.2 cap rfl) im (ElemTy.reach_inv t ht.1 hy)).1
    (by rw [e0]; exact Nat.pos_of_ne_zero hc)
  obtain ⟨o, o1, o2⟩ : ∃ o : RepObj t.cls.State, RepObj.add cap (s.member (os := os) (ElemTy.msg fs os).cls.init) y =
      .ok (.noErrors, o) ∧ ∃ rest, o.data = w :: rest := by
    refine ⟨_, w1, ?_⟩
    obtain ⟨d, ds, e⟩ := List.exists_cons_of_length_pos (l := RepObj.data (s.member (os := os) (ElemTy.msg fs os).cls.init))
      (by rw [im.1]; exact Nat.pos_of_ne_zero hc)
    refine ⟨ds, ?_⟩
    show List.set _ _ _ = _
    rw [e0, e]
    rfl
  obtain ⟨rest, o2⟩ := o2
  have hr1 : (ElemTy.msg fs os).Reach (k o) :=
    .step (fun _ h => h) ((Call.field s fun w => RepObj.add cap w y >>= fun r => pure r.2).sound
      (Or.inr ⟨fun _ => False, fun _ h => h.elim, Or.inr (Or.inl ⟨y, hy, rfl⟩)⟩)) hx0 ((k1 _).trans (by rw [o1]; rfl))
  obtain ⟨q, q1, q2⟩ := s.call_eq h (ElemTy.reach_inv _ h hr1)
  refine ⟨q (RepObj.mk 0 o.data), w, rest, .step (fun _ h => h)
    ((Call.field s fun w => RepObj.setData cap w [] >>= fun r => pure r.2).sound
      (Or.inr ⟨fun _ => False, fun _ h => h.elim, Or.inr (Or.inr (Or.inr (Or.inl ⟨[], nofun, rfl⟩)))⟩)) hr1
      ((q1 _).trans (by rw [(k2 o).member]; rfl)), ?_, ?_, w3⟩
  · exact congrArg RepObj.len (q2 (RepObj.mk 0 o.data)).member
  · exact (congrArg RepObj.stale (q2 (RepObj.mk 0 o.data)).member).trans o2

/-! ## What blank leftovers mean for the parts -/

/-- For one data member. -/
def Card.HBlank : (c : Card) → (t : ElemTy) → Bool → (c.cls t).State → Prop
  | .single, t, _, z => t.Blank (t.held z)
  | .opt, t, p, z => p = true → t.Blank (t.held z)
  | .rep _, t, _, z => t.isMsg = true → ∀ d ∈ RepObj.stale z, t.abs d = t.dflt

theorem Slot.blank_state (s : Slot fs num c t) (idx : Nat) (b : Nat → Bool) (x : (fs.cls idx).State)
    (h : fs.Blank ((fs.heldSpec idx).abs b x)) : c.HBlank t (b (s.bit idx)) (s.state idx x) := by
  induction s generalizing idx with
  | plain => exact h.1
  | optional num t rest =>
    intro hp
    refine h.1 _ ?_
    exact if_pos hp
  | repeated num cap t rest =>
    intro ht d hd
    exact (t.seen_held d).symm.trans (h.1 ht _ (List.mem_map_of_mem hd)).1
  | afterPlain _ _ s ih => exact ih idx x.2 h.2
  | afterOptional _ _ s ih => exact ih (idx + 1) x.2 h.2
  | afterRepeated _ _ _ s ih => exact ih idx x.2 h.2

theorem OneofSlot.blank_state (s : OneofSlot os a) (x : os.cls.State) (h : os.Blank (os.heldSpec.abs x)) (u : a.cls.U)
    (hu : (s.state x).live = some u) : a.Blank (a.heldSpec.abs u) := by
  induction s with
  | here => exact h.1 _ (Option.map_eq_some_iff.mpr ⟨u, hu, rfl⟩)
  | after _ s ih => exact ih x.2 h.2 u hu

theorem Member.blank_inj (m : Member a num t) (z : t.Obj) (h : a.Blank (a.heldSpec.abs (m.injState z))) : t.Blank (t.held z) := by
  induction m with
  | here => exact h
  | after _ _ m ih => exact ih z h

/-! ## The declarations -/

/-- What is needed of one field. -/
def Card.Fine : Card → ElemTy → Prop
  | .single, t => ∀ y, t.Reach y → t.Blank (t.held y)
  | .opt, t => ∀ y, t.Reach y → t.Blank (t.held y)
  | .rep cap, t => t.isMsg = true → cap = 0 ∨ ∀ v, t.Fits v → v = t.dflt

mutual
theorem ElemTy.steady_of_blank : (t : ElemTy) → t.WF → (∀ x, t.Reach x → t.Blank (t.held x)) → t.Steady
  | .scalar _, _, _ => trivial
  | .str _, _, _ => trivial
  | .msg fs os, h, H => by
    have hw := h
    simp only [ElemTy.WF] at hw
    refine ⟨Fields.steady_of_blank fs hw.1 fun {num c t} s => ?_, Oneofs.steady_of_blank os hw.2.1 fun {a num t} s m y hy => ?_⟩
    · cases c with
      | single =>
        intro y hy
        obtain ⟨x, hx, rfl⟩ := lift_single h s hy
        exact s.blank_state 0 _ _ (H x hx).1
      | opt =>
        intro y hy
        obtain ⟨x, hx, rfl, hp⟩ := lift_optional h s hy
        refine s.blank_state 0 _ _ (H x hx).1 ?_
        have e : s.get ((ElemTy.msg fs os).abs x).1 = _ := s.get_abs 0 x.presence.bit x.fields
        rw [e] at hp
        cases hb : x.presence.bit (s.bit 0) with
        | true => rfl
        | false => rw [hb] at hp; exact absurd rfl hp
      | rep cap =>
        intro ht
        refine Classical.or_iff_not_imp_left.mpr fun hc v hv => ?_
        obtain ⟨y, hy, rfl⟩ := ElemTy.made t (s.wf hw.1).1 v hv
        obtain ⟨x, z, rest, hx, _, hz, e⟩ := lift_stale h s hc hy.reach
        exact e.symm.trans (s.blank_state 0 _ _ (H x hx).1 ht z (by rw [hz]; exact List.mem_cons_self))
    · obtain ⟨x, hx, e⟩ := lift_member h s m hy
      exact m.blank_inj y (s.blank_state _ (H x hx).2 _ e)
theorem Fields.steady_of_blank : (fs : Fields) → fs.WF → (∀ {num c t}, Slot fs num c t → c.Fine t) → fs.Steady
  | .nil, _, _ => trivial
  | .plain num t rest, h, H => by
    simp only [Fields.WF] at h
    exact ⟨ElemTy.steady_of_blank t h.1 (H (.plain num t rest)), Fields.steady_of_blank rest h.2 fun s => H (.afterPlain num t s)⟩
  | .optional num t rest, h, H => by
    simp only [Fields.WF] at h
    exact ⟨ElemTy.steady_of_blank t h.1 (H (.optional num t rest)),
      Fields.steady_of_blank rest h.2 fun s => H (.afterOptional num t s)⟩
  | .repeated num cap t rest, h, H => by
    simp only [Fields.WF] at h
    exact ⟨H (.repeated num cap t rest), Fields.steady_of_blank rest h.2.2 fun s => H (.afterRepeated num cap t s)⟩
theorem Alts.steady_of_blank : (a : Alts) → a.WF → (∀ {num t}, Member a num t → ∀ y, t.Reach y → t.Blank (t.held y)) → a.Steady
  | .nil, _, _ => trivial
  | .cons num t rest, h, H => by
    simp only [Alts.WF] at h
    exact ⟨ElemTy.steady_of_blank t h.1 (H (.here num t rest)), Alts.steady_of_blank rest h.2 fun m => H (.after num t m)⟩
theorem Oneofs.steady_of_blank : (os : Oneofs) → os.WF →
    (∀ {a num t}, OneofSlot os a → Member a num t → ∀ y, t.Reach y → t.Blank (t.held y)) → os.Steady
  | .nil, _, _ => trivial
  | .cons a rest, h, H => by
    simp only [Oneofs.WF] at h
    exact ⟨Alts.steady_of_blank a h.1 fun m => H (.here a rest) m, Oneofs.steady_of_blank rest h.2 fun s => H (.after a s)⟩
end

/-- Nothing can be left behind in any object, exactly for these declarations. -/
theorem ElemTy.steady_iff (t : ElemTy) (h : t.WF) : (∀ x, t.Reach x → t.Blank (t.held x)) ↔ t.Steady :=
  ⟨t.steady_of_blank h, fun hs x hx => t.blank_of_steady hs x (ElemTy.reach_inv t h hx)⟩

end EP
