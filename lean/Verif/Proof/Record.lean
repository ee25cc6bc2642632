import Verif.Proof.SlotRecord
import Verif.Proof.Member
import Verif.Proof.Fuel

/-! # Decoding goes on after a record -/

namespace EP
open Spec

variable {fs : Fields} {os : Oneofs} {num : Nat} {c : Card} {t : ElemTy} {a : Alts}

section
variable {β : Type} [ReadBuffer β] (M : ReadModel β)

/-- `deserialize` called with buffer `b` and object `x` gets to buffer `b'` and object `y` after one
record, and goes on from there. -/
def Onward (fs : Fields) (os : Oneofs) (fuel : Nat) (b : β) (x : (ElemTy.msg fs os).Obj) (b' : β)
    (y : (ElemTy.msg fs os).Obj) : Prop :=
  ∀ r, (ElemTy.msg fs os).cls.deserialize (fuel - 1) b' y = .ok r →
    (ElemTy.msg fs os).cls.deserialize fuel b x = .ok r

theorem onward_of_step (fuel : Nat) (b : β) (x : (ElemTy.msg fs os).Obj) (tg r : List Byte)
    (num : Nat) (wt : WireType) (hb : M.Inv b) (hv : M.view b = tg ++ r)
    (ht : Varint 32 tg (8 * num + wireNumber wt)) (hf : 0 < fuel) :
    ∃ b₁, M.Inv b₁ ∧ M.view b₁ = r ∧ ∀ b₂ y,
      MsgObj.step (fs.cls 0) os.cls fuel num wt b₁ x = .ok (.noErrors, b₂, y) →
      Onward fs os fuel b x b₂ y := by
  obtain ⟨b₁, h1, h2, h3⟩ := deserialize_next M fuel b x tg r num wt hb hv ht hf
  refine ⟨b₁, h1, h2, fun b₂ y hs r hr => ?_⟩
  rw [h3 b₂ y hs]
  exact tagLoop_fuel (fun id wt b x => step_fuel (Fields.fuel_law fs 0) (Oneofs.fuel_law os) (fuel - 1)
    fuel id wt b x (Nat.sub_le _ _)) (fuel - 1) (fuel - 1) b₂ y (Nat.le_refl _) r hr

/-- A well formed record of a field. -/
theorem Slot.onward (s : Slot fs num c t) (h : (ElemTy.msg fs os).WF) (x : (ElemTy.msg fs os).Obj)
    (hi : (ElemTy.msg fs os).Inv x) (hc : (c.spec t).Clean (s.member (os := os) x)) (fuel : Nat) (b : β)
    (tg p rest : List Byte) (v : c.MVal t) (hb : M.Inv b)
    (hv : M.view b = tg ++ (p ++ rest)) (ht : Varint 32 tg (8 * num + wireNumber (c.wire t)))
    (hp : c.Payload t p (c.stored t (s.get ((ElemTy.msg fs os).abs x).1)) v)
    (hf : (M.view b).length < fuel) :
    ∃ b' y, Onward fs os fuel b x b' y ∧ M.Inv b' ∧ M.view b' = rest ∧ (ElemTy.msg fs os).Inv y ∧
      (c.spec t).Clean (s.member (os := os) y) ∧
      (ElemTy.msg fs os).abs y = (s.put ((ElemTy.msg fs os).abs x).1 (c.observe t true v),
        ((ElemTy.msg fs os).abs x).2) := by
  rw [hv, List.length_append, List.length_append] at hf
  obtain ⟨b₁, h1, h2, h3⟩ := onward_of_step M fuel b x tg (p ++ rest) num (c.wire t) hb hv ht (by omega)
  obtain ⟨f, f1, f2⟩ := s.step h hi fuel (c.wire t) b₁
  have hwf := s.wf (by simp only [ElemTy.WF] at h; exact h.1)
  rw [← s.stored h hi] at hp
  obtain ⟨⟨e, b₂, z⟩, g1, g2, g3, g4, g5, g6, g7⟩ := (c.dec_law t hwf.1 hwf.2 β M
    fuel b₁ p rest _ v (s.inv_member hi) hc h1 h2 hp (by omega)).exists
  dsimp only at g2 g3 g4 g5 g6 g7
  subst g2
  rw [g1, Res.ok_bind] at f1
  refine ⟨b₂, f z, h3 b₂ (f z) f1, g3, g4, (f2 z).2.2 g5, ?_, ?_⟩
  · rw [(f2 z).1]; exact g6
  · rw [(f2 z).2.1, g7]

/-- A sequence of well formed records of one field: the content changes from `u` to `v`. -/
inductive SlotRecords (num : Nat) (c : Card) (t : ElemTy) : List Byte → c.MVal t → c.MVal t → Prop where
  | nil (u : c.MVal t) : SlotRecords num c t [] u u
  | cons {tg p rest : List Byte} {u v w : c.MVal t} : Varint 32 tg (8 * num + wireNumber (c.wire t)) →
      c.Payload t p u v → SlotRecords num c t rest v w → SlotRecords num c t (tg ++ (p ++ rest)) u w

theorem Card.stored_observe (c : Card) (t : ElemTy) (v : c.MVal t) : c.stored t (c.observe t true v) = v := by
  cases c <;> rfl

theorem Slot.put_put (s : Slot fs num c t) (u : fs.Val) (v w : c.Val t) :
    s.put (s.put u v) w = s.put u w := by
  induction s with
  | plain => rfl
  | optional => rfl
  | repeated => rfl
  | afterPlain _ _ s ih => exact congrArg (Prod.mk u.1) (ih u.2 v w)
  | afterOptional _ _ s ih => exact congrArg (Prod.mk u.1) (ih u.2 v w)
  | afterRepeated _ _ _ s ih => exact congrArg (Prod.mk u.1) (ih u.2 v w)

/-- Records of one field, then a record of it that is rejected. -/
theorem Slot.decode_fail_after (s : Slot fs num c t) (h : (ElemTy.msg fs os).WF)
    {pre : List Byte} {u v : c.MVal t} (hr : SlotRecords num c t pre u v) :
    ∀ (x : (ElemTy.msg fs os).Obj), (ElemTy.msg fs os).Inv x → (c.spec t).Clean (s.member (os := os) x) →
    c.stored t (s.get ((ElemTy.msg fs os).abs x).1) = u →
    ∀ (fuel : Nat) (b : β) (tg r : List Byte) (wt : WireType) (e : Error) (K : c.MVal t → Prop), M.Inv b →
    M.view b = pre ++ (tg ++ r) → Varint 32 tg (8 * num + wireNumber wt) → c.Fail t wt r v e K →
    (M.view b).length < fuel →
    ∃ b' y w, (ElemTy.msg fs os).cls.deserialize fuel b x = .ok (e, b', y) ∧ e ≠ .noErrors ∧ K w ∧
      (ElemTy.msg fs os).abs y = (s.put ((ElemTy.msg fs os).abs x).1 (c.observe t true w),
        ((ElemTy.msg fs os).abs x).2) := by
  induction hr with
  | nil u =>
    intro x hi hc hu fuel b tg r wt e K hb hv ht hp hf
    rw [List.nil_append] at hv
    rw [hv, List.length_append] at hf
    obtain ⟨b₁, h1, h2, h3⟩ := deserialize_first M fuel b x tg r num wt hb hv ht (by omega)
    obtain ⟨f, f1, f2⟩ := s.step h hi fuel wt b₁
    have hwf := s.wf (by simp only [ElemTy.WF] at h; exact h.1)
    rw [← hu, ← s.stored h hi, ← h2] at hp
    obtain ⟨⟨e', b₂, z⟩, g1, g2, g3, g4, g5, _, g7⟩ := (c.fail_law t hwf.1 hwf.2 β M
      fuel b₁ wt _ e K (s.inv_member hi) hc h1 hp (by rw [h2]; omega)).exists
    dsimp only at g2 g4 g7
    subst g2
    rw [g1, Res.ok_bind] at f1
    exact ⟨b₂, f z, _, h3 e' b₂ (f z) g3 f1, g3, g7, (f2 z).2.1⟩
  | @cons tg' p rest u v w ht' hp' _ ih =>
    intro x hi hc hu fuel b tg r wt e K hb hv ht hp hf
    rw [List.append_assoc, List.append_assoc] at hv
    obtain ⟨b₁, y₁, h1, h2, h3, h4, h5, h6⟩ := s.onward M h x hi hc fuel b tg' p _ v hb hv ht' (hu ▸ hp') hf
    rw [hv] at hf
    have hl : 0 < tg'.length := by
      cases tg' with
      | nil => exact ht'.1.elim
      | cons => simp
    simp only [List.length_append] at hf
    obtain ⟨b', y, w', k1, k2, k3, k4⟩ := ih y₁ h4 h5 (by rw [h6]; dsimp only; rw [s.get_put, c.stored_observe])
      (fuel - 1) b₁ tg r wt e K h2 h3 ht hp (by rw [h3]; simp only [List.length_append]; omega)
    refine ⟨b', y, w', h1 _ k1, k2, k3, ?_⟩
    rw [k4, h6]
    dsimp only
    rw [s.put_put]

/-- A sequence of well formed records of one field. -/
theorem Slot.decode_all (s : Slot fs num c t) (h : (ElemTy.msg fs os).WF)
    {pre : List Byte} {u v : c.MVal t} (hr : SlotRecords num c t pre u v) :
    ∀ (x : (ElemTy.msg fs os).Obj), (ElemTy.msg fs os).Inv x → (c.spec t).Clean (s.member (os := os) x) →
    c.stored t (s.get ((ElemTy.msg fs os).abs x).1) = u →
    ∀ (fuel : Nat) (b : β), M.Inv b → M.view b = pre → (M.view b).length < fuel →
    ∃ b' y, (ElemTy.msg fs os).cls.deserialize fuel b x = .ok (.noErrors, b', y) ∧
      (c.stored t (s.get ((ElemTy.msg fs os).abs y).1) = v) ∧
      (∀ num' c' t' (s' : Slot fs num' c' t'), num' ≠ num →
        s'.get ((ElemTy.msg fs os).abs y).1 = s'.get ((ElemTy.msg fs os).abs x).1) ∧
      ((ElemTy.msg fs os).abs y).2 = ((ElemTy.msg fs os).abs x).2 := by
  induction hr with
  | nil u =>
    intro x hi hc hu fuel b hb hv hf
    obtain ⟨b', h1, _⟩ := tagLoop_end M (MsgObj.step (fs.cls 0) os.cls fuel) fuel (x := x) hb hv (by omega)
    exact ⟨b', x, h1, hu, fun _ _ _ _ _ => rfl, rfl⟩
  | @cons tg' p rest u v w ht' hp' _ ih =>
    intro x hi hc hu fuel b hb hv hf
    obtain ⟨b₁, y₁, h1, h2, h3, h4, h5, h6⟩ := s.onward M h x hi hc fuel b tg' p _ v hb hv ht' (hu ▸ hp') hf
    have hl : 0 < tg'.length := by
      cases tg' with
      | nil => exact ht'.1.elim
      | cons => simp
    rw [hv] at hf
    simp only [List.length_append] at hf
    obtain ⟨b', y, k1, k2, k3, k4⟩ := ih y₁ h4 h5 (by rw [h6]; dsimp only; rw [s.get_put, c.stored_observe])
      (fuel - 1) b₁ h2 h3 (by rw [h3]; omega)
    refine ⟨b', y, h1 _ k1, k2, fun num' c' t' s' hne => ?_, ?_⟩
    · rw [k3 _ _ _ s' hne, h6]
      exact s'.get_put_ne s hne _ _
    · rw [k4, h6]

/-- The `switch` on an unknown number. -/
theorem unknown_step (h : (ElemTy.msg fs os).WF) (fuel : Nat) (x : (ElemTy.msg fs os).Obj) {b : β}
    {wt : WireType} (hn : num ∉ fs.numbers ++ os.numbers) (h0 : 0 < num) :
    MsgObj.step (fs.cls 0) os.cls fuel num wt b x = (do
      let (e, b) ← skipUnknownField b wt
      pure (e, b, x)) := by
  simp only [ElemTy.WF] at h
  have hd := List.nodup_append.mp h.2.2.1
  have hpos : ∀ k ∈ os.numbers, 0 < k := fun k hk => (h.2.2.2 k (List.mem_append_right _ hk)).1
  unfold MsgObj.step
  rw [(Fields.dec_law fs 0 fs.nOptional h.1 hd.1 (by omega)).none β fuel num wt b _ _
      (fun hm => hn (List.mem_append_left _ hm))]
  dsimp only
  rw [(Oneofs.dec_law os h.2.1 hd.2.1 hpos).none β fuel num wt b _
      (fun hm => hn (List.mem_append_right _ hm))]
  dsimp only
  rw [if_neg (by omega)]

/-- An unknown record. -/
theorem unknown_onward (h : (ElemTy.msg fs os).WF) (x : (ElemTy.msg fs os).Obj) (fuel : Nat) (b : β)
    (tg p rest : List Byte) (wt : WireType) (h0 : 0 < num) (hn : num ∉ fs.numbers ++ os.numbers)
    (hb : M.Inv b) (hv : M.view b = tg ++ (p ++ rest)) (ht : Varint 32 tg (8 * num + wireNumber wt))
    (hp : UnknownPayload wt p) (hf : 0 < fuel) :
    ∃ b', Onward fs os fuel b x b' x ∧ M.Inv b' ∧ M.view b' = rest := by
  obtain ⟨b₁, h1, h2, h3⟩ := onward_of_step M fuel b x tg (p ++ rest) num wt hb hv ht hf
  obtain ⟨⟨e, b₂⟩, g1, g2, g3, g4⟩ := (skipUnknown_ok M wt b₁ p rest h1 h2 hp).exists
  dsimp only at g2 g3 g4
  subst g2
  refine ⟨b₂, h3 b₂ x ?_, g3, g4⟩
  rw [unknown_step h fuel x hn h0, g1]
  rfl

/-- An unknown record that cannot be skipped. -/
theorem unknown_fail (h : (ElemTy.msg fs os).WF) (x : (ElemTy.msg fs os).Obj) (fuel : Nat) (b : β)
    (tg r : List Byte) (wt : WireType) (e : Error) (h0 : 0 < num) (hn : num ∉ fs.numbers ++ os.numbers)
    (hb : M.Inv b) (hv : M.view b = tg ++ r) (ht : Varint 32 tg (8 * num + wireNumber wt))
    (hp : UnknownBad wt r e) (hf : 0 < fuel) :
    ∃ b', (ElemTy.msg fs os).cls.deserialize fuel b x = .ok (e, b', x) ∧ e ≠ .noErrors ∧ M.Inv b' := by
  obtain ⟨b₁, h1, h2, h3⟩ := deserialize_first M fuel b x tg r num wt hb hv ht hf
  obtain ⟨⟨e', b₂⟩, g1, g2, g3⟩ := (skipUnknown_bad M wt b₁ e h1 (h2.symm ▸ hp)).exists
  dsimp only at g2 g3
  subst g2
  refine ⟨b₂, h3 _ b₂ x hp.ne ?_, hp.ne, g3⟩
  rw [unknown_step h fuel x hn h0, g1]
  rfl

end

/-! ## Members of a oneof -/

/-- What is known of a member before a record for it: its value if it is set, else the default. -/
def Member.before (m : Member a num t) (v : Option a.Val) : t.Val := (v.bind m.proj).getD t.dflt

theorem Member.abs_current (m : Member a num t) (h : a.WF) (o : OneofObj a.cls.U) :
    t.abs (m.current o) = m.before (o.live.map a.spec.abs) := by
  obtain ⟨w, live⟩ := o
  unfold Member.current Member.before
  cases live with
  | none => exact (ElemTy.base t (m.wf h)).init_abs
  | some u =>
    show t.abs ((m.projState u).getD t.cls.init) = (m.proj (a.spec.abs u)).getD t.dflt
    rw [m.proj_abs]
    cases m.projState u with
    | none => exact (ElemTy.base t (m.wf h)).init_abs
    | some z => rfl

theorem Member.clean_current (m : Member a num t) (h : a.WF) (hn : a.numbers.Nodup)
    (o : OneofObj a.cls.U) (hc : ∀ u, o.live = some u → a.spec.Clean u) : t.Clean (m.current o) := by
  obtain ⟨w, live⟩ := o
  unfold Member.current
  cases live with
  | none => exact (ElemTy.base t (m.wf h)).init_clean
  | some u =>
    show t.Clean ((m.projState u).getD t.cls.init)
    cases hp : m.projState u with
    | none => exact (ElemTy.base t (m.wf h)).init_clean
    | some z =>
      by_cases hu : a.spec.num u = num
      · obtain ⟨y, rfl⟩ := m.of_num h hn u hu
        rw [m.projState_injState] at hp
        cases hp
        exact (m.clean_injState _).mp (hc _ rfl)
      · rw [m.projState_of_num h hn u hu] at hp
        exact nomatch hp

/-- The object with another oneof object. -/
def OneofSlot.set (s : OneofSlot os a) (x : (ElemTy.msg fs os).Obj) (o : OneofObj a.cls.U) :
    (ElemTy.msg fs os).Obj :=
  { x with oneofs := s.setState x.oneofs o }

theorem OneofSlot.abs_set (s : OneofSlot os a) (x : (ElemTy.msg fs os).Obj) (o : OneofObj a.cls.U) :
    (ElemTy.msg fs os).abs (s.set x o) =
      (((ElemTy.msg fs os).abs x).1, s.put ((ElemTy.msg fs os).abs x).2 (o.live.map a.spec.abs)) :=
  Prod.ext rfl (s.abs_setState _ _)

/-- A record of a member is decoded into the live object, or a new one. -/
theorem Member.step (m : Member a num t) (s : OneofSlot os a) (h : (ElemTy.msg fs os).WF)
    {x : (ElemTy.msg fs os).Obj} (hx : (ElemTy.msg fs os).Inv x) {β : Type} [ReadBuffer β] (fuel : Nat)
    (wt : WireType) (b : β) :
    MsgObj.step (fs.cls 0) os.cls fuel num wt b x = (do
      let (e, b, z) ← t.cls.deserializeCheckType fuel b wt (m.current (s.member (fs := fs) x))
      pure (e, b, s.set x (if e = .noErrors then ⟨num, some (m.injState z)⟩ else ⟨0, none⟩))) ∧
    t.Inv (m.current (s.member (fs := fs) x)) ∧
    t.abs (m.current (s.member (fs := fs) x)) = m.before (s.get ((ElemTy.msg fs os).abs x).2) := by
  have hwf := h
  simp only [ElemTy.WF] at h
  have hn := List.nodup_append.mp h.2.2.1
  obtain ⟨w1, w2⟩ := s.wf h.2.1 hn.2.1
  have h0 : 0 ∉ a.numbers := fun h0 =>
    absurd (h.2.2.2 0 (List.mem_append_right _ (s.mem h0))).1 (by omega)
  have ho := s.inv_state hx.2.2
  refine ⟨?_, (m.activate w1 w2 h0 ho).2, ?_⟩
  · rw [s.step hwf m.mem x fuel wt b, m.deserializeObj w1 w2 h0 ho]
    cases t.cls.deserializeCheckType fuel b wt (m.current (s.member (fs := fs) x)) <;> rfl
  · rw [m.abs_current w1]
    exact congrArg m.before (s.get_abs x.oneofs).symm

section
variable {β : Type} [ReadBuffer β] (M : ReadModel β)

/-- A well formed record of a member. -/
theorem Member.onward (m : Member a num t) (s : OneofSlot os a) (h : (ElemTy.msg fs os).WF)
    (x : (ElemTy.msg fs os).Obj) (hi : (ElemTy.msg fs os).Inv x)
    (hc : t.Clean (m.current (s.member (fs := fs) x))) (fuel : Nat) (b : β)
    (tg p rest : List Byte) (v : t.Val) (hb : M.Inv b)
    (hv : M.view b = tg ++ (p ++ rest)) (ht : Varint 32 tg (8 * num + wireNumber t.wire))
    (hp : t.Payload p (m.before (s.get ((ElemTy.msg fs os).abs x).2)) v)
    (hf : (M.view b).length < fuel) :
    ∃ b' z, Onward fs os fuel b x b' (s.set x ⟨num, some (m.injState z)⟩) ∧ M.Inv b' ∧
      M.view b' = rest ∧ t.Inv z ∧ t.abs z = v ∧
      (ElemTy.msg fs os).abs (s.set x ⟨num, some (m.injState z)⟩) =
        (((ElemTy.msg fs os).abs x).1, s.put ((ElemTy.msg fs os).abs x).2 (some (m.inj v))) := by
  rw [hv, List.length_append, List.length_append] at hf
  obtain ⟨b₁, h1, h2, h3⟩ := onward_of_step M fuel b x tg (p ++ rest) num t.wire hb hv ht (by omega)
  obtain ⟨f1, f2, f3⟩ := m.step s h hi fuel t.wire b₁
  have hwf : t.WF := by
    simp only [ElemTy.WF] at h
    exact m.wf (s.wf h.2.1 (List.nodup_append.mp h.2.2.1).2.1).1
  rw [← f3] at hp
  obtain ⟨⟨e, b₂, z⟩, g1, g2, g3, g4, g5, g6, g7⟩ := (ElemTy.dec_law t hwf β M
    fuel b₁ p rest _ v f2 hc h1 h2 hp (by omega)).exists
  dsimp only at g2 g3 g4 g5 g6 g7
  subst g2
  rw [g1, Res.ok_bind] at f1
  refine ⟨b₂, z, h3 b₂ _ f1, g3, g4, g5, g7, ?_⟩
  rw [s.abs_set]
  show (_, s.put _ (some (a.spec.abs (m.injState z)))) = _
  rw [m.abs_injState]
  exact congrArg (fun v => (_, s.put _ (some (m.inj v)))) g7

/-- A record of a member that is rejected. -/
theorem Member.decode_fail (m : Member a num t) (s : OneofSlot os a) (h : (ElemTy.msg fs os).WF)
    (x : (ElemTy.msg fs os).Obj) (hi : (ElemTy.msg fs os).Inv x)
    (hc : t.Clean (m.current (s.member (fs := fs) x))) (fuel : Nat) (b : β)
    (tg r : List Byte) (wt : WireType) (e : Error) (hb : M.Inv b)
    (hv : M.view b = tg ++ r) (ht : Varint 32 tg (8 * num + wireNumber wt))
    (hp : CheckFail t.wire t.isMsg t.BodyFail wt r (m.before (s.get ((ElemTy.msg fs os).abs x).2)) e
      (fun _ => True)) (hf : (M.view b).length < fuel) :
    ∃ b' y, (ElemTy.msg fs os).cls.deserialize fuel b x = .ok (e, b', y) ∧ e ≠ .noErrors ∧
      (ElemTy.msg fs os).abs y =
        (((ElemTy.msg fs os).abs x).1, s.put ((ElemTy.msg fs os).abs x).2 none) := by
  rw [hv, List.length_append] at hf
  obtain ⟨b₁, h1, h2, h3⟩ := deserialize_first M fuel b x tg r num wt hb hv ht (by omega)
  obtain ⟨f1, f2, f3⟩ := m.step s h hi fuel wt b₁
  have hwf : t.WF := by
    simp only [ElemTy.WF] at h
    exact m.wf (s.wf h.2.1 (List.nodup_append.mp h.2.2.1).2.1).1
  rw [← f3, ← h2] at hp
  obtain ⟨⟨e', b₂, z⟩, g1, g2, g3, _⟩ := (ElemTy.check_law t hwf β M
    fuel b₁ wt _ e _ f2 hc h1 hp (by rw [h2]; omega)).exists
  dsimp only at g2
  subst g2
  rw [g1, Res.ok_bind] at f1
  dsimp only at f1
  rw [if_neg g3] at f1
  exact ⟨b₂, _, h3 e' b₂ _ g3 f1, g3, s.abs_set x _⟩

end

/-- A repeated field holds at most as many elements as declared. -/
theorem Slot.length_le {fs : Fields} {os : Oneofs} {num cap : Nat} {t : ElemTy}
    (s : Slot fs num (.rep cap) t) {x : (ElemTy.msg fs os).Obj} (hx : (ElemTy.msg fs os).Inv x) :
    List.length (α := t.Val) (s.get ((ElemTy.msg fs os).abs x).1) ≤ cap := by
  have e : s.get ((ElemTy.msg fs os).abs x).1 =
      List.map t.spec.abs (RepObj.elems (s.member (os := os) x)) :=
    s.get_abs 0 x.presence.bit x.fields
  rw [e, List.length_map]
  have h := s.inv_member hx
  exact Nat.le_trans (List.length_take_le _ _) h.2.1

end EP
