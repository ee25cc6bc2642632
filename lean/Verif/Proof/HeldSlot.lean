import Verif.Proof.Held
import Verif.Proof.Record

/-! # Elements received by one repeated field, in terms of what its array holds -/

namespace EP
open Spec

/-- The array of a repeated field: the elements in use and the leftovers after them. -/
def Slot.array {fs : Fields} {os : Oneofs} {num cap : Nat} {t : ElemTy} (s : Slot fs num (.rep cap) t)
    (x : (ElemTy.msg fs os).Obj) : List t.Held × List t.Held :=
  (repHeldSpec t.heldSpec cap).abs (s.member (os := os) x)

/-- `bs` are records of field `num`, one for each of the elements `ys`, each received into the next of
the leftovers `hs`; `hs'` are the leftovers that are left. -/
inductive Into (num : Nat) (t : ElemTy) : List Byte → List t.Held → List t.Held → List t.Held → Prop where
  | nil (hs : List t.Held) : Into num t [] hs [] hs
  | cons {tg p rest : List Byte} {h y : t.Held} {hs ys hs' : List t.Held} :
      Varint 32 tg (8 * num + 2) → t.HPayload p h y → Into num t rest hs ys hs' →
      Into num t (tg ++ (p ++ rest)) (h :: hs) (y :: ys) hs'

section
variable {fs : Fields} {os : Oneofs} {num cap : Nat} {t : ElemTy}

theorem rep_spec_seen (t : ElemTy) (cap : Nat) (z : RepObj t.cls.State) :
    ((repHeldSpec t.heldSpec cap).Inv z ↔ (repSpec t.spec cap).Inv z) ∧
    (repSpec t.spec cap).abs z = ((repHeldSpec t.heldSpec cap).abs z).1.map t.seen := by
  refine ⟨and_congr Iff.rfl (and_congr Iff.rfl ?_), ?_⟩
  · exact forall_congr' fun d => imp_congr Iff.rfl (ElemTy.held_spec t d).1
  · show List.map _ _ = List.map t.seen (List.map _ _)
    rw [List.map_map]
    exact List.map_congr_left fun d _ => (ElemTy.held_spec t d).2.1.symm

/-- The visible value is that of the elements in use. -/
theorem Slot.get_array (s : Slot fs num (.rep cap) t) (x : (ElemTy.msg fs os).Obj) :
    s.get ((ElemTy.msg fs os).abs x).1 = ((s.array x).1.map t.seen : List t.Val) :=
  (s.get_abs 0 x.presence.bit x.fields).trans (rep_spec_seen t cap (s.member (os := os) x)).2

theorem Slot.array_length (s : Slot fs num (.rep cap) t) {x : (ElemTy.msg fs os).Obj}
    (hx : (ElemTy.msg fs os).Inv x) : (s.array x).1.length + (s.array x).2.length = cap := by
  have h := s.inv_member hx
  show (List.map _ (List.take _ _)).length + (List.map _ (List.drop _ _)).length = cap
  rw [List.length_map, List.length_map, ← List.length_append, List.take_append_drop]
  exact h.1

theorem Slot.sized_array (s : Slot fs num (.rep cap) t) {x : (ElemTy.msg fs os).Obj}
    (hx : (ElemTy.msg fs os).Inv x) : ∀ g ∈ (s.array x).2, t.Sized g := by
  have h := s.inv_member hx
  intro g hg
  obtain ⟨d, hd, rfl⟩ := List.mem_map.mp hg
  exact ElemTy.sized_held t d (h.2.2 d (List.mem_of_mem_drop hd))

variable {β : Type} [ReadBuffer β] (M : ReadModel β)

/-- One element. -/
theorem Slot.onward_array (s : Slot fs num (.rep cap) t) (h : (ElemTy.msg fs os).WF)
    (hsc : t.isScalar = false) (x : (ElemTy.msg fs os).Obj) (hi : (ElemTy.msg fs os).Inv x) (fuel : Nat)
    (b : β) (tg p rest : List Byte) (es hs : List t.Held) (g y : t.Held) (ha : s.array x = (es, g :: hs))
    (hb : M.Inv b) (hv : M.view b = tg ++ (p ++ rest)) (ht : Varint 32 tg (8 * num + 2))
    (hp : t.HPayload p g y) (hf : (M.view b).length < fuel) :
    ∃ b' z, Onward fs os fuel b x b' z ∧ M.Inv b' ∧ M.view b' = rest ∧ (ElemTy.msg fs os).Inv z ∧
      s.array z = (es ++ [y], hs) ∧
      (ElemTy.msg fs os).abs z = (s.put ((ElemTy.msg fs os).abs x).1 ((es ++ [y]).map t.seen : List t.Val),
        ((ElemTy.msg fs os).abs x).2) := by
  rw [hv, List.length_append, List.length_append] at hf
  obtain ⟨b₁, h1, h2, h3⟩ := onward_of_step M fuel b x tg (p ++ rest) num .lengthDelimited hb hv ht (by omega)
  obtain ⟨f, f1, f2⟩ := s.step h hi fuel .lengthDelimited b₁
  have hwf := s.wf (by simp only [ElemTy.WF] at h; exact h.1)
  have hr := rep_spec_seen t cap (s.member (os := os) x)
  have hlaw := ElemTy.rep_dec_held t (hwf.2 cap rfl) (ElemTy.dec_held t hwf.1)
  simp only [hsc, Bool.false_eq_true, ↓reduceIte] at hlaw
  obtain ⟨⟨e, b₂, z⟩, g1, g2, g3, g4, g5, _, g7⟩ := (hlaw β M fuel b₁ p rest (s.member (os := os) x)
    (es ++ [y], hs) (hr.1.mpr (s.inv_member hi)) trivial h1 h2
    ⟨g, hs, y, congrArg Prod.snd ha, hp, by rw [show ((repHeldSpec t.heldSpec cap).abs (s.member x)).1 = es from
      congrArg Prod.fst ha]⟩ (by omega)).exists
  dsimp only at g2 g3 g4 g5 g7
  subst g2
  have f1 : MsgObj.step (fs.cls 0) os.cls fuel num .lengthDelimited b₁ x = .ok (.noErrors, b₂, f z) := by
    refine f1.trans ?_
    refine Eq.trans (congrArg (· >>= fun r => pure (r.1, r.2.1, f r.2.2)) g1) ?_
    rfl
  have hz := rep_spec_seen t cap z
  refine ⟨b₂, f z, h3 b₂ (f z) f1, g3, g4, (f2 z).2.2 (hz.1.mp g5), ?_, ?_⟩
  · show (repHeldSpec t.heldSpec cap).abs (s.member (os := os) (f z)) = _
    rw [(f2 z).1]; exact g7
  · rw [(f2 z).2.1]
    refine congrArg (fun v => (s.put ((ElemTy.msg fs os).abs x).1 v, ((ElemTy.msg fs os).abs x).2)) ?_
    refine hz.2.trans ?_
    rw [g7]

/-- Any number of elements, then whatever follows. -/
theorem Slot.onward_into (s : Slot fs num (.rep cap) t) (h : (ElemTy.msg fs os).WF)
    (hsc : t.isScalar = false) {pre : List Byte} {hs ys hs' : List t.Held} (hi : Into num t pre hs ys hs') :
    ∀ (x : (ElemTy.msg fs os).Obj), (ElemTy.msg fs os).Inv x → ∀ es, s.array x = (es, hs) →
    ∀ (fuel : Nat) (b : β) (rest : List Byte), M.Inv b → M.view b = pre ++ rest →
    (M.view b).length < fuel →
    ∃ b' z fuel', rest.length < fuel' ∧ (∀ r, (ElemTy.msg fs os).cls.deserialize fuel' b' z = .ok r →
        (ElemTy.msg fs os).cls.deserialize fuel b x = .ok r) ∧
      M.Inv b' ∧ M.view b' = rest ∧ (ElemTy.msg fs os).Inv z ∧ s.array z = (es ++ ys, hs') ∧
      (ElemTy.msg fs os).abs z = (s.put ((ElemTy.msg fs os).abs x).1 ((es ++ ys).map t.seen : List t.Val),
        ((ElemTy.msg fs os).abs x).2) := by
  induction hi with
  | nil hs =>
    intro x hx es ha fuel b rest hb hv hf
    rw [List.nil_append] at hv
    refine ⟨b, x, fuel, by rw [hv] at hf; exact hf, fun _ h => h, hb, hv, hx, by rw [List.append_nil]; exact ha, ?_⟩
    rw [List.append_nil]
    have := s.get_array x
    rw [ha] at this
    rw [← this, s.put_get]
    rfl
  | @cons tg p rest' g y hs ys hs' ht hp _ ih =>
    intro x hx es ha fuel b rest hb hv hf
    rw [List.append_assoc, List.append_assoc] at hv
    obtain ⟨b₁, x₁, h1, h2, h3, h4, h5, h6⟩ :=
      s.onward_array M h hsc x hx fuel b tg p (rest' ++ rest) es hs g y ha hb hv ht hp hf
    have hl : 0 < tg.length := by
      cases tg with
      | nil => exact ht.1.elim
      | cons => simp
    rw [hv] at hf
    simp only [List.length_append] at hf
    obtain ⟨b₂, z, fuel', k0, k1, k2, k3, k4, k5, k6⟩ := ih x₁ h4 (es ++ [y]) h5 (fuel - 1) b₁ rest h2 h3
      (by rw [h3]; simp only [List.length_append]; omega)
    rw [List.append_assoc, List.singleton_append] at k5 k6
    refine ⟨b₂, z, fuel', k0, fun r hr => h1 r (k1 r hr), k2, k3, k4, k5, ?_⟩
    rw [k6, h6]
    exact congrArg (fun v => (v, ((ElemTy.msg fs os).abs x).2)) (s.put_put _ _ _)

/-- An element for which there is no room. -/
theorem Slot.full_array (s : Slot fs num (.rep cap) t) (h : (ElemTy.msg fs os).WF)
    (hsc : t.isScalar = false) (x : (ElemTy.msg fs os).Obj) (hi : (ElemTy.msg fs os).Inv x) (fuel : Nat)
    (b : β) (tg r : List Byte) (es : List t.Held) (ha : s.array x = (es, []))
    (hb : M.Inv b) (hv : M.view b = tg ++ r) (ht : Varint 32 tg (8 * num + 2)) (hf : 0 < fuel) :
    ∃ b' z, (ElemTy.msg fs os).cls.deserialize fuel b x = .ok (.arrayFull, b', z) ∧ M.Inv b' ∧
      M.view b' = r ∧ s.array z = s.array x ∧ (ElemTy.msg fs os).abs z = (ElemTy.msg fs os).abs x := by
  obtain ⟨b₁, h1, h2, h3⟩ := deserialize_first M fuel b x tg r num .lengthDelimited hb hv ht hf
  obtain ⟨f, f1, f2⟩ := s.step h hi fuel .lengthDelimited b₁
  have hfull : ¬ cap > (RepObj.len (s.member (os := os) x)) := by
    have h0 : (List.map t.heldSpec.abs (List.drop (RepObj.len (s.member (os := os) x))
      (RepObj.data (s.member (os := os) x)))) = [] := congrArg Prod.snd ha
    have hd := (s.inv_member hi).1
    have h0 := congrArg List.length h0
    rw [List.length_map, List.length_drop, List.length_nil] at h0
    have hd : (RepObj.data (s.member (os := os) x)).length = cap := hd
    omega
  have hstep : (Card.cls (.rep cap) t).deserializeCheckType fuel b₁ .lengthDelimited (s.member (os := os) x) =
      .ok (.arrayFull, b₁, s.member (os := os) x) := by
    show RepObj.deserialize (E := t.cls) cap fuel b₁ (s.member (os := os) x) = _
    unfold RepObj.deserialize
    rw [(ElemTy.unpackedElem t hsc).notPacked, if_neg (by simp)]
    unfold RepObj.deserializeUnpacked
    dsimp only
    rw [if_neg hfull]
    rfl
  have f1 : MsgObj.step (fs.cls 0) os.cls fuel num .lengthDelimited b₁ x =
      .ok (.arrayFull, b₁, f (s.member (os := os) x)) := by
    refine f1.trans ?_
    refine Eq.trans (congrArg (· >>= fun r => pure (r.1, r.2.1, f r.2.2)) hstep) ?_
    rfl
  refine ⟨b₁, f (s.member (os := os) x), h3 .arrayFull b₁ _ (by simp) f1, h1, h2, ?_, ?_⟩
  · show (repHeldSpec t.heldSpec cap).abs (s.member (os := os) (f _)) = _
    rw [(f2 _).1]; rfl
  · rw [(f2 _).2.1]
    have := s.stored h hi
    refine Eq.trans (congrArg (fun v => (s.put ((ElemTy.msg fs os).abs x).1 v, ((ElemTy.msg fs os).abs x).2)) (this.trans rfl : _ = s.get ((ElemTy.msg fs os).abs x).1)) ?_
    rw [s.put_get]
    rfl

end

end EP
