import Verif.Proof.Fail
import Verif.Proof.Clean
import Verif.Proof.Slot
import Verif.Spec.SlotRecord

/-! # Decoding a record of one field -/

namespace EP
open Spec

variable {fs : Fields} {os : Oneofs} {num : Nat} {c : Card} {t : ElemTy}

theorem Card.dec_law (c : Card) (t : ElemTy) (h : t.WF) (hc : ∀ cap, c = .rep cap → cap < 2147483648) :
    DecLaw (c.cls t) (c.spec t) (c.wire t) (c.Payload t) := by
  cases c with
  | single => exact ElemTy.dec_law t h
  | opt => exact ElemTy.dec_law t h
  | rep cap => exact ElemTy.rep_dec_of t (hc cap rfl) h (ElemTy.dec_law t h)

theorem Card.fail_law (c : Card) (t : ElemTy) (h : t.WF) (hc : ∀ cap, c = .rep cap → cap < 2147483648) :
    CheckLaw (c.cls t) (c.spec t) (c.Fail t) := by
  cases c with
  | single => exact ElemTy.check_law t h
  | opt => exact ElemTy.check_law t h
  | rep cap => exact ElemTy.rep_check_of t (hc cap rfl) h (ElemTy.body_law t h)

theorem Card.clean_of_hasRepMsg (c : Card) (t : ElemTy) (h : c.hasRepMsg t = false) (x : (c.cls t).State) :
    (c.spec t).Clean x := by
  cases c with
  | single => exact ElemTy.clean_of_hasRepMsg t h x
  | opt => exact ElemTy.clean_of_hasRepMsg t h x
  | rep cap =>
    cases t with
    | scalar s => exact ⟨fun _ _ => trivial, fun h => nomatch h⟩
    | str cap => exact ⟨fun _ _ => trivial, fun h => nomatch h⟩
    | msg fs os => exact nomatch h

theorem Slot.clean_state (s : Slot fs num c t) (idx : Nat) {x : (fs.cls idx).State}
    (h : (fs.spec idx).Clean x) : (c.spec t).Clean (s.state idx x) := by
  induction s generalizing idx with
  | plain => exact h.1
  | optional => exact h.1
  | repeated => exact h.1
  | afterPlain _ _ s ih => exact ih idx h.2
  | afterOptional _ _ s ih => exact ih (idx + 1) h.2
  | afterRepeated _ _ _ s ih => exact ih idx h.2

/-- The content of the data member, in terms of the value of the message. -/
theorem Slot.stored (s : Slot fs num c t) (h : (ElemTy.msg fs os).WF) {x : (ElemTy.msg fs os).Obj}
    (hx : (ElemTy.msg fs os).Inv x) :
    (c.spec t).abs (s.member (os := os) x) = c.stored t (s.get ((ElemTy.msg fs os).abs x).1) := by
  simp only [ElemTy.WF] at h
  have e : s.get ((ElemTy.msg fs os).abs x).1 =
      c.observe t (x.presence.bit (s.bit 0)) ((c.spec t).abs (s.member (os := os) x)) :=
    s.get_abs 0 x.presence.bit x.fields
  rw [e]
  cases c with
  | single => rfl
  | rep => rfl
  | opt =>
    simp only [Card.observe, Card.stored]
    cases hb : x.presence.bit (s.bit 0) with
    | true => rfl
    | false =>
      have := s.state_absent 0 hx.2.1 hb
      exact (congrArg t.spec.abs this).trans (ElemTy.base t (s.wf h.1).1).init_abs

/-- An object of which it is known that records of the field append to arrays of messages exactly
what is received: the type of the field contains no such array, or the object is tidy. -/
def Slot.Tidy (_s : Slot fs num c t) (x : (ElemTy.msg fs os).Obj) : Prop :=
  ((ElemTy.msg fs os).Reach x ∧ c.hasRepMsg t = false) ∨ (ElemTy.msg fs os).Tidy x

theorem Slot.Tidy.inv_clean {s : Slot fs num c t} {x : (ElemTy.msg fs os).Obj} (h : (ElemTy.msg fs os).WF)
    (hx : s.Tidy x) : (ElemTy.msg fs os).Inv x ∧ (c.spec t).Clean (s.member (os := os) x) := by
  rcases hx with ⟨hx, hr⟩ | hx
  · exact ⟨ElemTy.reach_inv _ h hx, c.clean_of_hasRepMsg t hr _⟩
  · obtain ⟨h1, h2⟩ := hx.inv_clean h
    exact ⟨h1, s.clean_state 0 h2.1⟩

section
variable {β : Type} [ReadBuffer β] (M : ReadModel β)

theorem deserialize_next (fuel : Nat) (b : β) (x : (ElemTy.msg fs os).Obj) (tg r : List Byte)
    (num : Nat) (wt : WireType) (hb : M.Inv b) (hv : M.view b = tg ++ r)
    (ht : Varint 32 tg (8 * num + wireNumber wt)) (hf : 0 < fuel) :
    ∃ b₁, M.Inv b₁ ∧ M.view b₁ = r ∧ ∀ b₂ y,
      MsgObj.step (fs.cls 0) os.cls fuel num wt b₁ x = .ok (.noErrors, b₂, y) →
      (ElemTy.msg fs os).cls.deserialize fuel b x =
        tagLoop (MsgObj.step (fs.cls 0) os.cls fuel) (fuel - 1) b₂ y := by
  obtain ⟨⟨q, b₁⟩, h1, h2, h3, h4⟩ := (deserializeTag_ok M tg r _ wt num ht rfl b hb hv).exists
  dsimp only at h2 h3 h4
  subst h2
  refine ⟨b₁, h3, h4, fun b₂ y hs => ?_⟩
  obtain ⟨k, hk⟩ : ∃ k, fuel = k + 1 := ⟨fuel - 1, by omega⟩
  have e : (ElemTy.msg fs os).cls.deserialize fuel b x =
    tagLoop (MsgObj.step (fs.cls 0) os.cls fuel) (k + 1) b x := by rw [← hk]; rfl
  rw [e, show fuel - 1 = k by omega]
  exact tagLoop_next _ k h1 hs

/-- The loop ends successfully at the end of the data. -/
theorem tagLoop_end {σ : Type} (step : Nat → WireType → β → σ → Res (Error × β × σ)) (k : Nat)
    {b : β} {x : σ} (hb : M.Inv b) (hv : M.view b = []) (hk : 0 < k) :
    ∃ b', tagLoop step k b x = .ok (.noErrors, b', x) ∧ M.Inv b' := by
  obtain ⟨⟨q, b'⟩, h1, h2, h3, _⟩ := (deserializeTag_nil M b hb hv).exists
  dsimp only at h2 h3
  subst h2
  obtain ⟨j, rfl⟩ : ∃ j, k = j + 1 := ⟨k - 1, by omega⟩
  exact ⟨b', tagLoop_error step j h1, h3⟩

/-- A well formed record of a field, at the end of the data. -/
theorem Slot.decode_last (s : Slot fs num c t) (h : (ElemTy.msg fs os).WF) (x : (ElemTy.msg fs os).Obj)
    (hx : s.Tidy x) (fuel : Nat) (b : β) (tg p : List Byte) (v : c.MVal t) (hb : M.Inv b)
    (hv : M.view b = tg ++ p) (ht : Varint 32 tg (8 * num + wireNumber (c.wire t)))
    (hp : c.Payload t p (c.stored t (s.get ((ElemTy.msg fs os).abs x).1)) v)
    (hf : (M.view b).length < fuel) :
    ∃ b' y, (ElemTy.msg fs os).cls.deserialize fuel b x = .ok (.noErrors, b', y) ∧
      (ElemTy.msg fs os).abs y = (s.put ((ElemTy.msg fs os).abs x).1 (c.observe t true v),
        ((ElemTy.msg fs os).abs x).2) := by
  obtain ⟨hi, hc⟩ := hx.inv_clean h
  have hlen : 0 < tg.length := by
    cases tg with
    | nil => exact ht.1.elim
    | cons => simp
  rw [hv, List.length_append] at hf
  obtain ⟨b₁, h1, h2, h3⟩ := deserialize_next M fuel b x tg p num (c.wire t) hb hv ht (by omega)
  obtain ⟨f, f1, f2⟩ := s.step h hi fuel (c.wire t) b₁
  have hwf := s.wf (by simp only [ElemTy.WF] at h; exact h.1)
  rw [← s.stored h hi] at hp
  obtain ⟨⟨e, b₂, z⟩, g1, g2, g3, g4, _, _, g7⟩ := (c.dec_law t hwf.1 hwf.2 β M fuel
    b₁ p [] _ v (s.inv_member hi) hc h1 (by rw [h2, List.append_nil]) hp (by omega)).exists
  dsimp only at g2 g3 g4 g7
  subst g2
  rw [g1, Res.ok_bind] at f1
  obtain ⟨b', l1, _⟩ := tagLoop_end M (MsgObj.step (fs.cls 0) os.cls fuel) (fuel - 1) (x := f z) g3 g4
    (by omega)
  refine ⟨b', f z, (h3 b₂ (f z) f1).trans l1, ?_⟩
  rw [(f2 z).2.1, g7]

/-- A malformed record of a field. -/
theorem Slot.decode_fail (s : Slot fs num c t) (h : (ElemTy.msg fs os).WF) (x : (ElemTy.msg fs os).Obj)
    (hx : s.Tidy x) (fuel : Nat) (b : β) (tg r : List Byte) (wt : WireType) (e : Error)
    (K : c.MVal t → Prop) (hb : M.Inv b)
    (hv : M.view b = tg ++ r) (ht : Varint 32 tg (8 * num + wireNumber wt))
    (hp : c.Fail t wt r (c.stored t (s.get ((ElemTy.msg fs os).abs x).1)) e K)
    (hf : (M.view b).length < fuel) :
    ∃ b' y v, (ElemTy.msg fs os).cls.deserialize fuel b x = .ok (e, b', y) ∧ e ≠ .noErrors ∧ K v ∧
      (ElemTy.msg fs os).abs y = (s.put ((ElemTy.msg fs os).abs x).1 (c.observe t true v),
        ((ElemTy.msg fs os).abs x).2) := by
  obtain ⟨hi, hc⟩ := hx.inv_clean h
  rw [hv, List.length_append] at hf
  obtain ⟨b₁, h1, h2, h3⟩ := deserialize_first M fuel b x tg r num wt hb hv ht (by omega)
  obtain ⟨f, f1, f2⟩ := s.step h hi fuel wt b₁
  have hwf := s.wf (by simp only [ElemTy.WF] at h; exact h.1)
  rw [← s.stored h hi, ← h2] at hp
  obtain ⟨⟨e', b₂, z⟩, g1, g2, g3, g4, g5, _, g7⟩ := (c.fail_law t hwf.1 hwf.2 β M fuel
    b₁ wt _ e K (s.inv_member hi) hc h1 hp (by rw [h2]; omega)).exists
  dsimp only at g2 g4 g7
  subst g2
  rw [g1, Res.ok_bind] at f1
  refine ⟨b₂, f z, _, h3 e' b₂ (f z) g3 f1, g3, g7, (f2 z).2.1⟩

end

/-- The wrong wire type: nothing is read and the data member is not touched. -/
theorem ElemTy.wrong_wire (t : ElemTy) {β : Type} [ReadBuffer β] (fuel : Nat) (b : β) (wt : WireType)
    (x : t.Obj) (h : wt ≠ t.wire) :
    t.cls.deserializeCheckType fuel b wt x = .ok (.invalidWiretype, b, x) := by
  cases t with
  | scalar s =>
    show (if s.wireType = wt then s.deserialize b x else _ : Res _) = _
    rw [if_neg (by rw [ScalarTy.wireType_eq]; exact h.symm)]
    rfl
  | str cap =>
    exact if_neg (α := Res _) h
  | msg fs os =>
    exact if_neg (α := Res _) h

theorem Card.wrong_wire (c : Card) (t : ElemTy) {β : Type} [ReadBuffer β] (fuel : Nat) (b : β)
    (wt : WireType) (x : (c.cls t).State) (h : wt ≠ c.wire t) :
    (c.cls t).deserializeCheckType fuel b wt x = .ok (.invalidWiretype, b, x) := by
  cases c with
  | single => exact ElemTy.wrong_wire t fuel b wt x h
  | opt => exact ElemTy.wrong_wire t fuel b wt x h
  | rep cap =>
    exact if_neg (α := Res _) h

end EP
