import Verif.Proof.HeldSlot
import Verif.Proof.LostParse

/-! # A packed field of a message, through the reference decoder -/

namespace EP
open Spec

section
variable {fs : Fields} {os : Oneofs} {num cap : Nat} {sc : ScalarTy}
variable {β : Type} [ReadBuffer β] (M : ReadModel β)

/-- Decoding goes on after a packed field for which the reference decoder has a result. -/
theorem Slot.onward_packed (s : Slot fs num (.rep cap) (.scalar sc)) (h : (ElemTy.msg fs os).WF)
    (x : (ElemTy.msg fs os).Obj) (hi : (ElemTy.msg fs os).Inv x) (fuel : Nat) (b : β) (tg q rest : List Byte)
    (es hs : List sc.Val) (hb : M.Inv b) (hv : M.view b = tg ++ q) (ht : Varint 32 tg (8 * num + 2))
    (hp : parseScalars sc.read q (s.array x) = .ok (es, hs) rest) (hf : (M.view b).length < fuel) :
    ∃ b' z, Onward fs os fuel b x b' z ∧ M.Inv b' ∧ M.view b' = rest ∧ (ElemTy.msg fs os).Inv z ∧
      s.array z = (es, hs) ∧
      (ElemTy.msg fs os).abs z = (s.put ((ElemTy.msg fs os).abs x).1 es, ((ElemTy.msg fs os).abs x).2) := by
  rw [hv, List.length_append] at hf
  obtain ⟨b₁, h1, h2, h3⟩ := onward_of_step M fuel b x tg q num .lengthDelimited hb hv ht (by omega)
  obtain ⟨f, f1, f2⟩ := s.step h hi fuel .lengthDelimited b₁
  have hwf := s.wf (by simp only [ElemTy.WF] at h; exact h.1)
  have hr := rep_spec_seen (.scalar sc) cap (s.member (os := os) x)
  have hlaw := rep_checkParse (rep_packed_bodyParse (scalar_packedRead sc) (hwf.2 cap rfl))
    β M.cursor fuel b₁ q .lengthDelimited (s.member (os := os) x) (hr.1.mpr (s.inv_member hi)) ⟨h1, h2⟩ (by omega)
  have hp' : parseScalars sc.read q ((repHeldSpec (scalarSpec sc) cap).abs (s.member (os := os) x)) =
    .ok (es, hs) rest := hp
  simp only [expect, ↓reduceIte] at hlaw
  rw [hp'] at hlaw
  obtain ⟨⟨e, b₂, z⟩, g1, g2, g3, _, g5, g7⟩ := Res.Post.exists hlaw
  dsimp only at g2 g3 g5 g7
  subst g2
  have f1 : MsgObj.step (fs.cls 0) os.cls fuel num .lengthDelimited b₁ x = .ok (.noErrors, b₂, f z) := by
    refine f1.trans ?_
    replace g1 : ((Card.rep cap).cls (ElemTy.scalar sc)).deserializeCheckType fuel b₁ .lengthDelimited
      (s.member (os := os) x) = .ok (.noErrors, b₂, z) := g1
    refine Eq.trans (congrArg (· >>= fun r => pure (r.1, r.2.1, f r.2.2)) g1) ?_
    rfl
  have hz := rep_spec_seen (.scalar sc) cap z
  refine ⟨b₂, f z, h3 b₂ (f z) f1, g3.1, g3.2, (f2 z).2.2 (hz.1.mp g5), ?_, ?_⟩
  · show (repHeldSpec (scalarSpec sc) cap).abs (s.member (os := os) (f z)) = _
    rw [(f2 z).1]; exact g7
  · rw [(f2 z).2.1]
    refine congrArg (fun v => (s.put ((ElemTy.msg fs os).abs x).1 v, ((ElemTy.msg fs os).abs x).2)) ?_
    refine hz.2.trans ?_
    have : ((repHeldSpec (ElemTy.scalar sc).heldSpec cap).abs z).1 = es := congrArg Prod.fst g7
    rw [this]
    exact List.map_id es

/-- The same for a packed field that is refused. -/
theorem Slot.refused_packed (s : Slot fs num (.rep cap) (.scalar sc)) (h : (ElemTy.msg fs os).WF)
    (x : (ElemTy.msg fs os).Obj) (hi : (ElemTy.msg fs os).Inv x) (fuel : Nat) (b : β) (tg q : List Byte)
    (es hs : List sc.Val) (e : Error) (hb : M.Inv b) (hv : M.view b = tg ++ q) (ht : Varint 32 tg (8 * num + 2))
    (hp : parseScalars sc.read q (s.array x) = .fail e (es, hs)) (hf : (M.view b).length < fuel) :
    ∃ b' z, (ElemTy.msg fs os).cls.deserialize fuel b x = .ok (e, b', z) ∧ e ≠ .noErrors ∧
      (ElemTy.msg fs os).abs z = (s.put ((ElemTy.msg fs os).abs x).1 es, ((ElemTy.msg fs os).abs x).2) := by
  rw [hv, List.length_append] at hf
  obtain ⟨b₁, h1, h2, h3⟩ := deserialize_first M fuel b x tg q num .lengthDelimited hb hv ht (by omega)
  obtain ⟨f, f1, f2⟩ := s.step h hi fuel .lengthDelimited b₁
  have hwf := s.wf (by simp only [ElemTy.WF] at h; exact h.1)
  have hr := rep_spec_seen (.scalar sc) cap (s.member (os := os) x)
  have hlaw := rep_checkParse (rep_packed_bodyParse (scalar_packedRead sc) (hwf.2 cap rfl))
    β M.cursor fuel b₁ q .lengthDelimited (s.member (os := os) x) (hr.1.mpr (s.inv_member hi)) ⟨h1, h2⟩ (by omega)
  have hp' : parseScalars sc.read q ((repHeldSpec (scalarSpec sc) cap).abs (s.member (os := os) x)) =
    .fail e (es, hs) := hp
  simp only [expect, ↓reduceIte] at hlaw
  rw [hp'] at hlaw
  obtain ⟨⟨e', b₂, z⟩, g1, g2, g3, g5, g7⟩ := Res.Post.exists hlaw
  dsimp only at g2 g3 g5 g7
  subst g2
  have f1 : MsgObj.step (fs.cls 0) os.cls fuel num .lengthDelimited b₁ x = .ok (e', b₂, f z) := by
    refine f1.trans ?_
    replace g1 : ((Card.rep cap).cls (ElemTy.scalar sc)).deserializeCheckType fuel b₁ .lengthDelimited
      (s.member (os := os) x) = .ok (e', b₂, z) := g1
    refine Eq.trans (congrArg (· >>= fun r => pure (r.1, r.2.1, f r.2.2)) g1) ?_
    rfl
  have hz := rep_spec_seen (.scalar sc) cap z
  refine ⟨b₂, f z, h3 e' b₂ (f z) g3 f1, g3, ?_⟩
  rw [(f2 z).2.1]
  refine congrArg (fun v => (s.put ((ElemTy.msg fs os).abs x).1 v, ((ElemTy.msg fs os).abs x).2)) ?_
  refine hz.2.trans ?_
  have : ((repHeldSpec (ElemTy.scalar sc).heldSpec cap).abs z).1 = es := congrArg Prod.fst g7
  rw [this]
  exact List.map_id es

/-- A varint that is too long: its first `k` bytes are gone. -/
theorem readVarint_long (k : Nat) (q r : List Byte) (hl : q.length = k) (hc : ∀ b ∈ q, cont b = true) :
    readVarint k (q ++ r) = (.error .overlongVarint, r) := by
  induction k generalizing q with
  | zero => rw [List.eq_nil_of_length_eq_zero hl]; rfl
  | succ k ih =>
    cases q with
    | nil => exact nomatch hl
    | cons b q =>
      rw [List.cons_append, readVarint, if_pos (hc b List.mem_cons_self)]
      exact Reader.map_error (ih q (Nat.succ.inj hl) fun c hc' => hc c (List.mem_cons_of_mem _ hc'))

theorem readLen_long (q r : List Byte) (hl : q.length = 5) (hc : ∀ b ∈ q, cont b = true) :
    readLen (q ++ r) = (.error .overlongVarint, r) :=
  Reader.map_error (readVarint_long 5 q r hl hc)

end

end EP
