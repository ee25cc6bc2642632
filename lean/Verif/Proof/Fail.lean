import Verif.Proof.Safety
import Verif.Spec.Fail

/-! # Decoding of malformed input -/

namespace EP
open Spec

variable {V W : Type}

/-- What a failing `deserialize` leaves behind. -/
def FailPost {C : FieldClass} {β : Type} [ReadBuffer β] (S : ClassSpec C V) (M : ReadModel β) (e : Error)
    (K : V → Prop) (r : Error × β × C.State) : Prop :=
  r.1 = e ∧ e ≠ .noErrors ∧ M.Inv r.2.1 ∧ S.Inv r.2.2 ∧ S.Clean r.2.2 ∧ K (S.abs r.2.2)

/-- `B` describes failures of `deserialize`. -/
def BodyLaw (C : FieldClass) (S : ClassSpec C V) (B : List Byte → V → Error → (V → Prop) → Prop) : Prop :=
  ∀ (β : Type) [ReadBuffer β] (M : ReadModel β) (fuel : Nat) (b : β) (x : C.State) (e : Error)
    (K : V → Prop), S.Inv x → S.Clean x → M.Inv b → B (M.view b) (S.abs x) e K →
    (M.view b).length < fuel → (C.deserialize fuel b x).Post (FailPost S M e K)

/-- `B` describes failures of `deserialize_check_type`. -/
def CheckLaw (C : FieldClass) (S : ClassSpec C V)
    (B : WireType → List Byte → V → Error → (V → Prop) → Prop) : Prop :=
  ∀ (β : Type) [ReadBuffer β] (M : ReadModel β) (fuel : Nat) (b : β) (wt : WireType) (x : C.State)
    (e : Error) (K : V → Prop), S.Inv x → S.Clean x → M.Inv b → B wt (M.view b) (S.abs x) e K →
    (M.view b).length < fuel → (C.deserializeCheckType fuel b wt x).Post (FailPost S M e K)

/-! ## Varints -/

section
variable {β : Type} [ReadBuffer β]

theorem BadVarint.ne {w : Nat} {bs : List Byte} {e : Error} (h : BadVarint w bs e) : e ≠ .noErrors := by
  rcases h with ⟨_, rfl⟩ | ⟨_, rfl⟩ <;> simp

theorem varint_bad (M : ReadModel β) (w : Nat) (hw : 0 < w) (b : β) (e : Error) (hb : M.Inv b)
    (h : BadVarint w (M.view b) e) :
    (deserializeVarint w b).Post fun p => p.1 = .error e ∧ M.Inv p.2 := by
  rcases h with ⟨⟨hl, hc⟩, rfl⟩ | ⟨⟨q, r, hv, hl, hc⟩, rfl⟩
  · exact (deserializeVarint_short M w _ hc hl b hb rfl).mono fun p h => ⟨h.1, h.2.1⟩
  · exact (deserializeVarint_long M w hw q r hc hl b hb hv).mono fun p h => ⟨h.1, h.2.1⟩

/-! ## Scalars -/

theorem ScalarTy.Bad.ne {s : ScalarTy} {bs : List Byte} {e : Error} (h : s.Bad bs e) : e ≠ .noErrors := by
  cases s <;> first | exact BadVarint.ne h | (rw [h.2]; simp)

theorem scalar_bad (M : ReadModel β) (s : ScalarTy) (b : β) (e : Error) (hb : M.Inv b)
    (h : s.Bad (M.view b) e) :
    (s.decode b).Post fun p => p.1 = .error e ∧ M.Inv p.2 := by
  have hmap : ∀ (w : Nat) (f : BitVec 64 → BitVec w), BadVarint 64 (M.view b) e → (do
      let (r, buf) ← deserializeVarint 64 b
      pure (r.map f, buf) : Res (Except Error (BitVec w) × β)).Post fun p =>
      p.1 = .error e ∧ M.Inv p.2 := by
    intro w f hbad
    refine Res.Post_bind.mpr ?_
    refine (varint_bad M 64 (by decide) b e hb hbad).mono ?_
    rintro ⟨p, b'⟩ ⟨h1, h2⟩
    dsimp only at h1 h2
    subst h1
    exact ⟨rfl, h2⟩
  have hfix : ∀ w, (M.view b).length < w / 8 → e = .endOfBuffer → (deserializeFixed w b).Post fun p =>
      p.1 = .error e ∧ M.Inv p.2 := by
    rintro w hl rfl
    exact (deserializeFixed_short M w b hb hl).mono fun p h => ⟨h.1, h.2.1⟩
  cases s with
  | int32 => exact hmap 32 _ h
  | int64 => exact hmap 64 _ h
  | uint32 => exact varint_bad M 32 (by decide) b e hb h
  | uint64 => exact varint_bad M 64 (by decide) b e hb h
  | sint32 => exact hmap 32 _ h
  | sint64 => exact hmap 64 _ h
  | boolean =>
    obtain ⟨hv, rfl⟩ := h
    exact (deserializeBool_nil M b hb hv).mono fun p h => ⟨h.1, h.2.1⟩
  | enumeration => exact varint_bad M 32 (by decide) b e hb h
  | fixed32 => exact hfix 32 h.1 h.2
  | sfixed32 => exact hfix 32 h.1 h.2
  | floatfixed => exact hfix 32 h.1 h.2
  | fixed64 => exact hfix 64 h.1 h.2
  | sfixed64 => exact hfix 64 h.1 h.2
  | doublefixed => exact hfix 64 h.1 h.2

end

theorem scalar_bodyLaw (s : ScalarTy) :
    BodyLaw (scalarClass s) (scalarSpec s) (fun bs u e K => s.Bad bs e ∧ K u) := by
  intro β _ M fuel b x e K _ _ hb h _
  show (s.deserialize b x).Post _
  unfold ScalarTy.deserialize
  refine Res.Post_bind.mpr ((scalar_bad M s b e hb h.1).mono ?_)
  rintro ⟨p, b'⟩ ⟨h1, h2⟩
  dsimp only at h1 h2
  subst h1
  exact ⟨rfl, h.1.ne, h2, trivial, trivial, h.2⟩

theorem scalar_checkLaw (s : ScalarTy) :
    CheckLaw (scalarClass s) (scalarSpec s)
      (CheckFail s.wire false (fun bs u e K => s.Bad bs e ∧ K u)) := by
  intro β _ M fuel b wt x e K hx hc hb h hf
  show (if s.wireType = wt then s.deserialize b x else _ : Res _).Post _
  rcases h with ⟨hw, rfl, hK⟩ | ⟨rfl, h⟩
  · rw [if_neg (by rw [ScalarTy.wireType_eq]; exact hw.symm)]
    exact ⟨rfl, by simp, hb, trivial, trivial, hK⟩
  · rw [if_pos (ScalarTy.wireType_eq s)]
    exact scalar_bodyLaw s β M fuel b x e K hx hc hb h hf

/-! ## Strings and bytes -/

theorem str_bodyLaw (cap : Nat) (hc : cap < 2147483648) :
    BodyLaw (strClass cap) (strSpec cap) (StrFail cap) := by
  intro β _ M fuel b x e K hx hcl hb h _
  show (StrObj.deserialize cap b x).Post _
  unfold StrObj.deserialize
  refine Res.Post_bind.mpr ?_
  rcases h with ⟨hbad, hK⟩ | ⟨p, r, n, hv, hp, h⟩
  · refine (varint_bad M 32 (by decide) b e hb hbad).mono ?_
    rintro ⟨q, b'⟩ ⟨h1, h2⟩
    dsimp only at h1 h2
    subst h1
    exact ⟨rfl, hbad.ne, h2, hx, trivial, hK⟩
  · refine (varint_dec M 32 p r n hp b hb hv).mono ?_
    rintro ⟨q, b'⟩ ⟨h1, h2, h3⟩
    dsimp only at h1 h2 h3
    subst h1
    dsimp only
    rw [ofNat32_toNat (Varint.lt hp)]
    rcases h with ⟨hn, rfl, hK⟩ | ⟨hn, hl, rfl, hK⟩
    · rw [if_neg (by omega)]
      exact ⟨rfl, by simp, h2, hx, trivial, hK⟩
    · rw [if_pos hn]
      refine Res.Post_bind.mpr ((readLoop_total M cap (by omega) n b' _ h2 (StrObj.clear_wf cap x) (by
        show 0 + n ≤ cap; omega)).mono ?_)
      rintro ⟨b'', y⟩ ⟨q1, q2, q3, q4, q5⟩
      dsimp only at q1 q2 q3 q4 q5
      rw [h3] at q4 q5
      have h0 : (StrObj.clear cap x).len = 0 := rfl
      rw [h0] at q4
      have hyl : y.len = r.length := by
        rw [q4, Nat.min_eq_right (by omega), Nat.zero_add]
      have hyc : y.chars = r := by
        rw [q5, List.take_of_length_le (by omega)]
        exact congrArg (· ++ r) (StrObj.clear_chars cap x)
      rw [if_pos (by rw [hyl]; omega)]
      exact ⟨rfl, by simp, q1, q2, trivial, by
        show K y.chars
        rw [hyc]; exact hK⟩

/-! ## Blocks -/

theorem Section.new_view {β : Type} [ReadBuffer β] (M : ReadModel β) (b : β) (n : Nat) (h : M.Inv b) :
    sectionView M (Section.new b n) = (M.view b).take n := by
  have := M.getSize_ge b h
  show List.take (min n (ReadBuffer.getSize b)) (M.view b) = _
  by_cases hn : n ≤ ReadBuffer.getSize b
  · rw [Nat.min_eq_left hn]
  · rw [Nat.min_eq_right (by omega), List.take_of_length_le this, List.take_of_length_le (by omega)]

section
variable {C : FieldClass} {S : ClassSpec C V} {B : List Byte → V → Error → (V → Prop) → Prop}

/-- The length prefix of a block, then `deserialize` on its contents. -/
theorem block_fail (h : BodyLaw C S B) {β : Type} [ReadBuffer β] (M : ReadModel β) (fuel : Nat) (b : β)
    (x : C.State) (u₀ : V) (e : Error) (K K' : V → Prop) (hx : S.Inv x) (hc : S.Clean x) (hb : M.Inv b)
    (hB : BlockFail B (M.view b) u₀ (S.abs x) e K K') (hf : (M.view b).length < fuel) :
    (∃ b', deserializeVarint 32 b = .ok (.error e, b') ∧ M.Inv b' ∧ e ≠ .noErrors ∧ K u₀) ∨
    (∃ n b', deserializeVarint 32 b = .ok (.ok n, b') ∧
      (C.deserialize fuel (Section.new b' n.toNat) x).Post (FailPost S (Section.model M (M.view b')) e K')) := by
  rcases hB with ⟨hbad, hK⟩ | ⟨p, r, n, hv, hp, hB⟩
  · obtain ⟨⟨q, b'⟩, h0, h1, h2⟩ := (varint_bad M 32 (by decide) b e hb hbad).exists
    dsimp only at h1 h2
    subst h1
    exact Or.inl ⟨b', h0, h2, hbad.ne, hK⟩
  · obtain ⟨⟨q, b'⟩, h0, h1, h2, h3⟩ := (varint_dec M 32 p r n hp b hb hv).exists
    dsimp only at h1 h2 h3
    subst h1
    refine Or.inr ⟨_, b', h0, ?_⟩
    rw [ofNat32_toNat (Varint.lt hp)]
    have hvs := Section.new_view M b' n h2
    rw [h3] at hvs
    refine h _ (Section.model M (M.view b')) fuel _ x e K' hx hc (Section.new_inv M b' n h2) ?_ ?_
    · show B (sectionView M _) _ _ _
      rw [hvs]; exact hB
    · show (sectionView M _).length < _
      rw [hvs]
      rw [hv, List.length_append] at hf
      rw [List.length_take]
      omega

theorem msg_checkLaw {n : Nat} {F : FieldsClass} {O : OneofsClass} {S : ClassSpec (messageClass n F O) V}
    {B : List Byte → V → Error → (V → Prop) → Prop} (h : BodyLaw (messageClass n F O) S B) :
    CheckLaw (messageClass n F O) S (CheckFail .lengthDelimited true B) := by
  intro β _ M fuel b wt x e K hx hc hb hB hf
  show (MsgObj.deserializeCheckType F O fuel b wt x).Post _
  unfold MsgObj.deserializeCheckType
  rcases hB with ⟨hw, rfl, hK⟩ | ⟨rfl, hB⟩
  · rw [if_neg hw]
    exact ⟨rfl, by simp, hb, hx, hc, hK⟩
  · rw [if_pos rfl]
    rw [if_pos rfl] at hB
    rcases block_fail h M fuel b x _ e K K hx hc hb hB hf with ⟨b', h0, h1, h2, h3⟩ | ⟨n, b', h0, h1⟩
    · rw [h0, Res.ok_bind]
      exact ⟨rfl, h2, h1, hx, hc, h3⟩
    · rw [h0, Res.ok_bind]
      refine Res.Post_bind.mpr (Res.Post.mono h1 ?_)
      rintro ⟨e', s, m⟩ ⟨q1, q2, q3, q4⟩
      exact ⟨q1, q2, q3.1, q4⟩

theorem str_checkLaw (cap : Nat) (hc : cap < 2147483648) :
    CheckLaw (strClass cap) (strSpec cap) (CheckFail .lengthDelimited false (StrFail cap)) := by
  intro β _ M fuel b wt x e K hx hcl hb hB hf
  show (if wt = .lengthDelimited then StrObj.deserialize cap b x else _ : Res _).Post _
  rcases hB with ⟨hw, rfl, hK⟩ | ⟨rfl, hB⟩
  · rw [if_neg hw]
    exact ⟨rfl, by simp, hb, hx, trivial, hK⟩
  · rw [if_pos rfl]
    exact str_bodyLaw cap hc β M fuel b x e K hx hcl hb hB hf

end

/-! ## Repeated fields -/

section Repeated
variable {E : FieldClass} {S : ClassSpec E V} {cap : Nat}

theorem rep_checkLaw {B : List Byte → List V → Error → (List V → Prop) → Prop}
    (h : BodyLaw (repeatedClass E cap) (repSpec S cap) B) :
    CheckLaw (repeatedClass E cap) (repSpec S cap) (CheckFail .lengthDelimited false B) := by
  intro β _ M fuel b wt x e K hx hc hb hB hf
  show (if wt = .lengthDelimited then RepObj.deserialize cap fuel b x else _ : Res _).Post _
  rcases hB with ⟨hw, rfl, hK⟩ | ⟨rfl, hB⟩
  · rw [if_neg hw]
    exact ⟨rfl, by simp, hb, hx, hc, hK⟩
  · rw [if_pos rfl]
    exact h β M fuel b x e K hx hc hb hB hf

theorem rep_abs_length {x : RepObj E.State} (hx : (repSpec S cap).Inv x) :
    ((repSpec S cap).abs x).length = x.len := by
  obtain ⟨h1, h2, h3⟩ := hx
  have : (RepObj.elems x).length = x.len := RepObj.elems_length x h1 h2
  simp [repSpec, this]

/-- `get(current_length_).deserialize(…)`. -/
theorem deserializeElem_eq (hc : cap < 2147483648) (fuel : Nat) (x : RepObj E.State) (d : E.State)
    (hd : arrayGet x.data x.len = .ok d) (hl : x.len < cap) (hlen : x.data.length = cap) {γ : Type}
    [ReadBuffer γ] (c : γ) : RepObj.deserializeElem cap fuel x.len c x = (do
      let (e, c, v) ← E.deserialize fuel c d
      pure (e, c, ⟨x.len + 1, x.data.set x.len v⟩) : Res (Error × γ × RepObj E.State)) := by
  have hgrow : x.grow cap x.len = ⟨x.len + 1, x.data⟩ := by
    unfold RepObj.grow
    rw [RepObj.limit_eq (by omega) hl]
    dsimp only
    rw [if_pos (by omega), u32_of_lt (by omega)]
  unfold RepObj.deserializeElem
  rw [hgrow, RepObj.limit_eq (by omega) hl]
  dsimp only
  rw [hd, Res.ok_bind]
  congr 1
  funext p
  rw [arraySet_of_lt (by omega)]
  rfl

theorem rep_unpacked_bodyLaw {isMsg : Bool} {d : V} {B : List Byte → V → Error → (V → Prop) → Prop}
    (hnp : E.isPacked = false) (hm : isMsg = true ↔ E.kind = .message) (hcl : isMsg = false → ∀ x, S.Clean x)
    (hb₀ : BaseLaw E S d) (hc : cap < 2147483648) (h : BodyLaw E S B) :
    BodyLaw (repeatedClass E cap) (repSpec S cap) (ElementFail isMsg d cap B) := by
  intro β _ M fuel b x e K hx hcx hb hB hf
  obtain ⟨h1, h2, h3⟩ := id hx
  show (RepObj.deserialize cap fuel b x).Post _
  unfold RepObj.deserialize
  rw [hnp, if_neg (by simp)]
  unfold RepObj.deserializeUnpacked
  rw [ElementFail, rep_abs_length hx] at hB
  rcases hB with ⟨hl, rfl, hK⟩ | ⟨hl, hB⟩
  · rw [if_neg (by omega)]
    exact ⟨rfl, by simp, hb, hx, hcx, hK⟩
  · rw [if_pos hl]
    obtain ⟨y, hy, hyi, hyc⟩ := rep_next hx hl
    cases isMsg with
    | true =>
      have hk := hm.mp rfl
      have hy0 := hyc hcx hk
      rw [if_pos hk]
      rw [if_pos rfl, ← hb₀.init_abs, ← hy0] at hB
      rcases block_fail h M fuel b y _ e _ _ hyi (hy0 ▸ hb₀.init_clean) hb hB hf with
        ⟨b', g0, g1, g2, g3⟩ | ⟨n, b', g0, g1⟩
      · rw [g0, Res.ok_bind]
        exact ⟨rfl, g2, g1, hx, hcx, g3⟩
      · rw [g0, Res.ok_bind]
        dsimp only
        rw [deserializeElem_eq hc fuel x y hy hl h1]
        refine Res.Post_bind.mpr ?_
        refine Res.Post_bind.mpr ?_
        refine Res.Post.mono g1 ?_
        rintro ⟨e', s, v⟩ ⟨q1, q2, q3, q4, q5, q6⟩
        obtain ⟨a1, a2, a3⟩ := rep_append (cap := cap) hx hl q4
        refine ⟨q1, q2, q3.1, a1, a3 hcx q5, ?_⟩
        show K ((repSpec S cap).abs _)
        rw [a2]
        exact q6
    | false =>
      have hk : E.kind ≠ .message := fun hk => nomatch hm.mpr hk
      rw [if_neg hk, deserializeElem_eq hc fuel x y hy hl h1]
      refine Res.Post_bind.mpr ?_
      simp only [Bool.false_eq_true, ↓reduceIte] at hB
      refine Res.Post.mono (h β M fuel b y e _ hyi (hcl rfl y) hb (hB (S.abs y)) hf) ?_
      rintro ⟨e', s, v⟩ ⟨q1, q2, q3, q4, q5, q6⟩
      obtain ⟨a1, a2, a3⟩ := rep_append (cap := cap) hx hl q4
      refine ⟨q1, q2, q3, a1, a3 hcx q5, ?_⟩
      show K ((repSpec S cap).abs _)
      rw [a2]
      exact q6

section Packed
variable {P : List Byte → V → Prop}

theorem packedLoop_fail {β : Type} [ReadBuffer β] (M : ReadModel β) (hE : PackedElem E S P)
    {Bad : List Byte → Error → Prop}
    (hbad : ∀ (β : Type) [ReadBuffer β] (M : ReadModel β) (fuel : Nat) (b : β) (x : E.State) (e : Error),
      M.Inv b → Bad (M.view b) e → (M.view b).length < fuel →
      (E.deserialize fuel b x).Post fun r => r.1 = e ∧ e ≠ .noErrors ∧ M.Inv r.2.1) (hc : cap < 2147483648) (fuel : Nat) {good : List Byte}
    {ys : List V} (hp : Packed P good ys) (rem : List Byte) (e : Error) (hne : e ≠ .endOfBuffer)
    (k : Nat) (v : E.State) (b : β) (x : RepObj E.State) (hx : (repSpec S cap).Inv x)
    (hcl : (repSpec S cap).Clean x) (hb : M.Inv b) (hv : M.view b = good ++ rem)
    (hf : (M.view b).length < fuel)
    (hl : x.len + ys.length ≤ cap) (hk : ys.length < k)
    (h : Bad rem e ∨ (x.len + ys.length = cap ∧ e = .arrayFull ∧ ∃ c rem' y, rem = c ++ rem' ∧ P c y)) :
    (do
      let (e, b, v) ← E.deserialize fuel b v
      RepObj.deserializePackedLoop cap fuel k e v b x : Res (Error × β × RepObj E.State)).Post fun r =>
      r.1 = e ∧ e ≠ .noErrors ∧ M.Inv r.2.1 ∧ (repSpec S cap).Inv r.2.2 ∧ (repSpec S cap).Clean r.2.2 ∧
      (repSpec S cap).abs r.2.2 = (repSpec S cap).abs x ++ ys := by
  induction hp generalizing k v b x with
  | nil =>
    obtain ⟨k, rfl⟩ : ∃ m, k = m + 1 := ⟨k - 1, by simp at hk; omega⟩
    rw [List.nil_append] at hv
    refine Res.Post_bind.mpr ?_
    rcases h with h | ⟨hfull, rfl, c, rem', y, rfl, hy⟩
    · refine Res.Post.mono (hbad β M fuel b v e hb (hv ▸ h) hf) ?_
      rintro ⟨e', b', v'⟩ ⟨q1, q2, q3⟩
      dsimp only at q1 q2 q3
      subst q1
      simp only [RepObj.deserializePackedLoop, q2, ↓reduceIte]
      exact ⟨rfl, q2, q3, hx, hcl, by simp⟩
    · refine (hE.ok β M fuel b c rem' v y hb hv hy).mono ?_
      rintro ⟨e', b', v'⟩ ⟨q1, q2, q3, q4⟩
      dsimp only at q1 q2 q3 q4
      subst q1
      have hadd : RepObj.add cap x v' = .ok (.arrayFull, x) := by
        unfold RepObj.add
        rw [if_neg (by simp at hfull; omega)]; rfl
      simp only [RepObj.deserializePackedLoop, ↓reduceIte, hadd, Res.ok_bind]
      exact ⟨rfl, by simp, q2, hx, hcl, by simp⟩
  | @cons bs bs' y ys h1 _ ih =>
    obtain ⟨k, rfl⟩ : ∃ m, k = m + 1 := ⟨k - 1, by omega⟩
    simp only [List.length_cons] at hl hk h
    rw [List.append_assoc] at hv
    rw [hv, List.length_append] at hf
    refine Res.Post_bind.mpr ?_
    refine (hE.ok β M fuel b bs (bs' ++ rem) v y hb hv h1).mono ?_
    rintro ⟨e', b', v'⟩ ⟨q1, q2, q3, q4⟩
    dsimp only at q1 q2 q3 q4
    subst q1
    obtain ⟨a1, a2, a3⟩ := rep_append hx (by omega) (hE.inv v')
    simp only [RepObj.deserializePackedLoop, ↓reduceIte, add_eq hE hc hx (show x.len < cap by omega), Res.ok_bind]
    refine (ih k v' b' _ a1 (a3 hcl (hE.clean v')) q2 q3 (by rw [q3]; omega) (by simp; omega) (by omega)
      (by
        rcases h with h | ⟨h, h'⟩
        · exact Or.inl h
        · exact Or.inr ⟨by simp; omega, h'⟩)).mono ?_
    rintro r ⟨r1, r2, r3, r4, r5, r6⟩
    refine ⟨r1, r2, r3, r4, r5, ?_⟩
    rw [r6, a2, q4]
    simp

theorem rep_packed_bodyLaw (hE : PackedElem E S P) {Bad : List Byte → Error → Prop}
    (hbad : ∀ (β : Type) [ReadBuffer β] (M : ReadModel β) (fuel : Nat) (b : β) (x : E.State) (e : Error),
      M.Inv b → Bad (M.view b) e → (M.view b).length < fuel →
      (E.deserialize fuel b x).Post fun r => r.1 = e ∧ e ≠ .noErrors ∧ M.Inv r.2.1) (hc : cap < 2147483648) :
    BodyLaw (repeatedClass E cap) (repSpec S cap) (PackedFail P Bad cap) := by
  intro β _ M fuel b x e K hx hcx hb hB hf
  obtain ⟨p, r, n, good, rem, ys, hv, hp, htake, hpk, hlen, hK, hB⟩ := hB
  rw [rep_abs_length hx] at hlen hB
  show (RepObj.deserialize cap fuel b x).Post _
  unfold RepObj.deserialize
  rw [hE.packed, if_pos rfl]
  unfold RepObj.deserializePacked
  refine Res.Post_bind.mpr ?_
  refine (varint_dec M 32 p r n hp b hb hv).mono ?_
  rintro ⟨q, b'⟩ ⟨g1, g2, g3⟩
  dsimp only at g1 g2 g3
  subst g1
  dsimp only
  rw [ofNat32_toNat (Varint.lt hp)]
  have hvs := Section.new_view M b' n g2
  rw [g3] at hvs
  have hpl := hp.1.length_pos
  rw [hv, List.length_append] at hf
  have hlt : (r.take n).length ≤ r.length := by rw [List.length_take]; omega
  have hyl := Packed.length_le hE.pos hpk
  have hgl : good.length ≤ (r.take n).length := by rw [htake, List.length_append]; omega
  have hne : e ≠ .endOfBuffer := by
    rcases hB with h | h
    · exact h.2
    · rw [h.2.1]; simp
  have := packedLoop_fail (Section.model M (M.view b')) hE hbad hc fuel hpk rem e hne fuel E.init
    (Section.new b' n) x hx hcx (Section.new_inv M b' n g2) (by
      show sectionView M _ = _
      rw [hvs, htake]) (by
      show (sectionView M _).length < _
      rw [hvs]; omega) hlen (by omega) (by
      rcases hB with h | h
      · exact Or.inl h.1
      · exact Or.inr h)
  rw [Res.Post_bind] at this
  refine Res.Post_bind.mpr (Res.Post.mono this ?_)
  rintro ⟨e', s, v⟩ h
  refine Res.Post_bind.mpr ?_
  refine Res.Post.mono h ?_
  rintro ⟨e', s, y⟩ ⟨q1, q2, q3, q4, q5, q6⟩
  dsimp only at q1 q3 q4 q5 q6
  subst q1
  rw [if_neg hne]
  exact ⟨rfl, q2, q3.1, q4, q5, by
    show K ((repSpec S cap).abs y)
    rw [q6]; exact hK⟩

end Packed

end Repeated

/-! ## Fields -/

structure FieldsFail (F : FieldsClass) (S : FieldsSpec F V) (lo hi n : Nat) (nums : List Nat)
    (R : Nat → WireType → List Byte → V → Error → (V → Prop) → Prop) : Prop where
  mem : ∀ id wt bs u e K, R id wt bs u e K → id ∈ nums
  some : ∀ (β : Type) [ReadBuffer β] (M : ReadModel β) (fuel id : Nat) (wt : WireType) (b : β)
    (p : Presence) (s : F.State) (e : Error) (K : V → Prop), Presence.WF n p → S.Inv p.bit s →
    S.Clean s → M.Inv b → R id wt (M.view b) (S.abs p.bit s) e K → (M.view b).length < fuel →
    ∃ r, F.dispatch fuel id wt b p s = some r ∧ r.Post fun r =>
      r.1 = e ∧ e ≠ .noErrors ∧ M.Inv r.2.1 ∧ Presence.WF n r.2.2.1 ∧
      (∀ j, ¬ (lo ≤ j ∧ j < hi) → r.2.2.1.bit j = p.bit j) ∧
      S.Inv r.2.2.1.bit r.2.2.2 ∧ S.Clean r.2.2.2 ∧ K (S.abs r.2.2.1.bit r.2.2.2)

theorem fieldsFail_nil (lo n : Nat) : FieldsFail .nil .nil lo lo n [] (fun _ _ _ _ _ _ => False) where
  mem _ _ _ _ _ _ h := h.elim
  some _ _ _ _ _ _ _ _ _ _ _ _ _ _ _ h := h.elim

theorem fieldsFail_plain {C : FieldClass} {F : FieldsClass} {S : ClassSpec C V} {R : FieldsSpec F W}
    {lo hi n num : Nat} {nums : List Nat} {P : WireType → List Byte → V → Error → (V → Prop) → Prop}
    {Q : Nat → WireType → List Byte → W → Error → (W → Prop) → Prop} (hnum : num ∉ nums)
    (h₁ : CheckLaw C S P) (h₂ : FieldsFail F R lo hi n nums Q) :
    FieldsFail (.plain num C F) (.plain num S R) lo hi n (num :: nums) (fun id wt bs u e K =>
      (id = num ∧ P wt bs u.1 e (fun y => K (y, u.2))) ∨ Q id wt bs u.2 e (fun y => K (u.1, y))) where
  mem id wt bs u e K h := by
    rcases h with h | h
    · rw [h.1]; exact List.mem_cons_self
    · exact List.mem_cons_of_mem _ (h₂.mem _ _ _ _ _ _ h)
  some β _ M fuel id wt b p s e K hp hi hc hb h hf := by
    rcases h with ⟨rfl, hP⟩ | hQ
    · simp only [FieldsClass.plain, ↓reduceIte]
      refine ⟨_, rfl, ?_⟩
      refine Res.Post_bind.mpr ?_
      refine Res.Post.mono (h₁ β M fuel b wt s.1 e _ hi.1 hc.1 hb hP hf) ?_
      rintro ⟨e, b', x⟩ ⟨q1, q2, q3, q4, q5, q6⟩
      exact ⟨q1, q2, q3, hp, fun _ _ => rfl, ⟨q4, hi.2⟩, ⟨q5, hc.2⟩, q6⟩
    · have hne : id ≠ num := fun h => hnum (h ▸ h₂.mem _ _ _ _ _ _ hQ)
      obtain ⟨r, hr, hpost⟩ := h₂.some β M fuel id wt b p s.2 e _ hp hi.2 hc.2 hb hQ hf
      simp only [FieldsClass.plain, hne, ↓reduceIte, hr]
      refine ⟨_, rfl, ?_⟩
      refine Res.Post_bind.mpr ?_
      refine hpost.mono ?_
      rintro ⟨e, b', p', t⟩ ⟨q1, q2, q3, q4, q5, q6, q7, q8⟩
      exact ⟨q1, q2, q3, q4, q5, ⟨hi.1, q6⟩, ⟨hc.1, q7⟩, q8⟩

theorem fieldsFail_optional {C : FieldClass} {F : FieldsClass} {S : ClassSpec C V} {R : FieldsSpec F W}
    {idx hi n num : Nat} {nums : List Nat} {P : WireType → List Byte → V → Error → (V → Prop) → Prop}
    {Q : Nat → WireType → List Byte → W → Error → (W → Prop) → Prop} {d : V} {e : W} (hnum : num ∉ nums)
    (hn : hi ≤ n) (hb₁ : BaseLaw C S d) (hb₂ : FieldsBase F R (idx + 1) hi n e)
    (h₁ : CheckLaw C S P) (h₂ : FieldsFail F R (idx + 1) hi n nums Q) :
    FieldsFail (.optional num idx C F) (.optional num idx S R) idx hi n (num :: nums)
      (fun id wt bs u e K => (id = num ∧ P wt bs (u.1.getD d) e (fun y => K (.some y, u.2))) ∨
        Q id wt bs u.2 e (fun y => K (u.1, y))) where
  mem id wt bs u e K h := by
    rcases h with h | h
    · rw [h.1]; exact List.mem_cons_self
    · exact List.mem_cons_of_mem _ (h₂.mem _ _ _ _ _ _ h)
  some β _ M fuel id wt b p s e K hp hi' hc hb h hf := by
    have hlo := hb₂.lo_le
    have hin : idx < n := by omega
    rcases h with ⟨rfl, hP⟩ | hQ
    · obtain ⟨p₁, hc₁, hw₁, hb₁'⟩ := Presence.setBit_eq (i := idx) hp hin
      simp only [FieldsClass.optional, ↓reduceIte, hc₁, Res.ok_bind]
      refine ⟨_, rfl, ?_⟩
      refine Res.Post_bind.mpr ?_
      have : ((FieldsSpec.optional id idx S R).abs p.bit s).1.getD d = S.abs s.1 := by
        show (if p.bit idx then _ else _ : Option V).getD d = _
        cases hbit : p.bit idx
        · have := hi'.1.2 hbit
          rw [this, hb₁.init_abs]; rfl
        · rfl
      rw [this] at hP
      refine Res.Post.mono (h₁ β M fuel b wt s.1 e _ hi'.1.1 hc.1 hb hP hf) ?_
      rintro ⟨e, b', x⟩ ⟨q1, q2, q3, q4, q5, q6⟩
      dsimp only at q1 q3 q4 q5 q6
      have hcg := hb₂.congr p.bit p₁.bit s.2 (by
        intro i h1 h2; rw [hb₁']; simp; omega)
      have hbi : p₁.bit idx = true := by rw [hb₁']; simp
      refine ⟨q1, q2, q3, hw₁, ?_, ⟨⟨q4, by simp [hbi]⟩, hcg.2 hi'.2⟩, ⟨q5, hc.2⟩, ?_⟩
      · intro j hj
        rw [hb₁']; simp; omega
      · show K (if p₁.bit idx then _ else _, R.abs p₁.bit s.2)
        rw [hbi, ← hcg.1]; exact q6
    · have hne : id ≠ num := fun h => hnum (h ▸ h₂.mem _ _ _ _ _ _ hQ)
      obtain ⟨r, hr, hpost⟩ := h₂.some β M fuel id wt b p s.2 e _ hp hi'.2 hc.2 hb hQ hf
      simp only [FieldsClass.optional, hne, ↓reduceIte, hr]
      refine ⟨_, rfl, ?_⟩
      refine Res.Post_bind.mpr ?_
      refine hpost.mono ?_
      rintro ⟨e, b', p', t⟩ ⟨q1, q2, q3, q4, q5, q6, q7, q8⟩
      dsimp only at q1 q3 q4 q5 q6 q7 q8
      have hbi : p'.bit idx = p.bit idx := q5 idx (by omega)
      refine ⟨q1, q2, q3, q4, fun j hj => q5 j (by omega), ⟨⟨hi'.1.1, ?_⟩, q6⟩, ⟨hc.1, q7⟩, ?_⟩
      · rw [hbi]; exact hi'.1.2
      · show K (if p'.bit idx then _ else _, R.abs p'.bit t)
        rw [hbi]; exact q8

/-! ## Oneofs -/

structure AltsFail (A : AltsClass) (S : AltsSpec A V) (nums : List Nat)
    (R : Nat → WireType → List Byte → Option V → Error → Prop) : Prop where
  mem : ∀ id wt bs u e, R id wt bs u e → id ∈ nums
  ok : ∀ (β : Type) [ReadBuffer β] (M : ReadModel β) (fuel id : Nat) (wt : WireType) (b : β)
    (u : A.U) (o : Option A.U) (e : Error), S.num u = id → S.Inv u → S.Clean u →
    (o = some u ∨ (A.construct id none = some u ∧ ∀ u', o = some u' → S.num u' ≠ id)) →
    M.Inv b → R id wt (M.view b) (o.map S.abs) e → (M.view b).length < fuel →
    (A.deserialize fuel id b wt (some u)).Post fun r =>
      r.1 = e ∧ e ≠ .noErrors ∧ M.Inv r.2.1 ∧ ∃ z, r.2.2 = some z ∧ S.num z = id ∧ S.Inv z

theorem altsFail_nil : AltsFail .nil .nil [] (fun _ _ _ _ _ => False) where
  mem _ _ _ _ _ h := h.elim
  ok _ _ _ _ _ _ _ u := nomatch u

theorem altsFail_cons {C : FieldClass} {A : AltsClass} {S : ClassSpec C V} {R : AltsSpec A W}
    {num : Nat} {nums : List Nat} {P : WireType → List Byte → V → Error → (V → Prop) → Prop}
    {Q : Nat → WireType → List Byte → Option W → Error → Prop} {d : V} (hnum : num ∉ nums)
    (hb₁ : BaseLaw C S d) (hb₂ : AltsBase A R nums) (h₁ : CheckLaw C S P) (h₂ : AltsFail A R nums Q) :
    AltsFail (.cons num C A) (.cons num S R) (num :: nums) (fun id wt bs u e =>
      (id = num ∧ P wt bs (leftD d u) e (fun _ => True)) ∨ Q id wt bs (rightOf u) e) where
  mem id wt bs u e h := by
    rcases h with h | h
    · rw [h.1]; exact List.mem_cons_self
    · exact List.mem_cons_of_mem _ (h₂.mem _ _ _ _ _ h)
  ok β _ M fuel id wt b u o e hid hu hcl ho hb h hf := by
    rcases h with ⟨hid', hP⟩ | hQ
    · subst hid'
      cases u with
      | inr u =>
        have : R.num u = id := hid
        exact absurd (this ▸ hb₂.num_mem u) hnum
      | inl x =>
        have hold : leftD d (o.map (AltsSpec.cons id S R).abs) = S.abs x := by
          rcases ho with rfl | ⟨hcon, hno⟩
          · rfl
          · have hx : x = C.init := by
              simp only [AltsClass.cons, ↓reduceIte] at hcon
              injection hcon with hcon
              injection hcon with hcon
              exact hcon.symm
            rw [hx, hb₁.init_abs]
            cases o with
            | none => rfl
            | some u' =>
              cases u' with
              | inl z => exact absurd rfl (hno _ rfl)
              | inr z => rfl
        rw [hold] at hP
        simp only [AltsClass.cons, ↓reduceIte, AltsClass.left?, AltsClass.access, Res.ok_bind]
        refine Res.Post_bind.mpr ?_
        refine Res.Post.mono (h₁ β M fuel b wt x e _ hu hcl hb hP hf) ?_
        rintro ⟨e, b', z⟩ ⟨q1, q2, q3, q4, q5, q6⟩
        exact ⟨q1, q2, q3, .inl z, rfl, rfl, q4⟩
    · have hmem := h₂.mem _ _ _ _ _ hQ
      have hne : id ≠ num := fun h => hnum (h ▸ hmem)
      cases u with
      | inl x => exact absurd hid.symm hne
      | inr u =>
        have hold : rightOf (o.map (AltsSpec.cons num S R).abs) = (AltsClass.right? o).map R.abs := by
          cases o with
          | none => rfl
          | some z => cases z <;> rfl
        rw [hold] at hQ
        simp only [AltsClass.cons, hne, ↓reduceIte, AltsClass.right?]
        refine Res.Post_bind.mpr ?_
        refine (h₂.ok β M fuel id wt b u (AltsClass.right? o) e hid hu hcl ?_ hb hQ hf).mono ?_
        · rcases ho with rfl | ⟨hcon, hno⟩
          · exact Or.inl rfl
          · right
            refine ⟨?_, ?_⟩
            · simp only [AltsClass.cons, hne, ↓reduceIte] at hcon
              change AltsClass.inr? (A.construct id none) = _ at hcon
              cases hc : A.construct id none with
              | none => rw [hc] at hcon; exact nomatch hcon
              | some z =>
                rw [hc] at hcon
                injection hcon with hcon
                injection hcon with hcon
                rw [hcon]
            · intro u' hu'
              cases o with
              | none => exact nomatch hu'
              | some z =>
                cases z with
                | inl z => exact nomatch hu'
                | inr z =>
                  injection hu' with hu'
                  subst hu'
                  exact hno _ rfl
        · rintro ⟨e, b', z⟩ ⟨q1, q2, q3, z', hz, q4, q5⟩
          dsimp only at hz
          subst hz
          exact ⟨q1, q2, q3, .inr z', rfl, q4, q5⟩

theorem deserializeObj_fail {A : AltsClass} {S : AltsSpec A V} {nums : List Nat}
    {R : Nat → WireType → List Byte → Option V → Error → Prop} (hbase : AltsBase A S nums)
    (h0 : 0 ∉ nums) (hdec : AltsFail A S nums R) {β : Type} [ReadBuffer β] (M : ReadModel β)
    (fuel id : Nat) (wt : WireType) (b : β) (o : OneofObj A.U) (e : Error)
    (ho : S.ObjInv o) (hcl : ∀ u, o.live = some u → S.Clean u) (hb : M.Inv b)
    (h : R id wt (M.view b) (o.live.map S.abs) e) (hf : (M.view b).length < fuel) :
    (A.deserializeObj fuel id b wt o).Post fun r =>
      r.1 = e ∧ e ≠ .noErrors ∧ M.Inv r.2.1 ∧ r.2.2 = A.initObj := by
  have hmem := hdec.mem _ _ _ _ _ h
  obtain ⟨u, hu0, hu1, hu2, hu3⟩ := activate_eq hbase.toAltsInit h0 o ho id hmem
  unfold AltsClass.deserializeObj
  rw [hu0, Res.ok_bind]
  refine Res.Post_bind.mpr ?_
  refine (hdec.ok β M fuel id wt b u o.live e hu1 hu2 ?_ ?_ hb h hf).mono ?_
  · rcases hu3 with ⟨_, hl⟩ | ⟨_, _, hc⟩
    · exact hcl u hl
    · exact hc
  · rcases hu3 with ⟨_, hl⟩ | ⟨hw, hcon, _⟩
    · exact Or.inl hl
    · refine Or.inr ⟨hcon, ?_⟩
      intro u' hu' hn
      unfold AltsSpec.ObjInv at ho
      rw [hu'] at ho
      exact hw (ho.1.trans hn)
  · rintro ⟨e', b', r⟩ ⟨q1, q2, q3, z, hz, q4, q5⟩
    dsimp only at q1 q3 hz
    subst q1
    subst hz
    dsimp only
    rw [if_pos q2, clearObj_eq hbase.toAltsInit h0 _ (show S.ObjInv ⟨id, some z⟩ from ⟨q4.symm, q5⟩), Res.ok_bind]
    exact ⟨rfl, q2, q3, rfl⟩

structure OneofsFail (O : OneofsClass) (S : OneofsSpec O V) (nums : List Nat)
    (R : Nat → WireType → List Byte → V → Error → (V → Prop) → Prop) : Prop where
  mem : ∀ id wt bs u e K, R id wt bs u e K → id ∈ nums
  some : ∀ (β : Type) [ReadBuffer β] (M : ReadModel β) (fuel id : Nat) (wt : WireType) (b : β)
    (s : O.State) (e : Error) (K : V → Prop), S.Inv s → S.Clean s → M.Inv b →
    R id wt (M.view b) (S.abs s) e K → (M.view b).length < fuel →
    ∃ r, O.dispatch fuel id wt b s = some r ∧ r.Post fun r =>
      r.1 = e ∧ e ≠ .noErrors ∧ M.Inv r.2.1 ∧ S.Inv r.2.2 ∧ S.Clean r.2.2 ∧ K (S.abs r.2.2)

theorem oneofsFail_nil : OneofsFail .nil .nil [] (fun _ _ _ _ _ _ => False) where
  mem _ _ _ _ _ _ h := h.elim
  some _ _ _ _ _ _ _ _ _ _ _ _ _ h := h.elim

theorem oneofsFail_cons {A : AltsClass} {O : OneofsClass} {S : AltsSpec A V} {R : OneofsSpec O W}
    {nums₁ nums₂ : List Nat} {P : Nat → WireType → List Byte → Option V → Error → Prop}
    {Q : Nat → WireType → List Byte → W → Error → (W → Prop) → Prop} (h0 : 0 ∉ nums₁)
    (hdis : ∀ k ∈ nums₁, k ∉ nums₂) (hb₁ : AltsBase A S nums₁) (h₁ : AltsFail A S nums₁ P)
    (h₂ : OneofsFail O R nums₂ Q) :
    OneofsFail (.cons A O) (.cons S R) (nums₁ ++ nums₂) (fun id wt bs u e K =>
      (P id wt bs u.1 e ∧ K (none, u.2)) ∨ Q id wt bs u.2 e (fun y => K (u.1, y))) where
  mem id wt bs u e K h := by
    rcases h with h | h
    · exact List.mem_append_left _ (h₁.mem _ _ _ _ _ h.1)
    · exact List.mem_append_right _ (h₂.mem _ _ _ _ _ _ h)
  some β _ M fuel id wt b s e K hi hc hb h hf := by
    rcases h with ⟨hP, hK⟩ | hQ
    · have hmem := h₁.mem _ _ _ _ _ hP
      simp only [OneofsClass.cons, hb₁.hasCase, decide_eq_true hmem, ↓reduceIte]
      refine ⟨_, rfl, ?_⟩
      refine Res.Post_bind.mpr ?_
      refine (deserializeObj_fail hb₁ h0 h₁ M fuel id wt b s.1 e hi.1 hc.1 hb hP hf).mono ?_
      rintro ⟨e, b', o⟩ ⟨q1, q2, q3, q4⟩
      dsimp only at q1 q3 q4
      subst q4
      refine ⟨q1, q2, q3, ⟨rfl, hi.2⟩, ⟨nofun, hc.2⟩, hK⟩
    · have hmem := h₂.mem _ _ _ _ _ _ hQ
      have hnm : id ∉ nums₁ := fun h => hdis id h hmem
      obtain ⟨r, hr, hpost⟩ := h₂.some β M fuel id wt b s.2 e _ hi.2 hc.2 hb hQ hf
      simp only [OneofsClass.cons, hb₁.hasCase, decide_eq_false hnm, Bool.false_eq_true, ↓reduceIte, hr]
      refine ⟨_, rfl, ?_⟩
      refine Res.Post_bind.mpr ?_
      refine hpost.mono ?_
      rintro ⟨e, b', t⟩ ⟨q1, q2, q3, q4, q5, q6⟩
      exact ⟨q1, q2, q3, ⟨hi.1, q4⟩, ⟨hc.1, q5⟩, q6⟩

/-! ## Tags and unknown fields -/

section
variable {β : Type} [ReadBuffer β]

theorem UnknownBad.ne {wt : WireType} {bs : List Byte} {e : Error} (h : UnknownBad wt bs e) :
    e ≠ .noErrors := by
  cases wt <;> first | exact BadVarint.ne h | (rw [h.2]; simp) | exact h.elim

theorem skipUnknown_bad (M : ReadModel β) (wt : WireType) (b : β) (e : Error) (hb : M.Inv b)
    (h : UnknownBad wt (M.view b) e) :
    (skipUnknownField b wt).Post fun r => r.1 = e ∧ M.Inv r.2 := by
  cases wt with
  | varint =>
    show (do let (r, b) ← deserializeVarint 64 b; pure (errOf r, b) : Res (Error × β)).Post _
    refine Res.Post_bind.mpr ?_
    refine (varint_bad M 64 (by decide) b e hb h).mono ?_
    rintro ⟨r, b'⟩ ⟨h1, h2⟩
    dsimp only at h1 h2
    subst h1
    exact ⟨rfl, h2⟩
  | fixed64 =>
    show (do let (r, b) ← deserializeFixed 64 b; pure (errOf r, b) : Res (Error × β)).Post _
    refine Res.Post_bind.mpr ?_
    refine (deserializeFixed_short M 64 b hb h.1).mono ?_
    rintro ⟨r, b'⟩ ⟨h1, h2, _⟩
    dsimp only at h1 h2
    subst h1
    exact ⟨h.2.symm, h2⟩
  | fixed32 =>
    show (do let (r, b) ← deserializeFixed 32 b; pure (errOf r, b) : Res (Error × β)).Post _
    refine Res.Post_bind.mpr ?_
    refine (deserializeFixed_short M 32 b hb h.1).mono ?_
    rintro ⟨r, b'⟩ ⟨h1, h2, _⟩
    dsimp only at h1 h2
    subst h1
    exact ⟨h.2.symm, h2⟩
  | lengthDelimited =>
    show (skipLengthDelimited b).Post _
    unfold skipLengthDelimited
    refine Res.Post_bind.mpr ?_
    refine (varint_bad M 32 (by decide) b e hb h).mono ?_
    rintro ⟨r, b'⟩ ⟨h1, h2⟩
    dsimp only at h1 h2
    subst h1
    exact ⟨rfl, h2⟩
  | startGroup => exact h.elim
  | endGroup => exact h.elim

theorem tag_long (M : ReadModel β) (b : β) (hb : M.Inv b) (h : LongVarint 5 (M.view b)) :
    (deserializeTag b).Post fun p => p.1 = .error .overlongVarint ∧ M.Inv p.2 := by
  unfold deserializeTag
  refine Res.Post_bind.mpr ?_
  refine (varint_bad M 32 (by decide) b .overlongVarint hb (Or.inr ⟨h, rfl⟩)).mono ?_
  rintro ⟨r, b'⟩ ⟨h1, h2⟩
  dsimp only at h1 h2
  subst h1
  exact ⟨rfl, h2⟩

theorem tag_invalid (M : ReadModel β) (b : β) (t r : List Byte) (n : Nat) (hb : M.Inv b)
    (hv : M.view b = t ++ r) (ht : Spec.Varint 32 t n) (h : 6 ≤ n % 8) :
    (deserializeTag b).Post fun p => p.1 = .error .invalidWiretype ∧ M.Inv p.2 ∧ M.view p.2 = r := by
  unfold deserializeTag
  refine Res.Post_bind.mpr ?_
  refine (varint_dec M 32 t r n ht b hb hv).mono ?_
  rintro ⟨q, b'⟩ ⟨h1, h2, h3⟩
  dsimp only at h1 h2 h3
  subst h1
  dsimp only
  have : WireType.ofNat? (BitVec.ofNat 32 n &&& 7).toNat = none := by
    have e : (BitVec.ofNat 32 n &&& 7).toNat = n % 8 := by
      rw [BitVec.toNat_and, BitVec.toNat_ofNat, Nat.mod_eq_of_lt (Varint.lt ht)]
      exact Nat.and_two_pow_sub_one_eq_mod n 3
    rw [e]
    have hm : n % 8 = 6 ∨ n % 8 = 7 := by omega
    rcases hm with hm | hm <;> rw [hm] <;> rfl
  split
  · rename_i t' ht'
    rw [this] at ht'
    exact nomatch ht'
  · exact ⟨rfl, h2, h3⟩

end

/-! ## Messages -/

section Msg
variable {F : FieldsClass} {O : OneofsClass} {S : FieldsSpec F V} {R : OneofsSpec O W} {n : Nat}
  {numsF numsO : List Nat} {P : Nat → WireType → List Byte → V → V → Prop}
  {Q : Nat → WireType → List Byte → W → W → Prop}
  {PF : Nat → WireType → List Byte → V → Error → (V → Prop) → Prop}
  {QF : Nat → WireType → List Byte → W → Error → (W → Prop) → Prop}

theorem msg_recordFail (h₁ : FieldsDec F S 0 n n numsF P) (h₂ : OneofsDec O R numsO Q)
    (hf₁ : FieldsFail F S 0 n n numsF PF) (hf₂ : OneofsFail O R numsO QF)
    (hdis : ∀ k ∈ numsO, k ∉ numsF) (h0 : ∀ k ∈ numsF ++ numsO, 0 < k) {β : Type} [ReadBuffer β]
    (M : ReadModel β) (fuel k : Nat) (b : β) (m : MsgObj F.State O.State) (e : Error) (K : V × W → Prop)
    (hi : (msgSpec n S R).Inv m) (hc : (msgSpec n S R).Clean m) (hb : M.Inv b)
    (h : RecordFail (numsF ++ numsO) PF QF (M.view b) ((msgSpec n S R).abs m) e K)
    (hf : (M.view b).length < fuel) :
    (tagLoop (MsgObj.step F O fuel) (k + 1) b m).Post (FailPost (C := messageClass n F O) (msgSpec n S R) M e K) := by
  rw [tagLoop]
  refine Res.Post_bind.mpr ?_
  rcases h with ⟨hlong, rfl, hK⟩ | ⟨t, r, tn, hv, ht, h⟩
  · refine (tag_long M b hb hlong).mono ?_
    rintro ⟨q, b'⟩ ⟨q1, q2⟩
    dsimp only at q1 q2
    subst q1
    exact ⟨rfl, by simp, q2, hi, hc, hK⟩
  · rcases h with ⟨hwt, rfl, hK⟩ | ⟨num, wt, rfl, h⟩
    · refine (tag_invalid M b t r tn hb hv ht hwt).mono ?_
      rintro ⟨q, b'⟩ ⟨q1, q2, q3⟩
      dsimp only at q1 q2 q3
      subst q1
      exact ⟨rfl, by simp, q2, hi, hc, hK⟩
    · refine (deserializeTag_ok M t r _ wt num ht rfl b hb hv).mono ?_
      rintro ⟨q, b'⟩ ⟨q1, q2, q3⟩
      dsimp only at q1 q2 q3
      subst q1
      dsimp only
      refine Res.Post_bind.mpr ?_
      suffices hs : (MsgObj.step F O fuel num wt b' m).Post
          (FailPost (C := messageClass n F O) (msgSpec n S R) M e K) by
        refine Res.Post.mono hs ?_
        rintro ⟨e', b'', m'⟩ ⟨s1, s2, s3⟩
        dsimp only at s1
        subst s1
        dsimp only
        rw [if_neg s2]
        exact ⟨rfl, s2, s3⟩
      rw [hv, List.length_append] at hf
      obtain ⟨hi1, hi2, hi3⟩ := id hi
      obtain ⟨hc1, hc2⟩ := id hc
      have hnum0 : num = 0 ∨ ¬ num ∈ numsF ++ numsO → F.dispatch fuel num wt b' m.presence m.fields = none ∧
          O.dispatch fuel num wt b' m.oneofs = none := by
        intro hn
        have hnot : num ∉ numsF ++ numsO := by
          rcases hn with rfl | hn
          · exact fun hm => absurd (h0 0 hm) (by omega)
          · exact hn
        simp only [List.mem_append, not_or] at hnot
        exact ⟨h₁.none β fuel num wt b' m.presence m.fields hnot.1,
          h₂.none β fuel num wt b' m.oneofs hnot.2⟩
      unfold MsgObj.step
      rcases h with ⟨rfl, rfl, hK⟩ | hP | hQ | ⟨hpos, hun, hbad, hK⟩
      · obtain ⟨g1, g2⟩ := hnum0 (Or.inl rfl)
        simp only [g1, g2, ↓reduceIte]
        exact ⟨rfl, by simp, q2, hi, hc, hK⟩
      · obtain ⟨r', hr, hpost⟩ := hf₁.some β M fuel num wt b' m.presence m.fields e _ hi1 hi2 hc1 q2
          (q3 ▸ hP) (by rw [q3]; omega)
        simp only [hr]
        refine Res.Post_bind.mpr (hpost.mono ?_)
        rintro ⟨e', b'', p', s'⟩ ⟨s1, s2, s3, s4, s5, s6, s7, s8⟩
        exact ⟨s1, s2, s3, ⟨s4, s6, hi3⟩, ⟨s7, hc2⟩, s8⟩
      · have hmem := hf₂.mem _ _ _ _ _ _ hQ
        obtain ⟨r', hr, hpost⟩ := hf₂.some β M fuel num wt b' m.oneofs e _ hi3 hc2 q2
          (q3 ▸ hQ) (by rw [q3]; omega)
        simp only [h₁.none β fuel num wt b' m.presence m.fields (hdis num hmem), hr]
        refine Res.Post_bind.mpr (hpost.mono ?_)
        rintro ⟨e', b'', s'⟩ ⟨s1, s2, s3, s4, s5, s6⟩
        exact ⟨s1, s2, s3, ⟨hi1, hi2, s4⟩, ⟨hc1, s5⟩, s6⟩
      · obtain ⟨g1, g2⟩ := hnum0 (Or.inr hun)
        simp only [g1, g2]
        rw [if_neg (by omega)]
        refine Res.Post_bind.mpr ?_
        refine (skipUnknown_bad M wt b' e q2 (q3 ▸ hbad)).mono ?_
        rintro ⟨e', b''⟩ ⟨s1, s2⟩
        exact ⟨s1, hbad.ne, s2, hi, hc, hK⟩

theorem msg_bodyLaw (h₁ : FieldsDec F S 0 n n numsF P) (h₂ : OneofsDec O R numsO Q)
    (hf₁ : FieldsFail F S 0 n n numsF PF) (hf₂ : OneofsFail O R numsO QF)
    (hdis : ∀ k ∈ numsO, k ∉ numsF) (h0 : ∀ k ∈ numsF ++ numsO, 0 < k) :
    BodyLaw (messageClass n F O) (msgSpec n S R)
      (StreamFail (RecordStep (numsF ++ numsO) P Q) (RecordFail (numsF ++ numsO) PF QF)) := by
  intro β _ M fuel b x e K hx hc hb hB hf
  obtain ⟨pre, bad, v, hv, hpre, hbad⟩ := hB
  rw [hv, List.length_append] at hf
  show (MsgObj.deserialize F O fuel b x).Post _
  unfold MsgObj.deserialize
  obtain ⟨k', b', m', e1, e2, q1, q2, q3, q4, q5⟩ := msg_stream h₁ h₂ hdis M fuel hpre fuel b bad x rfl hx hc hb
    hv (by omega) (by omega)
  rw [e1]
  obtain ⟨k', rfl⟩ : ∃ j, k' = j + 1 := ⟨k' - 1, by omega⟩
  exact msg_recordFail h₁ h₂ hf₁ hf₂ hdis h0 M fuel k' b' m' e K q3 q4 q1 (by rw [q2, q5]; exact hbad)
    (by rw [q2]; omega)

end Msg

/-! ## Declarations -/

/-- Failures of a repeated field, given the failures of its elements. -/
theorem ElemTy.rep_check_of (t : ElemTy) {cap : Nat} (hc : cap < 2147483648) (h : t.WF)
    (hbl : BodyLaw t.cls t.spec t.BodyFail) :
    CheckLaw (repeatedClass t.cls cap) (repSpec t.spec cap)
      (CheckFail .lengthDelimited false (if t.isScalar then
        PackedFail (fun b y => t.Payload b t.dflt y)
          (fun b e => t.BodyFail b t.dflt e (fun _ => True)) cap
        else ElementFail t.isMsg t.dflt cap t.BodyFail)) := by
  refine rep_checkLaw ?_
  cases hs : t.isScalar with
  | true =>
    cases t with
    | scalar s =>
      refine rep_packed_bodyLaw (scalar_packedElem s) ?_ hc
      intro β _ M fuel b x e hb hB hf
      exact Res.Post.mono (hbl β M fuel b x e (fun _ => True) trivial trivial hb hB hf)
        fun r q => ⟨q.1, q.2.1, q.2.2.1⟩
    | str cap => exact nomatch hs
    | msg fs os => exact nomatch hs
  | false =>
    refine rep_unpacked_bodyLaw (ElemTy.unpackedElem t hs).notPacked ?_ ?_ (ElemTy.base t h) hc hbl
    · cases t with
      | scalar s => exact nomatch hs
      | str cap => exact ⟨nofun, nofun⟩
      | msg fs os => exact ⟨fun _ => rfl, fun _ => rfl⟩
    · cases t with
      | scalar s => exact nomatch hs
      | str cap => exact fun _ _ => trivial
      | msg fs os => exact nofun

mutual
theorem ElemTy.body_law : (t : ElemTy) → t.WF → BodyLaw t.cls t.spec t.BodyFail
  | .scalar s, _ => scalar_bodyLaw s
  | .str cap, h => str_bodyLaw cap h.2
  | .msg fs os, h => by
    simp only [ElemTy.WF] at h
    have hd := List.nodup_append.mp h.2.2.1
    have hb := Fields.dec_law fs 0 fs.nOptional h.1 hd.1 (by omega)
    have hfl := Fields.fail_law fs 0 fs.nOptional h.1 hd.1 (by omega)
    rw [Nat.zero_add] at hb hfl
    have ho := fun k hk => (h.2.2.2 k (List.mem_append_right _ hk)).1
    exact msg_bodyLaw hb (Oneofs.dec_law os h.2.1 hd.2.1 ho) hfl (Oneofs.fail_law os h.2.1 hd.2.1 ho)
      (fun k hk hk' => hd.2.2 k hk' k hk rfl) (fun k hk => (h.2.2.2 k hk).1)
theorem ElemTy.check_law : (t : ElemTy) → t.WF →
    CheckLaw t.cls t.spec (CheckFail t.wire t.isMsg t.BodyFail)
  | .scalar s, _ => scalar_checkLaw s
  | .str cap, h => str_checkLaw cap h.2
  | .msg fs os, h => by
    simp only [ElemTy.WF] at h
    have hd := List.nodup_append.mp h.2.2.1
    have hb := Fields.dec_law fs 0 fs.nOptional h.1 hd.1 (by omega)
    have hfl := Fields.fail_law fs 0 fs.nOptional h.1 hd.1 (by omega)
    rw [Nat.zero_add] at hb hfl
    have ho := fun k hk => (h.2.2.2 k (List.mem_append_right _ hk)).1
    exact msg_checkLaw (msg_bodyLaw hb (Oneofs.dec_law os h.2.1 hd.2.1 ho) hfl
      (Oneofs.fail_law os h.2.1 hd.2.1 ho)
      (fun k hk hk' => hd.2.2 k hk' k hk rfl) (fun k hk => (h.2.2.2 k hk).1))
theorem Fields.fail_law : (fs : Fields) → (idx n : Nat) → fs.WF → fs.numbers.Nodup →
    idx + fs.nOptional ≤ n →
    FieldsFail (fs.cls idx) (fs.spec idx) idx (idx + fs.nOptional) n fs.numbers fs.Fail
  | .nil, idx, n, _, _, _ => fieldsFail_nil idx n
  | .plain num t rest, idx, n, h, hd, hi => by
    simp only [Fields.WF] at h
    simp only [Fields.nOptional] at hi
    simp only [Fields.numbers, List.nodup_cons] at hd
    exact fieldsFail_plain hd.1 (ElemTy.check_law t h.1) (Fields.fail_law rest idx n h.2 hd.2 hi)
  | .optional num t rest, idx, n, h, hd, hi => by
    simp only [Fields.WF] at h
    simp only [Fields.nOptional] at hi
    simp only [Fields.numbers, List.nodup_cons] at hd
    have ih := Fields.fail_law rest (idx + 1) n h.2 hd.2 (by omega)
    have hb := Fields.base rest (idx + 1) n h.2 (by omega)
    rw [show idx + 1 + rest.nOptional = idx + (rest.nOptional + 1) by omega] at ih hb
    exact fieldsFail_optional hd.1 (by simp only [Fields.nOptional]; omega) (ElemTy.base t h.1) hb
      (ElemTy.check_law t h.1) ih
  | .repeated num cap t rest, idx, n, h, hd, hi => by
    simp only [Fields.WF] at h
    simp only [Fields.nOptional] at hi
    simp only [Fields.numbers, List.nodup_cons] at hd
    have ih := Fields.fail_law rest idx n h.2.2 hd.2 hi
    have hbl := ElemTy.body_law t h.2.1
    exact fieldsFail_plain hd.1 (ElemTy.rep_check_of t h.1 h.2.1 hbl) ih
theorem Alts.fail_law : (a : Alts) → a.WF → a.numbers.Nodup → AltsFail a.cls a.spec a.numbers a.Fail
  | .nil, _, _ => altsFail_nil
  | .cons num t rest, h, hd => by
    simp only [Alts.WF] at h
    simp only [Alts.numbers, List.nodup_cons] at hd
    exact altsFail_cons hd.1 (ElemTy.base t h.1) (Alts.base rest h.2 hd.2) (ElemTy.check_law t h.1)
      (Alts.fail_law rest h.2 hd.2)
theorem Oneofs.fail_law : (os : Oneofs) → os.WF → os.numbers.Nodup → (∀ k ∈ os.numbers, 0 < k) →
    OneofsFail os.cls os.spec os.numbers os.Fail
  | .nil, _, _, _ => oneofsFail_nil
  | .cons a rest, h, hd, hn => by
    simp only [Oneofs.WF] at h
    simp only [Oneofs.numbers] at hd hn
    have hd' := List.nodup_append.mp hd
    exact oneofsFail_cons (fun h0 => absurd (hn 0 (List.mem_append_left _ h0)) (by omega))
      (fun k hk hk' => hd'.2.2 k hk k hk' rfl) (Alts.base a h.1 hd'.1) (Alts.fail_law a h.1 hd'.1)
      (Oneofs.fail_law rest h.2 hd'.2.1 (fun k hk => hn k (List.mem_append_right _ hk)))
end

end EP
