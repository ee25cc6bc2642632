import Verif.Proof.DecMessage
import Verif.Spec.Syntax

/-!
# Decoding well formed messages into any object

What decoding a well formed record into an object gives is settled by the bytes and the object: the
error is `NO_ERRORS` or `ARRAY_FULL`, and error and object are the same for every read buffer.
-/

namespace EP
open Spec

variable {V W : Type}

/-- The errors of decoding well formed input. -/
def Fine (e : Error) : Prop := e = .noErrors ∨ e = .arrayFull

/-- The run gives the error `e` and the object `y`; without error, `rest` is left over. -/
def Yields {β σ : Type} [ReadBuffer β] (M : ReadModel β) (r : Res (Error × β × σ)) (e : Error) (y : σ)
    (rest : List Byte) : Prop :=
  ∃ b', r = .ok (e, b', y) ∧ M.Inv b' ∧ (e = .noErrors → M.view b' = rest)

/-- Decoding a well formed payload. -/
def SynLaw (C : FieldClass) (S : ClassSpec C V) (wt : WireType) (P : List Byte → Prop) : Prop :=
  ∀ (x : C.State) (bs : List Byte), S.Inv x → P bs → ∃ e y, Fine e ∧ S.Inv y ∧
    ∀ (β : Type) [ReadBuffer β] (M : ReadModel β) (fuel : Nat) (b : β) (rest : List Byte),
      M.Inv b → M.view b = bs ++ rest → bs.length < fuel →
      Yields M (C.deserializeCheckType fuel b wt x) e y rest

theorem Yields.of_post {β σ : Type} [ReadBuffer β] {M : ReadModel β} {r : Res (Error × β × σ)} {e : Error}
    {y : σ} {rest : List Byte}
    (h : r.Post fun p => p.1 = e ∧ p.2.2 = y ∧ M.Inv p.2.1 ∧ (e = .noErrors → M.view p.2.1 = rest)) :
    Yields M r e y rest := by
  obtain ⟨⟨e', b', y'⟩, h1, h2, h3, h4⟩ := h.exists
  dsimp only at h2 h3 h4
  subst h2 h3
  exact ⟨b', h1, h4⟩

/-! ## Scalars -/

theorem scalar_syn (s : ScalarTy) :
    SynLaw (scalarClass s) (scalarSpec s) s.wire (fun bs => ∃ v, s.Payload bs v) := by
  rintro x bs _ ⟨v, hv⟩
  refine ⟨.noErrors, v, Or.inl rfl, trivial, fun β _ M fuel b rest hb hvw hf => ?_⟩
  apply Yields.of_post
  refine (scalar_decLaw s β M fuel b bs rest x v trivial trivial hb hvw hv hf).mono ?_
  rintro r ⟨h1, h2, h3, _, _, h4⟩
  exact ⟨h1, h4, h2, fun _ => h3⟩

/-! ## Strings -/

/-- Reading a string in full: the outcome is settled by the characters. -/
theorem readLoop_eq (cap : Nat) (hc : cap < 4294967296) (bs : List Byte) (x : StrObj)
    (hx : x.WF cap) (hl : x.len + bs.length ≤ cap) :
    ∃ y : StrObj, y.WF cap ∧ y.len = x.len + bs.length ∧ ∀ (β : Type) [ReadBuffer β] (M : ReadModel β) (b : β)
      (rest : List Byte), M.Inv b → M.view b = bs ++ rest →
      ∃ b', StrObj.readLoop bs.length b x = .ok (b', y) ∧ M.Inv b' ∧ M.view b' = rest := by
  induction bs generalizing x with
  | nil => exact ⟨x, hx, rfl, fun β _ M b rest hb hv => ⟨b, rfl, hb, hv⟩⟩
  | cons c bs ih =>
    simp only [List.length_cons] at hl
    obtain ⟨h1, h2⟩ := id hx
    obtain ⟨y, hy1, hy2, hy3⟩ := ih ⟨x.len + 1, x.data.set x.len c⟩ ⟨by simpa using h1, by simp; omega⟩
      (by simp; omega)
    refine ⟨y, hy1, by simp only [List.length_cons]; simp only at hy2; omega, fun β _ M b rest hb hv => ?_⟩
    obtain ⟨b₁, hp, hb₁, hv₁⟩ := M.pop_cons b c (bs ++ rest) hb hv
    obtain ⟨b', q1, q2, q3⟩ := hy3 β M b₁ rest hb₁ hv₁
    refine ⟨b', ?_, q2, q3⟩
    simp only [List.length_cons, StrObj.readLoop, hp, Res.ok_bind]
    rw [arraySet_of_lt (by omega), Res.ok_bind, u32_of_lt (by omega)]
    exact q1

theorem str_deserialize_syn (cap : Nat) (hc : cap < 2147483648) (x : StrObj) (bs body : List Byte)
    (hx : x.WF cap) (h : Delimited bs body) : ∃ e y, Fine e ∧ StrObj.WF cap y ∧
    ∀ (β : Type) [ReadBuffer β] (M : ReadModel β) (b : β) (rest : List Byte),
      M.Inv b → M.view b = bs ++ rest → Yields M (StrObj.deserialize cap b x) e y rest := by
  obtain ⟨p, hp, rfl⟩ := h
  have hlt : body.length < 4294967296 := Varint.lt hp
  by_cases hl : body.length ≤ cap
  · obtain ⟨y, hy1, hy2, hy3⟩ := readLoop_eq cap (by omega) body (x.clear cap) (x.clear_wf cap) (by
      simp [StrObj.clear]; omega)
    refine ⟨.noErrors, y, Or.inl rfl, hy1, fun β _ M b rest hb hv => ?_⟩
    rw [List.append_assoc] at hv
    apply Yields.of_post
    unfold StrObj.deserialize
    rw [Res.Post_bind]
    refine (varint_dec M 32 p (body ++ rest) _ hp b hb hv).mono ?_
    rintro ⟨r, b'⟩ ⟨h1, h2, h3⟩
    dsimp only at h1 h2 h3
    subst h1
    dsimp only
    rw [ofNat32_toNat hlt, if_pos hl]
    obtain ⟨b'', q1, q2, q3⟩ := hy3 β M b' rest h2 h3
    have hn : y.len = body.length := by rw [hy2]; simp [StrObj.clear]
    rw [q1, Res.ok_bind]
    dsimp only
    rw [if_neg (by simp [hn])]
    exact ⟨rfl, rfl, q2, fun _ => q3⟩
  · refine ⟨.arrayFull, x, Or.inr rfl, hx, fun β _ M b rest hb hv => ?_⟩
    rw [List.append_assoc] at hv
    apply Yields.of_post
    unfold StrObj.deserialize
    rw [Res.Post_bind]
    refine (varint_dec M 32 p (body ++ rest) _ hp b hb hv).mono ?_
    rintro ⟨r, b'⟩ ⟨h1, h2, h3⟩
    dsimp only at h1 h2 h3
    subst h1
    dsimp only
    rw [ofNat32_toNat hlt, if_neg hl]
    exact ⟨rfl, rfl, h2, nofun⟩

theorem str_syn (cap : Nat) (hc : cap < 2147483648) :
    SynLaw (strClass cap) (strSpec cap) .lengthDelimited (fun bs => ∃ body, Delimited bs body) := by
  rintro x bs hx ⟨body, h⟩
  obtain ⟨e, y, he, hy, hall⟩ := str_deserialize_syn cap hc x bs body hx h
  exact ⟨e, y, he, hy, fun β _ M _ b rest hb hv _ => hall β M b rest hb hv⟩

/-! ## Repeated fields -/

section Repeated
variable {E : FieldClass} {S : ClassSpec E V} {cap : Nat} {P : List Byte → Prop}

theorem rep_unpacked_syn (hE : UnpackedElem E) (hc : cap < 2147483648)
    (hpre : E.kind = .message → ∀ bs, P bs → ∃ p n body, Varint 32 p n ∧ bs = p ++ body)
    (h : SynLaw E S .lengthDelimited P) :
    SynLaw (repeatedClass E cap) (repSpec S cap) .lengthDelimited P := by
  intro x bs hx hp
  obtain ⟨h1, h2, h3⟩ := id hx
  by_cases hl : x.len < cap
  · obtain ⟨d, hd, hdi, _⟩ := rep_next hx hl
    obtain ⟨e, y, he, hy, hall⟩ := h d bs hdi hp
    obtain ⟨a1, _, _⟩ := rep_append hx hl hy
    refine ⟨e, ⟨x.len + 1, x.data.set x.len y⟩, he, a1, fun β _ M fuel b rest hb hv hf => ?_⟩
    have hgrow : x.grow cap x.len = ⟨x.len + 1, x.data⟩ := by
      unfold RepObj.grow
      rw [RepObj.limit_eq (by omega) hl]
      dsimp only
      rw [if_pos (by omega), u32_of_lt (by omega)]
    have helem : ∀ (γ : Type) [ReadBuffer γ] (c : γ), RepObj.deserializeElem cap fuel x.len c x = (do
        let (e, c, v) ← E.deserialize fuel c d
        pure (e, c, ⟨x.len + 1, x.data.set x.len v⟩) : Res (Error × γ × RepObj E.State)) := by
      intro γ _ c
      unfold RepObj.deserializeElem
      rw [hgrow, RepObj.limit_eq (by omega) hl]
      dsimp only
      rw [hd, Res.ok_bind]
      congr 1
      funext p
      rw [arraySet_of_lt (by omega)]
      rfl
    obtain ⟨b', q1, q2, q3⟩ := hall β M fuel b rest hb hv hf
    refine ⟨b', ?_, q2, q3⟩
    show RepObj.deserialize cap fuel b x = _
    unfold RepObj.deserialize
    rw [hE.notPacked, if_neg (by simp)]
    unfold RepObj.deserializeUnpacked
    rw [if_pos hl]
    rcases hE.check β fuel b d with ⟨hk, he'⟩ | ⟨hk, he'⟩
    · rw [if_pos hk]
      obtain ⟨p, n, body, hpn, rfl⟩ := hpre hk bs hp
      rw [List.append_assoc] at hv
      obtain ⟨⟨r, b₁⟩, g1, g2, g3⟩ := (varint_dec M 32 p (body ++ rest) n hpn b hb hv).exists
      dsimp only at g2
      subst g2
      rw [he', g1, Res.ok_bind] at q1
      rw [g1, Res.ok_bind]
      dsimp only at q1 ⊢
      rw [helem]
      revert q1
      cases E.deserialize fuel (Section.new b₁ (BitVec.ofNat 32 n).toNat) d with
      | ok r =>
        intro q1
        rw [Res.ok_bind] at q1
        injection q1 with q1
        injection q1 with q1 q1'
        injection q1' with q1' q1''
        subst q1 q1' q1''
        rfl
      | ub => exact nofun
      | diverge => exact nofun
    · rw [if_neg hk, helem, ← he', q1]
      rfl
  · refine ⟨.arrayFull, x, Or.inr rfl, hx, fun β _ M fuel b rest hb hv hf => ?_⟩
    refine ⟨b, ?_, hb, nofun⟩
    show RepObj.deserialize cap fuel b x = _
    unfold RepObj.deserialize
    rw [hE.notPacked, if_neg (by simp)]
    unfold RepObj.deserializeUnpacked
    dsimp only
    rw [if_neg hl]
    rfl

/-- What reading a packed field needs of its elements. -/
structure PackedSyn (E : FieldClass) (S : ClassSpec E V) (P : List Byte → Prop) : Prop where
  packed : E.isPacked = true
  inv : ∀ x, S.Inv x
  pos : ∀ bs, P bs → 0 < bs.length
  ok : ∀ bs (x : E.State), P bs → ∃ v, ∀ (β : Type) [ReadBuffer β] (M : ReadModel β) (fuel : Nat) (b : β)
    (rest : List Byte), M.Inv b → M.view b = bs ++ rest →
    Yields M (E.deserialize fuel b x) .noErrors v rest
  stop : ∀ (β : Type) [ReadBuffer β] (M : ReadModel β) (fuel : Nat) (b : β) (x : E.State),
    M.Inv b → M.view b = [] →
    (E.deserialize fuel b x).Post fun r => r.1 = .endOfBuffer ∧ M.Inv r.2.1 ∧ M.view r.2.1 = []
  assign : ∀ x y, E.assign x y = .ok y

theorem add_fine (hE : PackedSyn E S P) (hc : cap < 2147483648) {x : RepObj E.State} {v : E.State}
    (hx : (repSpec S cap).Inv x) :
    (x.len < cap ∧ RepObj.add cap x v = .ok (.noErrors, ⟨x.len + 1, x.data.set x.len v⟩)) ∨
    (RepObj.add cap x v = .ok (.arrayFull, x)) := by
  obtain ⟨h1, h2, h3⟩ := hx
  unfold RepObj.add
  by_cases hl : x.len < cap
  · left
    refine ⟨hl, ?_⟩
    rw [if_pos hl, arrayGet_of_lt (by omega), Res.ok_bind, hE.assign, Res.ok_bind,
      arraySet_of_lt (by omega), Res.ok_bind, u32_of_lt (by omega)]
    rfl
  · right
    rw [if_neg hl]
    rfl

/-- The loop over the elements of a packed field, `v` being the one just read. -/
theorem packedLoop_syn (hE : PackedSyn E S P) (hc : cap < 2147483648) {body : List Byte}
    (hp : Concat P body) (v : E.State) (x : RepObj E.State) (hx : (repSpec S cap).Inv x) :
    ∃ e y, (e = .endOfBuffer ∨ e = .arrayFull) ∧ (repSpec S cap).Inv y ∧
      ∀ (β : Type) [ReadBuffer β] (M : ReadModel β) (fuel k : Nat) (b : β), M.Inv b → M.view b = body →
        body.length + 1 < k → (RepObj.deserializePackedLoop cap fuel k .noErrors v b x).Post fun r =>
          r.1 = e ∧ r.2.2 = y ∧ M.Inv r.2.1 ∧ (e = .endOfBuffer → M.view r.2.1 = []) := by
  induction hp generalizing v x with
  | nil =>
    rcases add_fine hE hc hx (v := v) with ⟨hl, ha⟩ | ha
    · refine ⟨.endOfBuffer, ⟨x.len + 1, x.data.set x.len v⟩, Or.inl rfl,
        (rep_append hx hl (hE.inv v)).1, fun β _ M fuel k b hb hv hk => ?_⟩
      obtain ⟨k, rfl⟩ : ∃ m, k = m + 2 := ⟨k - 2, by simp at hk; omega⟩
      simp only [RepObj.deserializePackedLoop, ↓reduceIte, ha, Res.ok_bind, Res.Post_bind]
      refine (hE.stop β M fuel b v hb hv).mono ?_
      rintro ⟨e, b', v'⟩ ⟨h1, h2, h3⟩
      dsimp only at h1 h2 h3
      subst h1
      simp only [reduceCtorEq, ↓reduceIte]
      exact ⟨rfl, rfl, h2, fun _ => h3⟩
    · refine ⟨.arrayFull, x, Or.inr rfl, hx, fun β _ M fuel k b hb hv hk => ?_⟩
      obtain ⟨k, rfl⟩ : ∃ m, k = m + 1 := ⟨k - 1, by omega⟩
      simp only [RepObj.deserializePackedLoop, ↓reduceIte, ha, Res.ok_bind, reduceCtorEq]
      exact ⟨rfl, rfl, hb, nofun⟩
  | @cons bs bs' h1 _ ih =>
    rcases add_fine hE hc hx (v := v) with ⟨hl, ha⟩ | ha
    · obtain ⟨v', hv'⟩ := hE.ok bs v h1
      obtain ⟨e, y, he, hy, hall⟩ := ih v' _ (rep_append hx hl (hE.inv v)).1
      refine ⟨e, y, he, hy, fun β _ M fuel k b hb hv hk => ?_⟩
      obtain ⟨k, rfl⟩ : ∃ m, k = m + 1 := ⟨k - 1, by omega⟩
      have hpos := hE.pos bs h1
      simp only [List.length_append] at hk
      obtain ⟨b', q1, q2, q3⟩ := hv' β M fuel b bs' hb hv
      simp only [RepObj.deserializePackedLoop, ↓reduceIte, ha, Res.ok_bind, q1]
      exact hall β M fuel k b' q2 (q3 rfl) (by omega)
    · refine ⟨.arrayFull, x, Or.inr rfl, hx, fun β _ M fuel k b hb hv hk => ?_⟩
      obtain ⟨k, rfl⟩ : ∃ m, k = m + 1 := ⟨k - 1, by omega⟩
      simp only [RepObj.deserializePackedLoop, ↓reduceIte, ha, Res.ok_bind, reduceCtorEq]
      exact ⟨rfl, rfl, hb, nofun⟩

theorem rep_packed_deserialize_syn (hE : PackedSyn E S P) (hc : cap < 2147483648) (x : RepObj E.State)
    (bs body : List Byte) (hx : (repSpec S cap).Inv x) (hd : Delimited bs body) (hcon : Concat P body) :
    ∃ (e : Error) (y : RepObj E.State), Fine e ∧ (repSpec S cap).Inv y ∧
    ∀ (β : Type) [ReadBuffer β] (M : ReadModel β) (fuel : Nat) (b : β) (rest : List Byte),
      M.Inv b → M.view b = bs ++ rest → bs.length < fuel →
      Yields M (RepObj.deserialize cap fuel b x) e y rest := by
  obtain ⟨p, hp, rfl⟩ := hd
  have hlt : body.length < 4294967296 := Varint.lt hp
  have hpl := hp.1.length_pos
  have key : ∃ (e : Error) (y : RepObj E.State), (e = .endOfBuffer ∨ e = .arrayFull) ∧ (repSpec S cap).Inv y ∧
      ∀ (β : Type) [ReadBuffer β] (M : ReadModel β) (fuel : Nat) (b : β), M.Inv b → M.view b = body →
        body.length + 1 < fuel → (do
          let (e, s, v) ← E.deserialize fuel b E.init
          RepObj.deserializePackedLoop cap fuel fuel e v s x : Res (Error × β × RepObj E.State)).Post
          fun r => r.1 = e ∧ r.2.2 = y ∧ M.Inv r.2.1 ∧ (e = .endOfBuffer → M.view r.2.1 = []) := by
    cases hcon with
    | nil =>
      refine ⟨.endOfBuffer, x, Or.inl rfl, hx, fun β _ M fuel b hb hv hk => ?_⟩
      obtain ⟨k, rfl⟩ : ∃ m, fuel = m + 1 := ⟨fuel - 1, by omega⟩
      rw [Res.Post_bind]
      refine (hE.stop β M _ b E.init hb hv).mono ?_
      rintro ⟨e, b', v'⟩ ⟨h1, h2, h3⟩
      dsimp only at h1 h2 h3
      subst h1
      simp only [RepObj.deserializePackedLoop, reduceCtorEq, ↓reduceIte]
      exact ⟨rfl, rfl, h2, fun _ => h3⟩
    | @cons bs bs' h1 h2 =>
      obtain ⟨v', hv'⟩ := hE.ok bs E.init h1
      obtain ⟨e, y, he, hy, hall⟩ := packedLoop_syn hE hc h2 v' x hx
      refine ⟨e, y, he, hy, fun β _ M fuel b hb hv hk => ?_⟩
      have hpos := hE.pos bs h1
      simp only [List.length_append] at hk
      obtain ⟨b', q1, q2, q3⟩ := hv' β M fuel b bs' hb hv
      rw [q1, Res.ok_bind]
      exact hall β M fuel fuel b' q2 (q3 rfl) (by omega)
  obtain ⟨e, y, he, hy, hall⟩ := key
  refine ⟨if e = .endOfBuffer then .noErrors else e, y, ?_, hy, fun β _ M fuel b rest hb hv hf => ?_⟩
  · rcases he with rfl | rfl
    · exact Or.inl rfl
    · exact Or.inr rfl
  · apply Yields.of_post
    unfold RepObj.deserialize
    rw [hE.packed, if_pos rfl]
    unfold RepObj.deserializePacked
    rw [Res.Post_bind]
    rw [List.append_assoc] at hv
    simp only [List.length_append] at hf
    refine (varint_dec M 32 p (body ++ rest) _ hp b hb hv).mono ?_
    rintro ⟨r, b'⟩ ⟨g1, g2, g3⟩
    dsimp only at g1 g2 g3
    subst g1
    dsimp only
    rw [ofNat32_toNat hlt]
    obtain ⟨hs1, hs2⟩ := Section.new_frame M b' body rest g2 g3
    have := hall _ (Section.frame M rest) fuel _ hs1 hs2 (by omega)
    rw [Res.Post_bind] at this ⊢
    refine this.mono ?_
    rintro ⟨e', s, v⟩ hq
    dsimp only at hq ⊢
    rw [Res.Post_bind]
    refine hq.mono ?_
    rintro ⟨e', s', y'⟩ ⟨r1, r2, r3, r4⟩
    dsimp only at r1 r2 r3 r4
    subst r1 r2
    have r5 : M.Inv s'.buffer := r3.inv
    rcases he with rfl | rfl
    · exact ⟨rfl, rfl, r5, fun _ => (Section.frame_end M rest s' r3 (r4 rfl)).2⟩
    · exact ⟨rfl, rfl, r5, nofun⟩

theorem rep_packed_syn (hE : PackedSyn E S P) (hc : cap < 2147483648) :
    SynLaw (repeatedClass E cap) (repSpec S cap) .lengthDelimited
      (fun bs => ∃ body, Delimited bs body ∧ Concat P body) := by
  rintro x bs hx ⟨body, hd, hcon⟩
  exact rep_packed_deserialize_syn hE hc x bs body hx hd hcon

end Repeated

theorem scalar_packedSyn (s : ScalarTy) :
    PackedSyn (scalarClass s) (scalarSpec s) (fun bs => ∃ v, s.Payload bs v) where
  packed := rfl
  inv _ := trivial
  pos _ h := by obtain ⟨v, h⟩ := h; exact h.ne_nil
  ok bs x h := by
    obtain ⟨v, h⟩ := h
    refine ⟨v, fun β _ M fuel b rest hb hv => Yields.of_post ?_⟩
    refine (scalar_deserialize M s b bs rest x v hb hv h).mono ?_
    rintro r ⟨h1, h2, h3, h4⟩
    exact ⟨h1, h4, h2, fun _ => h3⟩
  stop β _ M fuel b x hb hv := scalar_deserialize_nil M s b x hb hv
  assign _ _ := rfl

/-! ## Fields -/

structure FieldsSyn (F : FieldsClass) (S : FieldsSpec F V) (lo hi n : Nat) (nums : List Nat)
    (R : Nat → WireType → List Byte → Prop) : Prop where
  mem : ∀ id wt bs, R id wt bs → id ∈ nums
  none : ∀ (β : Type) [ReadBuffer β] (fuel id : Nat) (wt : WireType) (b : β) (p : Presence) (s : F.State),
    id ∉ nums → F.dispatch fuel id wt b p s = none
  some : ∀ (id : Nat) (wt : WireType) (bs : List Byte) (p : Presence) (s : F.State), Presence.WF n p →
    S.Inv p.bit s → R id wt bs → ∃ e p' s', Fine e ∧ Presence.WF n p' ∧
      (∀ j, ¬ (lo ≤ j ∧ j < hi) → p'.bit j = p.bit j) ∧ S.Inv p'.bit s' ∧
      ∀ (β : Type) [ReadBuffer β] (M : ReadModel β) (fuel : Nat) (b : β) (rest : List Byte),
        M.Inv b → M.view b = bs ++ rest → bs.length < fuel →
        ∃ r, F.dispatch fuel id wt b p s = some r ∧ Yields M r e (p', s') rest

theorem fieldsSyn_nil (lo n : Nat) : FieldsSyn .nil .nil lo lo n [] (fun _ _ _ => False) where
  mem _ _ _ h := h.elim
  none _ _ _ _ _ _ _ _ _ := rfl
  some _ _ _ _ _ _ _ h := h.elim

theorem fieldsSyn_plain {C : FieldClass} {F : FieldsClass} {S : ClassSpec C V} {R : FieldsSpec F W}
    {lo hi n num : Nat} {nums : List Nat} {w : WireType} {P : List Byte → Prop}
    {Q : Nat → WireType → List Byte → Prop} (hnum : num ∉ nums) (h₁ : SynLaw C S w P)
    (h₂ : FieldsSyn F R lo hi n nums Q) :
    FieldsSyn (.plain num C F) (.plain num S R) lo hi n (num :: nums) (fun id wt bs =>
      (id = num ∧ wt = w ∧ P bs) ∨ Q id wt bs) where
  mem id wt bs h := by
    rcases h with h | h
    · rw [h.1]; exact List.mem_cons_self
    · exact List.mem_cons_of_mem _ (h₂.mem _ _ _ h)
  none β _ fuel id wt b p s hid := by
    simp only [List.mem_cons, not_or] at hid
    simp only [FieldsClass.plain, hid.1, ↓reduceIte, h₂.none β fuel id wt b p s.2 hid.2]
  some id wt bs p s hp hi h := by
    rcases h with ⟨rfl, rfl, hP⟩ | hQ
    · obtain ⟨e, y, he, hy, hall⟩ := h₁ s.1 bs hi.1 hP
      refine ⟨e, p, (y, s.2), he, hp, fun _ _ => rfl, ⟨hy, hi.2⟩, fun β _ M fuel b rest hb hv hf => ?_⟩
      obtain ⟨b', q1, q2⟩ := hall β M fuel b rest hb hv hf
      simp only [FieldsClass.plain, ↓reduceIte]
      refine ⟨_, rfl, b', ?_, q2⟩
      rw [q1]
      rfl
    · have hne : id ≠ num := fun h => hnum (h ▸ h₂.mem _ _ _ hQ)
      obtain ⟨e, p', s', he, hp', hj, hs', hall⟩ := h₂.some id wt bs p s.2 hp hi.2 hQ
      refine ⟨e, p', (s.1, s'), he, hp', hj, ⟨hi.1, hs'⟩, fun β _ M fuel b rest hb hv hf => ?_⟩
      obtain ⟨r, hr, b', q1, q2⟩ := hall β M fuel b rest hb hv hf
      simp only [FieldsClass.plain, hne, ↓reduceIte, hr]
      refine ⟨_, rfl, b', ?_, q2⟩
      rw [q1]
      rfl

theorem fieldsSyn_optional {C : FieldClass} {F : FieldsClass} {S : ClassSpec C V} {R : FieldsSpec F W}
    {idx hi n num : Nat} {nums : List Nat} {w : WireType} {P : List Byte → Prop}
    {Q : Nat → WireType → List Byte → Prop} {e : W} (hnum : num ∉ nums) (hn : hi ≤ n)
    (hb₂ : FieldsBase F R (idx + 1) hi n e)
    (h₁ : SynLaw C S w P) (h₂ : FieldsSyn F R (idx + 1) hi n nums Q) :
    FieldsSyn (.optional num idx C F) (.optional num idx S R) idx hi n (num :: nums)
      (fun id wt bs => (id = num ∧ wt = w ∧ P bs) ∨ Q id wt bs) where
  mem id wt bs h := by
    rcases h with h | h
    · rw [h.1]; exact List.mem_cons_self
    · exact List.mem_cons_of_mem _ (h₂.mem _ _ _ h)
  none β _ fuel id wt b p s hid := by
    simp only [List.mem_cons, not_or] at hid
    simp only [FieldsClass.optional, hid.1, ↓reduceIte, h₂.none β fuel id wt b p s.2 hid.2]
  some id wt bs p s hp hi' h := by
    have hlo := hb₂.lo_le
    have hin : idx < n := by omega
    rcases h with ⟨rfl, rfl, hP⟩ | hQ
    · obtain ⟨p₁, hc₁, hw₁, hb₁'⟩ := Presence.setBit_eq (i := idx) hp hin
      obtain ⟨e, y, he, hy, hall⟩ := h₁ s.1 bs hi'.1.1 hP
      have hcg := hb₂.congr p.bit p₁.bit s.2 (by
        intro i h1 h2; rw [hb₁']; simp; omega)
      have hbi : p₁.bit idx = true := by rw [hb₁']; simp
      refine ⟨e, p₁, (y, s.2), he, hw₁, ?_, ⟨⟨hy, by simp [hbi]⟩, hcg.2 hi'.2⟩,
        fun β _ M fuel b rest hb hv hf => ?_⟩
      · intro j hj
        rw [hb₁']; simp; omega
      · obtain ⟨b', q1, q2⟩ := hall β M fuel b rest hb hv hf
        simp only [FieldsClass.optional, ↓reduceIte, hc₁, Res.ok_bind]
        refine ⟨_, rfl, b', ?_, q2⟩
        rw [q1]
        rfl
    · have hne : id ≠ num := fun h => hnum (h ▸ h₂.mem _ _ _ hQ)
      obtain ⟨e, p', s', he, hp', hj, hs', hall⟩ := h₂.some id wt bs p s.2 hp hi'.2 hQ
      have hbi : p'.bit idx = p.bit idx := hj idx (by omega)
      refine ⟨e, p', (s.1, s'), he, hp', fun j hj' => hj j (by omega), ⟨⟨hi'.1.1, ?_⟩, hs'⟩,
        fun β _ M fuel b rest hb hv hf => ?_⟩
      · rw [hbi]; exact hi'.1.2
      · obtain ⟨r, hr, b', q1, q2⟩ := hall β M fuel b rest hb hv hf
        simp only [FieldsClass.optional, hne, ↓reduceIte, hr]
        refine ⟨_, rfl, b', ?_, q2⟩
        rw [q1]
        rfl

/-! ## Oneofs -/

structure AltsSyn (A : AltsClass) (S : AltsSpec A V) (nums : List Nat)
    (R : Nat → WireType → List Byte → Prop) : Prop where
  mem : ∀ id wt bs, R id wt bs → id ∈ nums
  ok : ∀ (id : Nat) (wt : WireType) (bs : List Byte) (u : A.U), S.num u = id → S.Inv u → R id wt bs →
    ∃ e z, Fine e ∧ S.num z = id ∧ S.Inv z ∧
    ∀ (β : Type) [ReadBuffer β] (M : ReadModel β) (fuel : Nat) (b : β) (rest : List Byte),
      M.Inv b → M.view b = bs ++ rest → bs.length < fuel →
      Yields M (A.deserialize fuel id b wt (some u)) e (some z) rest

theorem altsSyn_nil : AltsSyn .nil .nil [] (fun _ _ _ => False) where
  mem _ _ _ h := h.elim
  ok _ _ _ u := nomatch u

theorem altsSyn_cons {C : FieldClass} {A : AltsClass} {S : ClassSpec C V} {R : AltsSpec A W}
    {num : Nat} {nums : List Nat} {w : WireType} {P : List Byte → Prop}
    {Q : Nat → WireType → List Byte → Prop} (hnum : num ∉ nums) (hb₂ : AltsBase A R nums)
    (h₁ : SynLaw C S w P) (h₂ : AltsSyn A R nums Q) :
    AltsSyn (.cons num C A) (.cons num S R) (num :: nums) (fun id wt bs =>
      (id = num ∧ wt = w ∧ P bs) ∨ Q id wt bs) where
  mem id wt bs h := by
    rcases h with h | h
    · rw [h.1]; exact List.mem_cons_self
    · exact List.mem_cons_of_mem _ (h₂.mem _ _ _ h)
  ok id wt bs u hid hu h := by
    rcases h with ⟨hid', rfl, hP⟩ | hQ
    · subst hid'
      cases u with
      | inr u =>
        have : R.num u = id := hid
        exact absurd (this ▸ hb₂.num_mem u) hnum
      | inl x =>
        obtain ⟨e, y, he, hy, hall⟩ := h₁ x bs hu hP
        refine ⟨e, .inl y, he, rfl, hy, fun β _ M fuel b rest hb hv hf => ?_⟩
        obtain ⟨b', q1, q2⟩ := hall β M fuel b rest hb hv hf
        refine ⟨b', ?_, q2⟩
        simp only [AltsClass.cons, ↓reduceIte, AltsClass.left?, AltsClass.access, Res.ok_bind]
        rw [q1]
        rfl
    · have hmem := h₂.mem _ _ _ hQ
      have hne : id ≠ num := fun h => hnum (h ▸ hmem)
      cases u with
      | inl x => exact absurd hid.symm hne
      | inr u =>
        obtain ⟨e, z, he, hz, hzi, hall⟩ := h₂.ok id wt bs u hid hu hQ
        refine ⟨e, .inr z, he, hz, hzi, fun β _ M fuel b rest hb hv hf => ?_⟩
        obtain ⟨b', q1, q2⟩ := hall β M fuel b rest hb hv hf
        refine ⟨b', ?_, q2⟩
        simp only [AltsClass.cons, hne, ↓reduceIte, AltsClass.right?]
        rw [q1]
        rfl

/-- Decoding a member of a oneof. -/
theorem deserializeObj_syn {A : AltsClass} {S : AltsSpec A V} {nums : List Nat}
    {R : Nat → WireType → List Byte → Prop} (hbase : AltsBase A S nums) (h0 : 0 ∉ nums)
    (hsyn : AltsSyn A S nums R) (id : Nat) (wt : WireType) (bs : List Byte) (o : OneofObj A.U)
    (ho : S.ObjInv o) (h : R id wt bs) :
    ∃ e y, Fine e ∧ S.ObjInv y ∧
      ∀ (β : Type) [ReadBuffer β] (M : ReadModel β) (fuel : Nat) (b : β) (rest : List Byte),
        M.Inv b → M.view b = bs ++ rest → bs.length < fuel →
        Yields M (A.deserializeObj fuel id b wt o) e y rest := by
  have hmem := hsyn.mem _ _ _ h
  obtain ⟨u, hu0, hu1, hu2, _⟩ := activate_eq hbase.toAltsInit h0 o ho id hmem
  obtain ⟨e, z, he, hz, hzi, hall⟩ := hsyn.ok id wt bs u hu1 hu2 h
  have hobj : S.ObjInv ⟨id, some z⟩ := ⟨hz.symm, hzi⟩
  rcases he with rfl | rfl
  · refine ⟨.noErrors, ⟨id, some z⟩, Or.inl rfl, hobj, fun β _ M fuel b rest hb hv hf => ?_⟩
    obtain ⟨b', q1, q2⟩ := hall β M fuel b rest hb hv hf
    refine ⟨b', ?_, q2⟩
    unfold AltsClass.deserializeObj
    rw [hu0, Res.ok_bind]
    dsimp only
    rw [q1]
    rfl
  · refine ⟨.arrayFull, A.initObj, Or.inr rfl, rfl, fun β _ M fuel b rest hb hv hf => ?_⟩
    obtain ⟨b', q1, q2⟩ := hall β M fuel b rest hb hv hf
    refine ⟨b', ?_, q2⟩
    unfold AltsClass.deserializeObj
    rw [hu0, Res.ok_bind]
    dsimp only
    rw [q1, Res.ok_bind]
    dsimp only
    rw [if_pos (by simp), clearObj_eq hbase.toAltsInit h0 _ hobj]
    rfl

structure OneofsSyn (O : OneofsClass) (S : OneofsSpec O V) (nums : List Nat)
    (R : Nat → WireType → List Byte → Prop) : Prop where
  mem : ∀ id wt bs, R id wt bs → id ∈ nums
  none : ∀ (β : Type) [ReadBuffer β] (fuel id : Nat) (wt : WireType) (b : β) (s : O.State),
    id ∉ nums → O.dispatch fuel id wt b s = none
  some : ∀ (id : Nat) (wt : WireType) (bs : List Byte) (s : O.State), S.Inv s → R id wt bs →
    ∃ e s', Fine e ∧ S.Inv s' ∧
      ∀ (β : Type) [ReadBuffer β] (M : ReadModel β) (fuel : Nat) (b : β) (rest : List Byte),
        M.Inv b → M.view b = bs ++ rest → bs.length < fuel →
        ∃ r, O.dispatch fuel id wt b s = some r ∧ Yields M r e s' rest

theorem oneofsSyn_nil : OneofsSyn .nil .nil [] (fun _ _ _ => False) where
  mem _ _ _ h := h.elim
  none _ _ _ _ _ _ _ _ := rfl
  some _ _ _ _ _ h := h.elim

theorem oneofsSyn_cons {A : AltsClass} {O : OneofsClass} {S : AltsSpec A V} {R : OneofsSpec O W}
    {nums₁ nums₂ : List Nat} {P Q : Nat → WireType → List Byte → Prop} (h0 : 0 ∉ nums₁)
    (hdis : ∀ k ∈ nums₁, k ∉ nums₂) (hb₁ : AltsBase A S nums₁) (h₁ : AltsSyn A S nums₁ P)
    (h₂ : OneofsSyn O R nums₂ Q) :
    OneofsSyn (.cons A O) (.cons S R) (nums₁ ++ nums₂) (fun id wt bs => P id wt bs ∨ Q id wt bs) where
  mem id wt bs h := by
    rcases h with h | h
    · exact List.mem_append_left _ (h₁.mem _ _ _ h)
    · exact List.mem_append_right _ (h₂.mem _ _ _ h)
  none β _ fuel id wt b s hid := by
    simp only [List.mem_append, not_or] at hid
    simp only [OneofsClass.cons, hb₁.hasCase, decide_eq_false hid.1, Bool.false_eq_true, ↓reduceIte,
      h₂.none β fuel id wt b s.2 hid.2]
  some id wt bs s hi h := by
    rcases h with hP | hQ
    · have hmem := h₁.mem _ _ _ hP
      obtain ⟨e, y, he, hy, hall⟩ := deserializeObj_syn hb₁ h0 h₁ id wt bs s.1 hi.1 hP
      refine ⟨e, (y, s.2), he, ⟨hy, hi.2⟩, fun β _ M fuel b rest hb hv hf => ?_⟩
      obtain ⟨b', q1, q2⟩ := hall β M fuel b rest hb hv hf
      simp only [OneofsClass.cons, hb₁.hasCase, decide_eq_true hmem, ↓reduceIte]
      refine ⟨_, rfl, b', ?_, q2⟩
      rw [q1]
      rfl
    · have hmem := h₂.mem _ _ _ hQ
      have hnm : id ∉ nums₁ := fun h => hdis id h hmem
      obtain ⟨e, s', he, hs', hall⟩ := h₂.some id wt bs s.2 hi.2 hQ
      refine ⟨e, (s.1, s'), he, ⟨hi.1, hs'⟩, fun β _ M fuel b rest hb hv hf => ?_⟩
      obtain ⟨r, hr, b', q1, q2⟩ := hall β M fuel b rest hb hv hf
      simp only [OneofsClass.cons, hb₁.hasCase, decide_eq_false hnm, Bool.false_eq_true, ↓reduceIte, hr]
      refine ⟨_, rfl, b', ?_, q2⟩
      rw [q1]
      rfl

/-! ## Messages -/

section Msg
variable {F : FieldsClass} {O : OneofsClass} {S : FieldsSpec F V} {R : OneofsSpec O W} {n : Nat}
  {numsF numsO : List Nat} {P Q : Nat → WireType → List Byte → Prop}

theorem RecordSyntax.length_pos {known : List Nat} {bs : List Byte} (h : RecordSyntax known P Q bs) :
    0 < bs.length := by
  obtain ⟨num, wt, t, p, ht, rfl, _⟩ := h
  have := ht.1.length_pos
  simp; omega

/-- One record. -/
theorem msg_step_syn (h₁ : FieldsSyn F S 0 n n numsF P) (h₂ : OneofsSyn O R numsO Q)
    (hdis : ∀ k ∈ numsO, k ∉ numsF) (bs : List Byte) (m : MsgObj F.State O.State)
    (hi : (msgSpec n S R).Inv m) (h : RecordSyntax (numsF ++ numsO) P Q bs) :
    ∃ e m', Fine e ∧ (msgSpec n S R).Inv m' ∧
      ∀ (β : Type) [ReadBuffer β] (M : ReadModel β) (fuel k : Nat) (b : β) (rest : List Byte),
        M.Inv b → M.view b = bs ++ rest → bs.length < fuel →
        ∃ b', tagLoop (MsgObj.step F O fuel) (k + 1) b m =
            (if e = .noErrors then tagLoop (MsgObj.step F O fuel) k b' m' else .ok (e, b', m')) ∧
          M.Inv b' ∧ (e = .noErrors → M.view b' = rest) := by
  obtain ⟨id, wt, t, p, ht, rfl, hcase⟩ := h
  suffices hs : ∃ e m', Fine e ∧ (msgSpec n S R).Inv m' ∧
      ∀ (β : Type) [ReadBuffer β] (M : ReadModel β) (fuel : Nat) (b : β) (rest : List Byte),
        M.Inv b → M.view b = p ++ rest → p.length < fuel →
        Yields M (MsgObj.step F O fuel id wt b m) e m' rest by
    obtain ⟨e, m', he, hm', hall⟩ := hs
    refine ⟨e, m', he, hm', fun β _ M fuel k b rest hb hv hf => ?_⟩
    rw [List.append_assoc] at hv
    simp only [List.length_append] at hf
    obtain ⟨⟨_, b₁⟩, ht1, rfl, ht3, ht4⟩ :=
      (deserializeTag_ok M t (p ++ rest) _ wt id ht rfl b hb hv).exists
    obtain ⟨b', q1, q2⟩ := hall β M fuel b₁ rest ht3 ht4 (by omega)
    refine ⟨b', ?_, q2⟩
    rw [tagLoop, ht1, Res.ok_bind]
    dsimp only
    rw [q1, Res.ok_bind]
    rfl
  obtain ⟨hi1, hi2, hi3⟩ := hi
  rcases hcase with hP | hQ | ⟨hid, hun, hpay⟩
  · obtain ⟨e, p', s', he, hp', _, hs', hall⟩ := h₁.some id wt p m.presence m.fields hi1 hi2 hP
    refine ⟨e, ⟨p', s', m.oneofs⟩, he, ⟨hp', hs', hi3⟩, fun β _ M fuel b rest hb hv hf => ?_⟩
    obtain ⟨r, hr, b', q1, q2⟩ := hall β M fuel b rest hb hv hf
    refine ⟨b', ?_, q2⟩
    unfold MsgObj.step
    simp only [hr, q1]
    rfl
  · have hmem := h₂.mem _ _ _ hQ
    obtain ⟨e, s', he, hs', hall⟩ := h₂.some id wt p m.oneofs hi3 hQ
    refine ⟨e, ⟨m.presence, m.fields, s'⟩, he, ⟨hi1, hi2, hs'⟩, fun β _ M fuel b rest hb hv hf => ?_⟩
    obtain ⟨r, hr, b', q1, q2⟩ := hall β M fuel b rest hb hv hf
    refine ⟨b', ?_, q2⟩
    unfold MsgObj.step
    simp only [h₁.none β fuel id wt b m.presence m.fields (hdis id hmem), hr, q1]
    rfl
  · simp only [List.mem_append, not_or] at hun
    refine ⟨.noErrors, m, Or.inl rfl, ⟨hi1, hi2, hi3⟩, fun β _ M fuel b rest hb hv hf => ?_⟩
    obtain ⟨⟨e, b'⟩, q1, q2, q3, q4⟩ := (skipUnknown_ok M wt b p rest hb hv hpay).exists
    dsimp only at q2 q3 q4
    subst q2
    refine ⟨b', ?_, q3, fun _ => q4⟩
    unfold MsgObj.step
    simp only [h₁.none β fuel id wt b m.presence m.fields hun.1,
      h₂.none β fuel id wt b m.oneofs hun.2]
    rw [if_neg (by omega), q1]
    rfl

/-- Receiving `bs` at the start of a buffer takes `m` to `m'` with result `e`. -/
def StreamTo (F : FieldsClass) (O : OneofsClass) (m : MsgObj F.State O.State) (bs : List Byte)
    (e : Error) (m' : MsgObj F.State O.State) : Prop :=
  ∀ (β : Type) [ReadBuffer β] (M : ReadModel β) (fuel k : Nat) (b : β) (rest : List Byte),
    M.Inv b → M.view b = bs ++ rest → bs.length < fuel → bs.length ≤ k →
    ∃ k' b', tagLoop (MsgObj.step F O fuel) k b m =
        (if e = .noErrors then tagLoop (MsgObj.step F O fuel) k' b' m' else .ok (e, b', m')) ∧
      k ≤ k' + bs.length ∧ M.Inv b' ∧ (e = .noErrors → M.view b' = rest)

/-- One after the other. -/
theorem StreamTo.append {bs bs' : List Byte} {m m' m'' : MsgObj F.State O.State} {e e' : Error}
    (h : StreamTo F O m bs e m') (h' : StreamTo F O m' bs' e' m'') :
    StreamTo F O m (bs ++ bs') (if e = .noErrors then e' else e) (if e = .noErrors then m'' else m') := by
  intro β _ M fuel k b rest hb hv hf hk
  rw [List.append_assoc] at hv
  simp only [List.length_append] at hf hk ⊢
  obtain ⟨k', b', q1, q2, q3, q4⟩ := h β M fuel k b (bs' ++ rest) hb hv (by omega) (by omega)
  by_cases he : e = .noErrors
  · obtain ⟨k'', b'', r1, r2, r3⟩ := h' β M fuel k' b' rest q3 (q4 he) (by omega) (by omega)
    refine ⟨k'', b'', ?_, by omega, ?_⟩
    · rw [q1, if_pos he, r1, if_pos he, if_pos he]
    · rw [if_pos he]; exact r3
  · refine ⟨k', b', ?_, by omega, q3, ?_⟩
    · rw [q1, if_neg he, if_neg he, if_neg he, if_neg he]
    · rw [if_neg he]; exact fun h => absurd h he

/-- A well formed message at the start of the buffer. -/
theorem msg_stream_syn (h₁ : FieldsSyn F S 0 n n numsF P) (h₂ : OneofsSyn O R numsO Q)
    (hdis : ∀ k ∈ numsO, k ∉ numsF) {bs : List Byte}
    (h : Concat (RecordSyntax (numsF ++ numsO) P Q) bs) (m : MsgObj F.State O.State)
    (hi : (msgSpec n S R).Inv m) :
    ∃ (e : Error) (m' : MsgObj F.State O.State), Fine e ∧ (msgSpec n S R).Inv m' ∧ StreamTo F O m bs e m' := by
  induction h generalizing m with
  | nil =>
    exact ⟨.noErrors, m, Or.inl rfl, hi, fun β _ M fuel k b rest hb hv _ _ =>
      ⟨k, b, rfl, by simp, hb, fun _ => hv⟩⟩
  | @cons bs bs' hstep _ ih =>
    obtain ⟨e, m', he, hm', hall⟩ := msg_step_syn h₁ h₂ hdis bs m hi hstep
    have hpos := RecordSyntax.length_pos hstep
    rcases he with rfl | rfl
    · obtain ⟨e, m'', he, hm'', hall'⟩ := ih m' hm'
      refine ⟨e, m'', he, hm'', fun β _ M fuel k b rest hb hv hf hk => ?_⟩
      simp only [List.length_append] at hf hk
      obtain ⟨k, rfl⟩ : ∃ j, k = j + 1 := ⟨k - 1, by omega⟩
      rw [List.append_assoc] at hv
      obtain ⟨b', q1, q2, q3⟩ := hall β M fuel k b (bs' ++ rest) hb hv (by omega)
      obtain ⟨k', b'', r1, r2, r3⟩ := hall' β M fuel k b' rest q2 (q3 rfl) (by omega) (by omega)
      refine ⟨k', b'', ?_, by simp; omega, r3⟩
      rw [q1, if_pos rfl]
      exact r1
    · refine ⟨.arrayFull, m', Or.inr rfl, hm', fun β _ M fuel k b rest hb hv hf hk => ?_⟩
      simp only [List.length_append] at hf hk
      obtain ⟨k, rfl⟩ : ∃ j, k = j + 1 := ⟨k - 1, by omega⟩
      rw [List.append_assoc] at hv
      obtain ⟨b', q1, q2, q3⟩ := hall β M fuel k b (bs' ++ rest) hb hv (by omega)
      exact ⟨k, b', q1, by simp; omega, q2, nofun⟩

/-- A buffer holding exactly a well formed message. -/
theorem StreamTo.body {bs : List Byte} {m m' : MsgObj F.State O.State} {e : Error} (he : Fine e)
    (h : StreamTo F O m bs e m') [ReadBuffer β] (M : ReadModel β) (fuel k : Nat) (b : β)
    (hb : M.Inv b) (hv : M.view b = bs) (hf : bs.length < fuel) (hk : bs.length < k) :
    Yields M (tagLoop (MsgObj.step F O fuel) k b m) e m' [] := by
  obtain ⟨k', b', q1, q2, q3, q4⟩ := h β M fuel k b [] hb (by simpa using hv) hf (by omega)
  rw [q1]
  rcases he with rfl | rfl
  · rw [if_pos rfl]
    obtain ⟨k', rfl⟩ : ∃ j, k' = j + 1 := ⟨k' - 1, by omega⟩
    apply Yields.of_post
    rw [tagLoop, Res.Post_bind]
    refine (deserializeTag_nil M b' q3 (q4 rfl)).mono ?_
    rintro ⟨r, b''⟩ ⟨s1, s2, s3⟩
    dsimp only at s1 s2 s3
    subst s1
    exact ⟨rfl, rfl, s2, fun _ => s3⟩
  · exact ⟨b', rfl, q3, nofun⟩

theorem msg_body_syn (h₁ : FieldsSyn F S 0 n n numsF P) (h₂ : OneofsSyn O R numsO Q)
    (hdis : ∀ k ∈ numsO, k ∉ numsF) {bs : List Byte}
    (h : Concat (RecordSyntax (numsF ++ numsO) P Q) bs) (m : MsgObj F.State O.State)
    (hi : (msgSpec n S R).Inv m) :
    ∃ (e : Error) (m' : MsgObj F.State O.State), Fine e ∧ (msgSpec n S R).Inv m' ∧
      ∀ (β : Type) [ReadBuffer β] (M : ReadModel β) (fuel : Nat) (b : β),
        M.Inv b → M.view b = bs → bs.length < fuel →
        Yields M (MsgObj.deserialize F O fuel b m) e m' [] := by
  obtain ⟨e, m', he, hm', hall⟩ := msg_stream_syn h₁ h₂ hdis h m hi
  exact ⟨e, m', he, hm', fun β _ M fuel b hb hv hf => hall.body he M fuel fuel b hb hv hf hf⟩

theorem msg_check_syn (h₁ : FieldsSyn F S 0 n n numsF P) (h₂ : OneofsSyn O R numsO Q)
    (hdis : ∀ k ∈ numsO, k ∉ numsF) (m : MsgObj F.State O.State) (bs body : List Byte)
    (hi : (msgSpec n S R).Inv m) (hd : Delimited bs body)
    (h : Concat (RecordSyntax (numsF ++ numsO) P Q) body) :
    ∃ e m', Fine e ∧ (msgSpec n S R).Inv m' ∧
    ∀ (β : Type) [ReadBuffer β] (M : ReadModel β) (fuel : Nat) (b : β) (rest : List Byte),
      M.Inv b → M.view b = bs ++ rest → bs.length < fuel →
      Yields M (MsgObj.deserializeCheckType F O fuel b .lengthDelimited m) e m' rest := by
  obtain ⟨e, m', he, hm', hall⟩ := msg_body_syn h₁ h₂ hdis h m hi
  obtain ⟨p, hp, rfl⟩ := hd
  have hlt : body.length < 4294967296 := Varint.lt hp
  refine ⟨e, m', he, hm', fun β _ M fuel b rest hb hv hf => ?_⟩
  rw [List.append_assoc] at hv
  simp only [List.length_append] at hf
  apply Yields.of_post
  unfold MsgObj.deserializeCheckType
  rw [if_pos rfl, Res.Post_bind]
  refine (varint_dec M 32 p (body ++ rest) _ hp b hb hv).mono ?_
  rintro ⟨r, b'⟩ ⟨g1, g2, g3⟩
  dsimp only at g1 g2 g3
  subst g1
  dsimp only
  rw [ofNat32_toNat hlt]
  obtain ⟨hs1, hs2⟩ := Section.new_frame M b' body rest g2 g3
  obtain ⟨s, q1, q2, q3⟩ := hall _ (Section.frame M rest) fuel _ hs1 hs2 (by omega)
  rw [q1, Res.ok_bind]
  exact ⟨rfl, rfl, q2.inv, fun h => (Section.frame_end M rest s q2 (q3 h)).2⟩

theorem msg_syn (h₁ : FieldsSyn F S 0 n n numsF P) (h₂ : OneofsSyn O R numsO Q)
    (hdis : ∀ k ∈ numsO, k ∉ numsF) :
    SynLaw (messageClass n F O) (msgSpec n S R) .lengthDelimited (fun bs =>
      ∃ body, Delimited bs body ∧ Concat (RecordSyntax (numsF ++ numsO) P Q) body) := by
  rintro x bs hx ⟨body, hd, h⟩
  exact msg_check_syn h₁ h₂ hdis x bs body hx hd h

end Msg

/-! ## Declarations -/

theorem ElemTy.rep_syn_of (t : ElemTy) {cap : Nat} (hc : cap < 2147483648)
    (hl : SynLaw t.cls t.spec t.wire t.Syntax) :
    SynLaw (repeatedClass t.cls cap) (repSpec t.spec cap) .lengthDelimited
      (fun bs => if t.isScalar then ∃ body, Delimited bs body ∧ Concat t.Syntax body else t.Syntax bs) := by
  cases t with
  | scalar s => exact rep_packed_syn (scalar_packedSyn s) hc
  | str n => exact rep_unpacked_syn (str_unpackedElem n) hc (fun h => nomatch h) hl
  | msg fs os =>
    refine rep_unpacked_syn (msg_unpackedElem _ _ _) hc (fun _ bs h => ?_) hl
    obtain ⟨body, ⟨p, hp, rfl⟩, _⟩ := h
    exact ⟨p, _, body, hp, rfl⟩

mutual
theorem ElemTy.syn_law : (t : ElemTy) → t.WF → SynLaw t.cls t.spec t.wire t.Syntax
  | .scalar s, _ => scalar_syn s
  | .str cap, h => str_syn cap h.2
  | .msg fs os, h => by
    simp only [ElemTy.WF] at h
    have hd := List.nodup_append.mp h.2.2.1
    have hb := Fields.syn_law fs 0 fs.nOptional h.1 hd.1 (by omega)
    rw [Nat.zero_add] at hb
    exact msg_syn hb (Oneofs.syn_law os h.2.1 hd.2.1 (fun k hk =>
      (h.2.2.2 k (List.mem_append_right _ hk)).1)) (fun k hk hk' => hd.2.2 k hk' k hk rfl)
theorem Fields.syn_law : (fs : Fields) → (idx n : Nat) → fs.WF → fs.numbers.Nodup →
    idx + fs.nOptional ≤ n →
    FieldsSyn (fs.cls idx) (fs.spec idx) idx (idx + fs.nOptional) n fs.numbers fs.Syntax
  | .nil, idx, n, _, _, _ => fieldsSyn_nil idx n
  | .plain num t rest, idx, n, h, hd, hi => by
    simp only [Fields.WF] at h
    simp only [Fields.nOptional] at hi
    simp only [Fields.numbers, List.nodup_cons] at hd
    exact fieldsSyn_plain hd.1 (ElemTy.syn_law t h.1) (Fields.syn_law rest idx n h.2 hd.2 hi)
  | .optional num t rest, idx, n, h, hd, hi => by
    simp only [Fields.WF] at h
    simp only [Fields.nOptional] at hi
    simp only [Fields.numbers, List.nodup_cons] at hd
    have ih := Fields.syn_law rest (idx + 1) n h.2 hd.2 (by omega)
    have hb := Fields.base rest (idx + 1) n h.2 (by omega)
    rw [show idx + 1 + rest.nOptional = idx + (rest.nOptional + 1) by omega] at ih hb
    exact fieldsSyn_optional hd.1 (by simp only [Fields.nOptional]; omega) hb (ElemTy.syn_law t h.1) ih
  | .repeated num cap t rest, idx, n, h, hd, hi => by
    simp only [Fields.WF] at h
    simp only [Fields.nOptional] at hi
    simp only [Fields.numbers, List.nodup_cons] at hd
    exact fieldsSyn_plain hd.1 (ElemTy.rep_syn_of t h.1 (ElemTy.syn_law t h.2.1))
      (Fields.syn_law rest idx n h.2.2 hd.2 hi)
theorem Alts.syn_law : (a : Alts) → a.WF → a.numbers.Nodup → AltsSyn a.cls a.spec a.numbers a.Syntax
  | .nil, _, _ => altsSyn_nil
  | .cons num t rest, h, hd => by
    simp only [Alts.WF] at h
    simp only [Alts.numbers, List.nodup_cons] at hd
    exact altsSyn_cons hd.1 (Alts.base rest h.2 hd.2) (ElemTy.syn_law t h.1) (Alts.syn_law rest h.2 hd.2)
theorem Oneofs.syn_law : (os : Oneofs) → os.WF → os.numbers.Nodup → (∀ k ∈ os.numbers, 0 < k) →
    OneofsSyn os.cls os.spec os.numbers os.Syntax
  | .nil, _, _, _ => oneofsSyn_nil
  | .cons a rest, h, hd, hn => by
    simp only [Oneofs.WF] at h
    simp only [Oneofs.numbers] at hd hn
    have hd' := List.nodup_append.mp hd
    exact oneofsSyn_cons (fun h0 => absurd (hn 0 (List.mem_append_left _ h0)) (by omega))
      (fun k hk hk' => hd'.2.2 k hk k hk' rfl) (Alts.base a h.1 hd'.1) (Alts.syn_law a h.1 hd'.1)
      (Oneofs.syn_law rest h.2 hd'.2.1 (fun k hk => hn k (List.mem_append_right _ hk)))
end

/-- Decoding a well formed message. -/
theorem decode_wellFormed (fs : Fields) (os : Oneofs) (h : (ElemTy.msg fs os).WF) {bs : List Byte}
    (hw : WellFormed fs os bs) (x : (ElemTy.msg fs os).Obj) (hi : (ElemTy.msg fs os).Inv x) :
    ∃ e y, Fine e ∧ (ElemTy.msg fs os).Inv y ∧
      ∀ (β : Type) [ReadBuffer β] (M : ReadModel β) (fuel : Nat) (b : β),
        M.Inv b → M.view b = bs → bs.length < fuel →
        Yields M ((ElemTy.msg fs os).cls.deserialize fuel b x) e y [] := by
  simp only [ElemTy.WF] at h
  have hd := List.nodup_append.mp h.2.2.1
  have hb' := Fields.syn_law fs 0 fs.nOptional h.1 hd.1 (by omega)
  rw [Nat.zero_add] at hb'
  exact msg_body_syn hb' (Oneofs.syn_law os h.2.1 hd.2.1 (fun k hk =>
      (h.2.2.2 k (List.mem_append_right _ hk)).1)) (fun k hk hk' => hd.2.2 k hk' k hk rfl) hw x hi

/-- Receiving a well formed message, whatever comes after it. -/
theorem stream_wellFormed (fs : Fields) (os : Oneofs) (h : (ElemTy.msg fs os).WF) {bs : List Byte}
    (hw : WellFormed fs os bs) (x : MsgObj (fs.cls 0).State os.cls.State)
    (hi : (ElemTy.msg fs os).Inv x) :
    ∃ (e : Error) (y : MsgObj (fs.cls 0).State os.cls.State), Fine e ∧ (ElemTy.msg fs os).Inv y ∧
      StreamTo (fs.cls 0) os.cls x bs e y := by
  simp only [ElemTy.WF] at h
  have hd := List.nodup_append.mp h.2.2.1
  have hb' := Fields.syn_law fs 0 fs.nOptional h.1 hd.1 (by omega)
  rw [Nat.zero_add] at hb'
  exact msg_stream_syn hb' (Oneofs.syn_law os h.2.1 hd.2.1 (fun k hk =>
      (h.2.2.2 k (List.mem_append_right _ hk)).1)) (fun k hk hk' => hd.2.2 k hk' k hk rfl) hw x hi

end EP
