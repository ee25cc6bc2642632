import Verif.Proof.DecMessage

/-!
# Decoding arbitrary bytes

No undefined behaviour, the class invariants survive, and decoding ends, provided a skipped length
cannot make `advance(n)` wrap.
-/

namespace EP
open Spec

variable {V W : Type}

/-- `advance(n)` only moves forward for every `n` that occurs as a varint in `v`. -/
def Fwd {β : Type} [ReadBuffer β] (M : ReadModel β) (v : List Byte) : Prop :=
  M.strict ∧ ∀ p n, p <:+: v → Spec.Varint 32 p n → M.fwd n

theorem Fwd.mono {β : Type} [ReadBuffer β] {M : ReadModel β} {v v' : List Byte} (h : Fwd M v)
    (hv : v' <:+: v) : Fwd M v' :=
  ⟨h.1, fun p n hp => h.2 p n (hp.trans hv)⟩

theorem Fwd.section {β : Type} [ReadBuffer β] {M : ReadModel β} {v v₀ v' : List Byte} (h : Fwd M v) :
    Fwd (Section.model M v₀) v' := ⟨h.1, fun _ _ _ _ => h.1⟩

theorem drop_infix (v : List Byte) (k : Nat) : v.drop k <:+: v := (List.drop_suffix k v).isInfix

/-- What decoding arbitrary bytes into an object does. -/
def SafeLaw (C : FieldClass) (S : ClassSpec C V) : Prop :=
  ∀ (β : Type) [ReadBuffer β] (M : ReadModel β) (fuel : Nat) (b : β) (wt : WireType) (x : C.State),
    M.Inv b → S.Inv x →
    (C.deserializeCheckType fuel b wt x).Safe (Fwd M (M.view b) ∧ (M.view b).length < fuel) fun r =>
      M.Inv r.2.1 ∧ S.Inv r.2.2 ∧ (S.Clean x → S.Clean r.2.2) ∧
      (Fwd M (M.view b) → M.view r.2.1 <:+: M.view b)

section
variable {β : Type} [ReadBuffer β]

/-! ## Varints -/

/-- The two outcomes of reading a varint. -/
theorem varint_class (M : ReadModel β) (w : Nat) (hw : 0 < w) (b : β) (hb : M.Inv b) :
    (deserializeVarint w b).Post fun p => M.Inv p.2 ∧
      ((∃ q rest n, M.view b = q ++ rest ∧ Spec.Varint w q n ∧ n < 2 ^ w ∧ p.1 = .ok (BitVec.ofNat w n) ∧
          0 < q.length ∧ M.view p.2 = rest) ∨
       (∃ e k, p.1 = .error e ∧ e ≠ .noErrors ∧ M.view p.2 = (M.view b).drop k ∧
          (e = .endOfBuffer → M.view p.2 = []))) := by
  rcases varint_cases (maxVarint w) (M.view b) with ⟨bs, rest, hv, h⟩ | ⟨h, hl⟩ | ⟨bs, rest, hv, h, hl⟩
  · refine (deserializeVarint_ok M w bs rest h b hb hv).mono ?_
    rintro p ⟨h1, h2, h3⟩
    refine ⟨h2, Or.inl ⟨bs, rest, groups bs % 2 ^ w, hv, ⟨h, rfl⟩, Nat.mod_lt _ (Nat.two_pow_pos w), ?_,
      h.length_pos, h3⟩⟩
    rw [h1]
    congr 1
    apply BitVec.eq_of_toNat_eq
    simp
  · refine (deserializeVarint_short M w _ h hl b hb rfl).mono ?_
    rintro p ⟨h1, h2, h3⟩
    exact ⟨h2, Or.inr ⟨_, (M.view b).length, h1, by simp, by rw [h3, List.drop_length], fun _ => h3⟩⟩
  · refine (deserializeVarint_long M w hw bs rest h hl b hb hv).mono ?_
    rintro p ⟨h1, h2, h3⟩
    refine ⟨h2, Or.inr ⟨_, bs.length, h1, by simp, by rw [h3, hv, List.drop_left' rfl], nofun⟩⟩

theorem varint_total (M : ReadModel β) (w : Nat) (hw : 0 < w) (b : β) (hb : M.Inv b) :
    (deserializeVarint w b).Post fun p => M.Inv p.2 ∧ ∃ k, M.view p.2 = (M.view b).drop k ∧
      ((∀ e, p.1 ≠ .error e) → 0 < k ∧ k ≤ (M.view b).length) := by
  refine (deserializeVarint_total M w hw b hb).mono ?_
  rintro ⟨r, b'⟩ ⟨h1, k, h2, h3⟩
  refine ⟨h1, k, h2, ?_⟩
  intro he
  cases r with
  | error e => exact absurd rfl (he e)
  | ok v => exact h3 v rfl

theorem tag_class (M : ReadModel β) (b : β) (hb : M.Inv b) :
    (deserializeTag b).Post fun p => M.Inv p.2 ∧
      ((∃ wt id, p.1 = .ok (wt, id) ∧ M.view p.2 <:+: M.view b ∧ (M.view p.2).length < (M.view b).length) ∨
       (∃ e k, p.1 = .error e ∧ e ≠ .noErrors ∧ M.view p.2 = (M.view b).drop k ∧
          (e = .endOfBuffer → M.view p.2 = []))) := by
  unfold deserializeTag
  rw [Res.Post_bind]
  refine (varint_class M 32 (by decide) b hb).mono ?_
  rintro ⟨r, b'⟩ ⟨hi, ⟨q, rest, n, hv, hq, hn, hr, hpos, hv'⟩ | ⟨e, k, hr, hne, hv', hend⟩⟩
  · dsimp only at hi hr hv'
    subst hr
    dsimp only
    split
    · rename_i t _
      refine ⟨hi, Or.inl ⟨t, _, rfl, ?_, ?_⟩⟩
      · show M.view b' <:+: _
        rw [hv', hv]; exact (List.suffix_append q rest).isInfix
      · show (M.view b').length < _
        rw [hv', hv, List.length_append]; omega
    · refine ⟨hi, Or.inr ⟨_, q.length, rfl, by simp, ?_, nofun⟩⟩
      show M.view b' = _
      rw [hv', hv, List.drop_left' rfl]
  · dsimp only at hi hr hv' hend
    subst hr
    exact ⟨hi, Or.inr ⟨e, k, rfl, hne, hv', hend⟩⟩

/-! ## Scalars -/

theorem scalar_total (M : ReadModel β) (s : ScalarTy) (b : β) (hb : M.Inv b) :
    (s.decode b).Post fun p => M.Inv p.2 ∧ ∃ k, M.view p.2 = (M.view b).drop k ∧
      (∀ v, p.1 = .ok v → 0 < k ∧ k ≤ (M.view b).length) := by
  have hvar : ∀ w, 0 < w → (deserializeVarint w b).Post fun p => M.Inv p.2 ∧
      ∃ k, M.view p.2 = (M.view b).drop k ∧ (∀ v, p.1 = .ok v → 0 < k ∧ k ≤ (M.view b).length) :=
    fun w hw => deserializeVarint_total M w hw b hb
  have hmap : ∀ (w : Nat) (f : BitVec 64 → BitVec w), (do
      let (r, buf) ← deserializeVarint 64 b
      pure (r.map f, buf) : Res (Except Error (BitVec w) × β)).Post fun p => M.Inv p.2 ∧
      ∃ k, M.view p.2 = (M.view b).drop k ∧ (∀ v, p.1 = .ok v → 0 < k ∧ k ≤ (M.view b).length) := by
    intro w f
    rw [Res.Post_bind]
    refine (hvar 64 (by decide)).mono ?_
    rintro ⟨p, b'⟩ ⟨h1, k, h2, h3⟩
    refine ⟨h1, k, h2, ?_⟩
    intro v hv
    cases p with
    | error e => exact nomatch hv
    | ok p => exact h3 p rfl
  have hfix : ∀ w, 8 ≤ w → (deserializeFixed w b).Post fun p => M.Inv p.2 ∧
      ∃ k, M.view p.2 = (M.view b).drop k ∧ (∀ v, p.1 = .ok v → 0 < k ∧ k ≤ (M.view b).length) :=
    fun w hw => deserializeFixed_total M w hw b hb
  cases s with
  | int32 => exact hmap 32 _
  | int64 => exact hmap 64 _
  | uint32 => exact hvar 32 (by decide)
  | uint64 => exact hvar 64 (by decide)
  | sint32 => exact hmap 32 _
  | sint64 => exact hmap 64 _
  | boolean => exact deserializeBool_total M b hb
  | enumeration => exact hvar 32 (by decide)
  | fixed32 => exact hfix 32 (by decide)
  | sfixed32 => exact hfix 32 (by decide)
  | floatfixed => exact hfix 32 (by decide)
  | fixed64 => exact hfix 64 (by decide)
  | sfixed64 => exact hfix 64 (by decide)
  | doublefixed => exact hfix 64 (by decide)

theorem scalar_decode_error_ne (s : ScalarTy) (b : β) (p : Except Error s.Val × β)
    (h : s.decode b = .ok p) : ∀ e, p.1 = .error e → e ≠ .noErrors := by
  have hvar : ∀ (w : Nat) (p : Except Error (BitVec w) × β), deserializeVarint w b = .ok p →
      ∀ e, p.1 = .error e → e ≠ .noErrors := fun w p => deserializeVarint_error_ne w b p
  have hmap : ∀ (w : Nat) (f : BitVec 64 → BitVec w) (p : Except Error (BitVec w) × β), (do
      let (r, buf) ← deserializeVarint 64 b
      pure (r.map f, buf) : Res (Except Error (BitVec w) × β)) = .ok p →
      ∀ e, p.1 = .error e → e ≠ .noErrors := by
    intro w f p h
    cases hq : deserializeVarint 64 b with
    | ok q =>
      obtain ⟨q, b'⟩ := q
      rw [hq, Res.ok_bind] at h
      injection h with h
      subst h
      intro e he
      cases q with
      | error e' =>
        injection he with he
        subst he
        exact hvar 64 _ hq _ rfl
      | ok q => exact nomatch he
    | ub => rw [hq] at h; exact nomatch h
    | diverge => rw [hq] at h; exact nomatch h
  have hfix : ∀ (w : Nat) (p : Except Error (BitVec w) × β), deserializeFixed w b = .ok p →
      ∀ e, p.1 = .error e → e ≠ .noErrors := by
    intro w p h
    unfold deserializeFixed at h
    cases hl : deserializeFixedLoop (w / 8) 0 (0 : BitVec w) b with
    | ok q =>
      obtain ⟨q, b'⟩ := q
      rw [hl, Res.ok_bind] at h
      cases q with
      | none => injection h with h; subst h; rintro e ⟨⟩; simp
      | some q => injection h with h; subst h; rintro e ⟨⟩
    | ub => rw [hl] at h; exact nomatch h
    | diverge => rw [hl] at h; exact nomatch h
  have hbool : ∀ (p : Except Error Bool × β), deserializeBool b = .ok p →
      ∀ e, p.1 = .error e → e ≠ .noErrors := by
    intro p h
    unfold deserializeBool at h
    cases hl : ReadBuffer.pop b with
    | ok q =>
      obtain ⟨q, b'⟩ := q
      rw [hl, Res.ok_bind] at h
      cases q with
      | none => injection h with h; subst h; rintro e ⟨⟩; simp
      | some q => injection h with h; subst h; rintro e ⟨⟩
    | ub => rw [hl] at h; exact nomatch h
    | diverge => rw [hl] at h; exact nomatch h
  cases s with
  | int32 => exact hmap 32 _ p h
  | int64 => exact hmap 64 _ p h
  | uint32 => exact hvar 32 p h
  | uint64 => exact hvar 64 p h
  | sint32 => exact hmap 32 _ p h
  | sint64 => exact hmap 64 _ p h
  | boolean => exact hbool p h
  | enumeration => exact hvar 32 p h
  | fixed32 => exact hfix 32 p h
  | sfixed32 => exact hfix 32 p h
  | floatfixed => exact hfix 32 p h
  | fixed64 => exact hfix 64 p h
  | sfixed64 => exact hfix 64 p h
  | doublefixed => exact hfix 64 p h

theorem Res.Post.and_eq {α : Type} {r : Res α} {P Q : α → Prop} (h : r.Post P)
    (h' : ∀ a, r = .ok a → Q a) : r.Post (fun a => P a ∧ Q a) := by
  obtain ⟨a, he, hp⟩ := h.exists
  subst he
  exact ⟨hp, h' a rfl⟩

theorem scalar_deserialize_total (M : ReadModel β) (s : ScalarTy) (b : β) (x : s.Val) (hb : M.Inv b) :
    (s.deserialize b x).Post fun r => M.Inv r.2.1 ∧ ∃ k, M.view r.2.1 = (M.view b).drop k ∧
      (r.1 = .noErrors → 0 < k ∧ k ≤ (M.view b).length) := by
  unfold ScalarTy.deserialize
  rw [Res.Post_bind]
  refine ((scalar_total M s b hb).and_eq (scalar_decode_error_ne s b)).mono ?_
  rintro ⟨p, b'⟩ ⟨⟨h1, k, h2, h3⟩, hne⟩
  cases p with
  | error e => exact ⟨h1, k, h2, fun he => absurd he (hne e rfl)⟩
  | ok v => exact ⟨h1, k, h2, fun _ => h3 v rfl⟩

end

theorem scalar_safeLaw (s : ScalarTy) : SafeLaw (scalarClass s) (scalarSpec s) := by
  intro β _ M fuel b wt x hb _
  show (if s.wireType = wt then s.deserialize b x else pure (.invalidWiretype, b, x) : Res _).Safe _ _
  split
  · refine (scalar_deserialize_total M s b x hb).safe.mono ?_
    rintro r ⟨h1, k, h2, _⟩
    exact ⟨h1, trivial, fun _ => trivial, fun _ => h2 ▸ drop_infix _ _⟩
  · exact ⟨hb, trivial, fun _ => trivial, fun _ => List.infix_refl _⟩

/-! ## Strings -/

theorem str_total {β : Type} [ReadBuffer β] (M : ReadModel β) (cap : Nat) (hc : cap < 2147483648) (b : β)
    (x : StrObj) (hb : M.Inv b) (hx : x.WF cap) :
    (StrObj.deserialize cap b x).Post fun r => M.Inv r.2.1 ∧ r.2.2.WF cap ∧
      ∃ k, M.view r.2.1 = (M.view b).drop k := by
  unfold StrObj.deserialize
  rw [Res.Post_bind]
  refine (deserializeVarint_total M 32 (by decide) b hb).mono ?_
  rintro ⟨r, b'⟩ ⟨h1, k, h2, _⟩
  cases r with
  | error e => exact ⟨h1, hx, k, h2⟩
  | ok v =>
    dsimp only at h1 h2 ⊢
    split
    · rename_i hle
      rw [Res.Post_bind]
      refine (readLoop_total M cap (by omega) v.toNat b' (x.clear cap) h1 (x.clear_wf cap) (by
        simpa [StrObj.clear] using hle)).mono ?_
      rintro ⟨b'', x'⟩ ⟨h3, h4, h5, _⟩
      dsimp only at h3 h4 h5 ⊢
      have : ∃ j, M.view b'' = (M.view b).drop j := ⟨k + v.toNat, by rw [h5, h2, List.drop_drop]⟩
      split <;> exact ⟨h3, h4, this⟩
    · exact ⟨h1, hx, k, h2⟩

theorem str_safeLaw (cap : Nat) (hc : cap < 2147483648) : SafeLaw (strClass cap) (strSpec cap) := by
  intro β _ M fuel b wt x hb hx
  show (if wt = .lengthDelimited then StrObj.deserialize cap b x else pure (.invalidWiretype, b, x) :
    Res _).Safe _ _
  split
  · refine (str_total M cap hc b x hb hx).safe.mono ?_
    rintro r ⟨h1, h2, k, h3⟩
    exact ⟨h1, h2, fun _ => trivial, fun _ => h3 ▸ drop_infix _ _⟩
  · exact ⟨hb, hx, fun h => h, fun _ => List.infix_refl _⟩

/-! ## Repeated fields -/

section Repeated
variable {E : FieldClass} {S : ClassSpec E V} {cap : Nat}

theorem rep_safe_unpacked {d : V} (hE : UnpackedElem E) (hb₀ : BaseLaw E S d) (hc : cap < 2147483648)
    (h : SafeLaw E S) (hk : E.kind ≠ .message → ∀ x, S.Clean x)
    {β : Type} [ReadBuffer β] (M : ReadModel β) (fuel : Nat) (b : β)
    (x : RepObj E.State) (hb : M.Inv b) (hx : (repSpec S cap).Inv x) :
    (RepObj.deserialize cap fuel b x).Safe (Fwd M (M.view b) ∧ (M.view b).length < fuel) fun r =>
      M.Inv r.2.1 ∧ (repSpec S cap).Inv r.2.2 ∧
      ((repSpec S cap).Clean x → (repSpec S cap).Clean r.2.2) ∧
      (Fwd M (M.view b) → M.view r.2.1 <:+: M.view b) := by
  obtain ⟨h1, h2, h3⟩ := id hx
  unfold RepObj.deserialize
  rw [hE.notPacked, if_neg (by simp)]
  by_cases hl : x.len < cap
  · obtain ⟨e, he, hei, hec⟩ := rep_next hx hl
    refine (unpacked_safe hE hc _ fuel b x e he hl h1 _ (h β M fuel b .lengthDelimited e hb hei)).mono ?_
    rintro r ⟨v, ⟨q1, q2, q3, q4⟩, hr | ⟨_, hr⟩⟩
    · dsimp only at q1 q2 q3 q4
      obtain ⟨a1, _, a3⟩ := rep_append hx hl q2
      rw [hr]
      refine ⟨q1, a1, fun hcl => a3 hcl (q3 ?_), q4⟩
      by_cases hm : E.kind = .message
      · rw [hec hcl hm]; exact hb₀.init_clean
      · exact hk hm e
    · rw [hr]; exact ⟨q1, hx, fun h => h, q4⟩
  · unfold RepObj.deserializeUnpacked
    dsimp only
    rw [if_neg hl]
    exact ⟨hb, hx, fun h => h, fun _ => List.infix_refl _⟩

/-- Elements of a packed field. -/
structure PackedSafe (E : FieldClass) (S : ClassSpec E V) : Prop where
  packed : E.isPacked = true
  inv : ∀ x, S.Inv x
  clean : ∀ x, S.Clean x
  total : ∀ (β : Type) [ReadBuffer β] (M : ReadModel β) (fuel : Nat) (b : β) (x : E.State), M.Inv b →
    (E.deserialize fuel b x).Post fun r => M.Inv r.2.1 ∧ ∃ k, M.view r.2.1 = (M.view b).drop k ∧
      (r.1 = .noErrors → 0 < k ∧ k ≤ (M.view b).length)
  assign : ∀ x y, E.assign x y = .ok y

theorem scalar_packedSafe (s : ScalarTy) : PackedSafe (scalarClass s) (scalarSpec s) where
  packed := rfl
  inv _ := trivial
  clean _ := trivial
  total _ _ M _ b x hb := scalar_deserialize_total M s b x hb
  assign _ _ := rfl

theorem add_cases (hE : PackedSafe E S) (hc : cap < 2147483648) {x : RepObj E.State} {v : E.State}
    (hx : (repSpec S cap).Inv x) :
    (x.len < cap ∧ RepObj.add cap x v = .ok (.noErrors, ⟨x.len + 1, x.data.set x.len v⟩)) ∨
    (x.len = cap ∧ RepObj.add cap x v = .ok (.arrayFull, x)) := by
  obtain ⟨h1, h2, h3⟩ := hx
  by_cases hl : x.len < cap
  · left
    refine ⟨hl, ?_⟩
    unfold RepObj.add
    rw [if_pos hl, arrayGet_of_lt (by omega), Res.ok_bind, hE.assign, Res.ok_bind,
      arraySet_of_lt (by omega), Res.ok_bind, u32_of_lt (by omega)]
    rfl
  · right
    refine ⟨by omega, ?_⟩
    unfold RepObj.add
    rw [if_neg hl]
    rfl

theorem packedLoop_safe {β : Type} [ReadBuffer β] (M : ReadModel β) (hE : PackedSafe E S)
    (hc : cap < 2147483648) (fuel k : Nat) (e : Error) (v : E.State) (b : β) (x : RepObj E.State)
    (hx : (repSpec S cap).Inv x) (hb : M.Inv b) :
    (RepObj.deserializePackedLoop cap fuel k e v b x).Safe
      (0 < k ∧ (e = .noErrors → (M.view b).length + 1 < k)) fun r =>
      M.Inv r.2.1 ∧ (repSpec S cap).Inv r.2.2 ∧
      ((repSpec S cap).Clean x → (repSpec S cap).Clean r.2.2) := by
  induction k generalizing e v b x with
  | zero => exact fun h => absurd h.1 (by omega)
  | succ k ih =>
    rw [RepObj.deserializePackedLoop]
    split
    · rename_i he
      rcases add_cases hE hc hx (v := v) with ⟨hl, ha⟩ | ⟨hl, ha⟩
      · rw [ha, Res.ok_bind]
        dsimp only
        rw [if_pos rfl]
        obtain ⟨a1, _, a3⟩ := rep_append hx hl (hE.inv v)
        rw [Res.Safe_bind]
        refine (hE.total β M fuel b v hb).safe.mono ?_
        rintro ⟨e', b', v'⟩ ⟨q1, j, q2, q3⟩
        dsimp only at q1 q2 q3
        refine ((ih e' v' b' _ a1 q1).weaken ?_).mono ?_
        · rintro ⟨t1, t2⟩
          have := t2 he
          refine ⟨by omega, fun he' => ?_⟩
          have := q3 he'
          rw [q2, List.length_drop]
          omega
        · rintro r ⟨r1, r2, r3⟩
          exact ⟨r1, r2, fun hcl => r3 (a3 hcl (hE.clean v))⟩
      · rw [ha, Res.ok_bind]
        exact ⟨hb, hx, fun h => h⟩
    · exact ⟨hb, hx, fun h => h⟩

theorem packed_body_safe (hE : PackedSafe E S) (hc : cap < 2147483648)
    {β : Type} [ReadBuffer β] (M : ReadModel β) (fuel : Nat) (v : List Byte) (b' : β) (size : Nat)
    (x : RepObj E.State) (g1 : M.Inv b') (hx : (repSpec S cap).Inv x) (j : Nat) (g2 : M.view b' = v.drop j)
    (g3 : 0 < size → 0 < j ∧ j ≤ v.length) :
    (do
      let (e, buf, y) ← E.deserialize fuel (Section.new b' size) E.init
      let (e, buf, self) ← RepObj.deserializePackedLoop cap fuel fuel e y buf x
      if e = .endOfBuffer then pure (.noErrors, buf.buffer, self)
      else pure (e, buf.buffer, self) : Res (Error × β × RepObj E.State)).Safe
      (Fwd M v ∧ v.length < fuel) fun r =>
      M.Inv r.2.1 ∧ (repSpec S cap).Inv r.2.2 ∧
      ((repSpec S cap).Clean x → (repSpec S cap).Clean r.2.2) ∧
      (Fwd M v → M.view r.2.1 <:+: v) := by
  have hs := Section.new_inv M b' size g1
  have hsv : (sectionView M (Section.new b' size)).length ≤ (M.view b').length := by
    simp only [sectionView, List.length_take, Section.new]; omega
  have hs0 : size = 0 → (sectionView M (Section.new b' size)) = [] := by
    rintro rfl
    simp [sectionView, Section.new]
  refine Res.Safe_bind.mpr ?_
  refine (hE.total _ (Section.model M (M.view b')) fuel _ E.init hs).safe.mono ?_
  rintro ⟨e, s, y⟩ ⟨q1, i, q2, q3⟩
  have q1 : (Section.model M (M.view b')).Inv s := q1
  have q2 : sectionView M s = (sectionView M (Section.new b' size)).drop i := q2
  have q3 : e = .noErrors → 0 < i ∧ i ≤ (sectionView M (Section.new b' size)).length := q3
  refine Res.Safe_bind.mpr ?_
  refine ((packedLoop_safe (Section.model M (M.view b')) hE hc fuel fuel e y s x hx q1).weaken ?_).mono ?_
  · rintro ⟨_, t2⟩
    refine ⟨by omega, fun he => ?_⟩
    have hi := q3 he
    show (sectionView M s).length + 1 < fuel
    rw [q2, List.length_drop]
    rcases Nat.eq_zero_or_pos size with h0 | h0
    · rw [hs0 h0] at hi; simp at hi; omega
    · have := g3 h0
      rw [g2, List.length_drop] at hsv
      omega
  · rintro ⟨e, s', x'⟩ ⟨r1, r2, r3⟩
    have r1 : (Section.model M (M.view b')).Inv s' := r1
    have key : M.Inv s'.buffer ∧ (repSpec S cap).Inv x' ∧
        ((repSpec S cap).Clean x → (repSpec S cap).Clean x') ∧
        (Fwd M v → M.view s'.buffer <:+: v) := by
      refine ⟨r1.1, r2, r3, fun hf => ?_⟩
      have := r1.2.2.2 hf.1
      rw [g2] at this
      exact this.trans (drop_infix _ _)
    dsimp only
    split <;> exact key

theorem rep_safe_packed (hE : PackedSafe E S) (hc : cap < 2147483648)
    {β : Type} [ReadBuffer β] (M : ReadModel β) (fuel : Nat) (b : β)
    (x : RepObj E.State) (hb : M.Inv b) (hx : (repSpec S cap).Inv x) :
    (RepObj.deserialize cap fuel b x).Safe (Fwd M (M.view b) ∧ (M.view b).length < fuel) fun r =>
      M.Inv r.2.1 ∧ (repSpec S cap).Inv r.2.2 ∧
      ((repSpec S cap).Clean x → (repSpec S cap).Clean r.2.2) ∧
      (Fwd M (M.view b) → M.view r.2.1 <:+: M.view b) := by
  unfold RepObj.deserialize
  rw [hE.packed, if_pos rfl]
  unfold RepObj.deserializePacked
  refine Res.Safe_bind.mpr ?_
  refine (deserializeVarint_total M 32 (by decide) b hb).safe.mono ?_
  rintro ⟨r, b'⟩ ⟨g1, j, g2, g3⟩
  cases r with
  | error e => exact packed_body_safe hE hc M fuel _ b' 0 x g1 hx j g2 (fun h => absurd h (by omega))
  | ok v => exact packed_body_safe hE hc M fuel _ b' v.toNat x g1 hx j g2 (fun _ => g3 v rfl)

theorem rep_safeLaw (h : ∀ (β : Type) [ReadBuffer β] (M : ReadModel β) (fuel : Nat) (b : β)
      (x : RepObj E.State), M.Inv b → (repSpec S cap).Inv x →
      (RepObj.deserialize cap fuel b x).Safe (Fwd M (M.view b) ∧ (M.view b).length < fuel) fun r =>
      M.Inv r.2.1 ∧ (repSpec S cap).Inv r.2.2 ∧
      ((repSpec S cap).Clean x → (repSpec S cap).Clean r.2.2) ∧
      (Fwd M (M.view b) → M.view r.2.1 <:+: M.view b)) :
    SafeLaw (repeatedClass E cap) (repSpec S cap) := by
  intro β _ M fuel b wt x hb hx
  show (if wt = .lengthDelimited then RepObj.deserialize cap fuel b x
    else pure (.invalidWiretype, b, x) : Res _).Safe _ _
  split
  · exact h β M fuel b x hb hx
  · exact ⟨hb, hx, fun h => h, fun _ => List.infix_refl _⟩

end Repeated

/-! ## Fields -/

def FieldsSafe (F : FieldsClass) (S : FieldsSpec F V) (lo hi n : Nat) : Prop :=
  ∀ (β : Type) [ReadBuffer β] (M : ReadModel β) (fuel id : Nat) (wt : WireType) (b : β)
    (p : Presence) (s : F.State) (r : Res (Error × β × Presence × F.State)),
    M.Inv b → Presence.WF n p → S.Inv p.bit s → F.dispatch fuel id wt b p s = some r →
    r.Safe (Fwd M (M.view b) ∧ (M.view b).length < fuel) fun r =>
      M.Inv r.2.1 ∧ Presence.WF n r.2.2.1 ∧ (∀ j, ¬ (lo ≤ j ∧ j < hi) → r.2.2.1.bit j = p.bit j) ∧
      S.Inv r.2.2.1.bit r.2.2.2 ∧ (S.Clean s → S.Clean r.2.2.2) ∧
      (Fwd M (M.view b) → M.view r.2.1 <:+: M.view b)

theorem fieldsSafe_nil (lo n : Nat) : FieldsSafe .nil .nil lo lo n := by
  intro β _ M fuel id wt b p s r _ _ _ h
  exact nomatch h

theorem fieldsSafe_plain {C : FieldClass} {F : FieldsClass} {S : ClassSpec C V} {R : FieldsSpec F W}
    {lo hi n num : Nat} (h₁ : SafeLaw C S) (h₂ : FieldsSafe F R lo hi n) :
    FieldsSafe (.plain num C F) (.plain num S R) lo hi n := by
  intro β _ M fuel id wt b p s r hb hp hi h
  simp only [FieldsClass.plain] at h
  by_cases hid : id = num
  · rw [if_pos hid] at h
    injection h with h
    subst h
    refine Res.Safe_bind.mpr ?_
    refine (h₁ β M fuel b wt s.1 hb hi.1).mono ?_
    rintro ⟨e, b', x⟩ ⟨q1, q2, q3, q4⟩
    exact ⟨q1, hp, fun _ _ => rfl, ⟨q2, hi.2⟩, fun hc => ⟨q3 hc.1, hc.2⟩, q4⟩
  · rw [if_neg hid] at h
    cases hr : F.dispatch fuel id wt b p s.2 with
    | none => rw [hr] at h; exact nomatch h
    | some r' =>
      rw [hr] at h
      injection h with h
      subst h
      refine Res.Safe_bind.mpr ?_
      refine (h₂ β M fuel id wt b p s.2 r' hb hp hi.2 hr).mono ?_
      rintro ⟨e, b', p', t⟩ ⟨q1, q2, q3, q4, q5, q6⟩
      exact ⟨q1, q2, q3, ⟨hi.1, q4⟩, fun hc => ⟨hc.1, q5 hc.2⟩, q6⟩

theorem fieldsSafe_optional {C : FieldClass} {F : FieldsClass} {S : ClassSpec C V} {R : FieldsSpec F W}
    {idx hi n num : Nat} {e : W} (hn : hi ≤ n) (hb₂ : FieldsBase F R (idx + 1) hi n e)
    (h₁ : SafeLaw C S) (h₂ : FieldsSafe F R (idx + 1) hi n) :
    FieldsSafe (.optional num idx C F) (.optional num idx S R) idx hi n := by
  intro β _ M fuel id wt b p s r hb hp hi' h
  have hlo := hb₂.lo_le
  have hin : idx < n := by omega
  simp only [FieldsClass.optional] at h
  by_cases hid : id = num
  · rw [if_pos hid] at h
    injection h with h
    subst h
    obtain ⟨p₁, hc₁, hw₁, hb₁'⟩ := Presence.setBit_eq (i := idx) hp hin
    rw [hc₁, Res.ok_bind]
    refine Res.Safe_bind.mpr ?_
    refine (h₁ β M fuel b wt s.1 hb hi'.1.1).mono ?_
    rintro ⟨e, b', x⟩ ⟨q1, q2, q3, q4⟩
    have hcg := hb₂.congr p.bit p₁.bit s.2 (by
      intro i h1 h2; rw [hb₁']; simp; omega)
    have hbi : p₁.bit idx = true := by rw [hb₁']; simp
    refine ⟨q1, hw₁, ?_, ⟨⟨q2, by simp [hbi]⟩, hcg.2 hi'.2⟩, fun hc => ⟨q3 hc.1, hc.2⟩, q4⟩
    intro j hj
    show p₁.bit j = p.bit j
    rw [hb₁']; simp; omega
  · rw [if_neg hid] at h
    cases hr : F.dispatch fuel id wt b p s.2 with
    | none => rw [hr] at h; exact nomatch h
    | some r' =>
      rw [hr] at h
      injection h with h
      subst h
      refine Res.Safe_bind.mpr ?_
      refine (h₂ β M fuel id wt b p s.2 r' hb hp hi'.2 hr).mono ?_
      rintro ⟨e, b', p', t⟩ ⟨q1, q2, q3, q4, q5, q6⟩
      have hbi : p'.bit idx = p.bit idx := q3 idx (by omega)
      refine ⟨q1, q2, fun j hj => q3 j (by omega), ⟨⟨hi'.1.1, ?_⟩, q4⟩, fun hc => ⟨hc.1, q5 hc.2⟩, q6⟩
      show p'.bit idx = false → _
      rw [hbi]; exact hi'.1.2

/-! ## Oneofs -/

def AltsSafe (A : AltsClass) (S : AltsSpec A V) : Prop :=
  ∀ (β : Type) [ReadBuffer β] (M : ReadModel β) (fuel id : Nat) (wt : WireType) (b : β) (u : A.U),
    M.Inv b → S.num u = id → S.Inv u →
    (A.deserialize fuel id b wt (some u)).Safe (Fwd M (M.view b) ∧ (M.view b).length < fuel) fun r =>
      M.Inv r.2.1 ∧ (∃ z, r.2.2 = some z ∧ S.num z = id ∧ S.Inv z ∧ (S.Clean u → S.Clean z)) ∧
      (Fwd M (M.view b) → M.view r.2.1 <:+: M.view b)

theorem altsSafe_nil : AltsSafe .nil .nil := by
  intro β _ M fuel id wt b u
  exact nomatch u

theorem altsSafe_cons {C : FieldClass} {A : AltsClass} {S : ClassSpec C V} {R : AltsSpec A W}
    {num : Nat} {nums : List Nat} (hnum : num ∉ nums) (hb₂ : AltsBase A R nums) (h₁ : SafeLaw C S)
    (h₂ : AltsSafe A R) : AltsSafe (.cons num C A) (.cons num S R) := by
  intro β _ M fuel id wt b u hb hid hu
  cases u with
  | inl x =>
    have hid : num = id := hid
    subst hid
    simp only [AltsClass.cons, ↓reduceIte, AltsClass.left?, AltsClass.access, Res.ok_bind]
    refine Res.Safe_bind.mpr ?_
    refine (h₁ β M fuel b wt x hb hu).mono ?_
    rintro ⟨e, b', z⟩ ⟨q1, q2, q3, q4⟩
    exact ⟨q1, ⟨.inl z, rfl, rfl, q2, q3⟩, q4⟩
  | inr u =>
    have hid : R.num u = id := hid
    have hne : id ≠ num := fun h => hnum (h ▸ hid ▸ hb₂.num_mem u)
    simp only [AltsClass.cons, hne, ↓reduceIte, AltsClass.right?]
    refine Res.Safe_bind.mpr ?_
    refine (h₂ β M fuel id wt b u hb hid hu).mono ?_
    rintro ⟨e, b', z⟩ ⟨q1, ⟨z', hz, q2, q3, q4⟩, q5⟩
    dsimp only at hz
    subst hz
    exact ⟨q1, ⟨.inr z', rfl, q2, q3, q4⟩, q5⟩

/-- Decoding a member of a oneof; on failure nothing is set. -/
theorem deserializeObj_safe {A : AltsClass} {S : AltsSpec A V} {nums : List Nat} (hbase : AltsBase A S nums)
    (h0 : 0 ∉ nums) (hsafe : AltsSafe A S) {β : Type} [ReadBuffer β] (M : ReadModel β)
    (fuel id : Nat) (wt : WireType) (b : β) (o : OneofObj A.U) (hid : id ∈ nums)
    (ho : S.ObjInv o) (hb : M.Inv b) :
    (A.deserializeObj fuel id b wt o).Safe (Fwd M (M.view b) ∧ (M.view b).length < fuel) fun r =>
      M.Inv r.2.1 ∧ S.ObjInv r.2.2 ∧
      ((∀ u, o.live = some u → S.Clean u) → ∀ u, r.2.2.live = some u → S.Clean u) ∧
      (Fwd M (M.view b) → M.view r.2.1 <:+: M.view b) ∧
      (r.1 = .noErrors → r.2.2.which = id) ∧
      (r.1 ≠ .noErrors → r.2.2 = A.initObj) := by
  obtain ⟨u, hu0, hu1, hu2, hu3⟩ := activate_eq hbase.toAltsInit h0 o ho id hid
  unfold AltsClass.deserializeObj
  rw [hu0, Res.ok_bind, Res.Safe_bind]
  refine (hsafe β M fuel id wt b u hb hu1 hu2).mono ?_
  rintro ⟨e, b', r⟩ ⟨q1, ⟨z, hz, q2, q3, q4⟩, q5⟩
  dsimp only at q1 hz q5
  subst hz
  dsimp only
  have hobj : S.ObjInv ⟨id, some z⟩ := ⟨q2.symm, q3⟩
  split
  · rename_i hne
    rw [clearObj_eq hbase.toAltsInit h0 _ hobj, Res.ok_bind]
    refine ⟨q1, rfl, ?_, q5, fun he => absurd he hne, fun _ => rfl⟩
    intro _ u hu
    exact nomatch hu
  · rename_i hne
    refine ⟨q1, hobj, ?_, q5, fun _ => rfl, fun he => absurd he hne⟩
    intro hcl v hv
    injection hv with hv
    subst hv
    apply q4
    rcases hu3 with ⟨_, hl⟩ | ⟨_, _, hc⟩
    · exact hcl u hl
    · exact hc

def OneofsSafe (O : OneofsClass) (S : OneofsSpec O V) : Prop :=
  ∀ (β : Type) [ReadBuffer β] (M : ReadModel β) (fuel id : Nat) (wt : WireType) (b : β)
    (s : O.State) (r : Res (Error × β × O.State)),
    M.Inv b → S.Inv s → O.dispatch fuel id wt b s = some r →
    r.Safe (Fwd M (M.view b) ∧ (M.view b).length < fuel) fun r =>
      M.Inv r.2.1 ∧ S.Inv r.2.2 ∧ (S.Clean s → S.Clean r.2.2) ∧
      (Fwd M (M.view b) → M.view r.2.1 <:+: M.view b)

theorem oneofsSafe_nil : OneofsSafe .nil .nil := by
  intro β _ M fuel id wt b s r _ _ h
  exact nomatch h

theorem oneofsSafe_cons {A : AltsClass} {O : OneofsClass} {S : AltsSpec A V} {R : OneofsSpec O W}
    {nums : List Nat} (h0 : 0 ∉ nums) (hb₁ : AltsBase A S nums) (h₁ : AltsSafe A S)
    (h₂ : OneofsSafe O R) : OneofsSafe (.cons A O) (.cons S R) := by
  intro β _ M fuel id wt b s r hb hi h
  simp only [OneofsClass.cons] at h
  by_cases hid : id ∈ nums
  · rw [hb₁.hasCase, decide_eq_true hid, if_pos rfl] at h
    injection h with h
    subst h
    refine Res.Safe_bind.mpr ?_
    refine (deserializeObj_safe hb₁ h0 h₁ M fuel id wt b s.1 hid hi.1 hb).mono ?_
    rintro ⟨e, b', o⟩ ⟨q1, q2, q3, q4, _⟩
    exact ⟨q1, ⟨q2, hi.2⟩, fun hc => ⟨q3 hc.1, hc.2⟩, q4⟩
  · rw [hb₁.hasCase, decide_eq_false hid, if_neg (by simp)] at h
    cases hr : O.dispatch fuel id wt b s.2 with
    | none => rw [hr] at h; exact nomatch h
    | some r' =>
      rw [hr] at h
      injection h with h
      subst h
      refine Res.Safe_bind.mpr ?_
      refine (h₂ β M fuel id wt b s.2 r' hb hi.2 hr).mono ?_
      rintro ⟨e, b', t⟩ ⟨q1, q2, q3, q4⟩
      exact ⟨q1, ⟨hi.1, q2⟩, fun hc => ⟨hc.1, q3 hc.2⟩, q4⟩

/-! ## Unknown fields -/

theorem skipUnknown_safe {β : Type} [ReadBuffer β] (M : ReadModel β) (wt : WireType) (b : β) (hb : M.Inv b) :
    (skipUnknownField b wt).Post fun r =>
      M.Inv r.2 ∧ (Fwd M (M.view b) → M.view r.2 <:+: M.view b) := by
  cases wt with
  | varint =>
    show (do let (r, b) ← deserializeVarint 64 b; pure (errOf r, b) : Res (Error × β)).Post _
    rw [Res.Post_bind]
    refine (deserializeVarint_total M 64 (by decide) b hb).mono ?_
    rintro ⟨r, b'⟩ ⟨h1, k, h2, _⟩
    exact ⟨h1, fun _ => h2 ▸ drop_infix _ _⟩
  | fixed64 =>
    show (do let (r, b) ← deserializeFixed 64 b; pure (errOf r, b) : Res (Error × β)).Post _
    rw [Res.Post_bind]
    refine (deserializeFixed_total M 64 (by decide) b hb).mono ?_
    rintro ⟨r, b'⟩ ⟨h1, k, h2, _⟩
    exact ⟨h1, fun _ => h2 ▸ drop_infix _ _⟩
  | fixed32 =>
    show (do let (r, b) ← deserializeFixed 32 b; pure (errOf r, b) : Res (Error × β)).Post _
    rw [Res.Post_bind]
    refine (deserializeFixed_total M 32 (by decide) b hb).mono ?_
    rintro ⟨r, b'⟩ ⟨h1, k, h2, _⟩
    exact ⟨h1, fun _ => h2 ▸ drop_infix _ _⟩
  | lengthDelimited =>
    show (skipLengthDelimited b).Post _
    unfold skipLengthDelimited
    rw [Res.Post_bind]
    refine (varint_class M 32 (by decide) b hb).mono ?_
    rintro ⟨r, b'⟩ ⟨hi, ⟨q, rest, n, hv, hq, hn, hr, hpos, hv'⟩ | ⟨e, k, hr, _, hv', _⟩⟩
    · dsimp only at hi hr hv'
      subst hr
      dsimp only
      rw [ofNat32_toNat hn]
      have hinf : M.view b' <:+: M.view b := by
        rw [hv', hv]; exact (List.suffix_append q rest).isInfix
      by_cases hle : n ≤ (M.view b').length
      · obtain ⟨r, b'', ha, hi'', hvw⟩ := M.advanceN_le b' n hi hle
        rw [ha]
        refine ⟨hi'', fun _ => ?_⟩
        rw [hvw]
        exact (drop_infix _ _).trans hinf
      · obtain ⟨r, b'', ha, hi'', hvw⟩ := M.advanceN_gt b' n hi (by omega) hn
        rw [ha]
        refine ⟨hi'', fun hf => (hvw (hf.2 q n ?_ hq)).trans hinf⟩
        rw [hv]; exact (List.prefix_append q rest).isInfix
    · dsimp only at hi hr hv'
      subst hr
      exact ⟨hi, fun _ => hv' ▸ drop_infix _ _⟩
  | startGroup => exact ⟨hb, fun _ => List.infix_refl _⟩
  | endGroup => exact ⟨hb, fun _ => List.infix_refl _⟩

/-! ## Messages -/

section Msg
variable {F : FieldsClass} {O : OneofsClass} {S : FieldsSpec F V} {R : OneofsSpec O W} {n : Nat}

theorem step_safe (h₁ : FieldsSafe F S 0 n n) (h₂ : OneofsSafe O R) {β : Type} [ReadBuffer β]
    (M : ReadModel β) (fuel id : Nat) (wt : WireType) (b : β) (m : MsgObj F.State O.State)
    (hb : M.Inv b) (hi : (msgSpec n S R).Inv m) :
    (MsgObj.step F O fuel id wt b m).Safe (Fwd M (M.view b) ∧ (M.view b).length < fuel) fun r =>
      M.Inv r.2.1 ∧ (msgSpec n S R).Inv r.2.2 ∧ ((msgSpec n S R).Clean m → (msgSpec n S R).Clean r.2.2) ∧
      (Fwd M (M.view b) → M.view r.2.1 <:+: M.view b) := by
  have hi' := hi
  obtain ⟨hi1, hi2, hi3⟩ := hi'
  unfold MsgObj.step
  cases hr : F.dispatch fuel id wt b m.presence m.fields with
  | some r =>
    dsimp only
    rw [Res.Safe_bind]
    refine (h₁ β M fuel id wt b _ _ r hb hi1 hi2 hr).mono ?_
    rintro ⟨e, b', p, s⟩ ⟨q1, q2, q3, q4, q5, q6⟩
    exact ⟨q1, ⟨q2, q4, hi3⟩, fun hc => ⟨q5 hc.1, hc.2⟩, q6⟩
  | none =>
    dsimp only
    cases hr' : O.dispatch fuel id wt b m.oneofs with
    | some r =>
      dsimp only
      rw [Res.Safe_bind]
      refine (h₂ β M fuel id wt b _ r hb hi3 hr').mono ?_
      rintro ⟨e, b', s⟩ ⟨q1, q2, q3, q4⟩
      exact ⟨q1, ⟨hi1, hi2, q2⟩, fun hc => ⟨hc.1, q3 hc.2⟩, q4⟩
    | none =>
      dsimp only
      split
      · exact ⟨hb, hi, fun h => h, fun _ => List.infix_refl _⟩
      · rw [Res.Safe_bind]
        refine (skipUnknown_safe M wt b hb).safe.mono ?_
        rintro ⟨e, b'⟩ ⟨q1, q2⟩
        exact ⟨q1, hi, fun h => h, q2⟩

theorem loop_safe (h₁ : FieldsSafe F S 0 n n) (h₂ : OneofsSafe O R) {β : Type} [ReadBuffer β]
    (M : ReadModel β) (fuel k : Nat) (b : β) (m : MsgObj F.State O.State)
    (hb : M.Inv b) (hi : (msgSpec n S R).Inv m) :
    (tagLoop (MsgObj.step F O fuel) k b m).Safe
      (Fwd M (M.view b) ∧ (M.view b).length < fuel ∧ (M.view b).length < k) fun r =>
      M.Inv r.2.1 ∧ (msgSpec n S R).Inv r.2.2 ∧ ((msgSpec n S R).Clean m → (msgSpec n S R).Clean r.2.2) ∧
      (Fwd M (M.view b) → M.view r.2.1 <:+: M.view b) ∧ (r.1 = .noErrors → M.view r.2.1 = []) := by
  induction k generalizing b m with
  | zero => exact fun h => absurd h.2.2 (by omega)
  | succ k ih =>
    rw [tagLoop, Res.Safe_bind]
    refine (tag_class M b hb).safe.mono ?_
    rintro ⟨r, b₁⟩ ⟨hi₁, ⟨wt, id, hr, hv₁, hl₁⟩ | ⟨e, j, hr, hne, hv₁, hend⟩⟩
    · dsimp only at hi₁ hr hv₁ hl₁
      subst hr
      dsimp only
      rw [Res.Safe_bind]
      refine ((step_safe h₁ h₂ M fuel id wt b₁ m hi₁ hi).weaken ?_).mono ?_
      · rintro ⟨t1, t2, _⟩
        exact ⟨t1.mono hv₁, by omega⟩
      · rintro ⟨e, b₂, m₂⟩ ⟨q1, q2, q3, q4⟩
        dsimp only at q1 q2 q3 q4 ⊢
        split
        · refine ((ih b₂ m₂ q1 q2).weaken ?_).mono ?_
          · rintro ⟨t1, t2, t3⟩
            have hin := q4 (t1.mono hv₁)
            have := hin.length_le
            exact ⟨(t1.mono hv₁).mono hin, by omega, by omega⟩
          · rintro r ⟨r1, r2, r3, r4, r5⟩
            refine ⟨r1, r2, fun hc => r3 (q3 hc), ?_, r5⟩
            intro hf
            have hin := q4 (hf.mono hv₁)
            exact (r4 ((hf.mono hv₁).mono hin)).trans (hin.trans hv₁)
        · rename_i hne
          exact ⟨q1, q2, q3, fun hf => (q4 (hf.mono hv₁)).trans hv₁, fun he => absurd he hne⟩
    · dsimp only at hi₁ hr hv₁ hend
      subst hr
      refine ⟨hi₁, hi, fun h => h, fun _ => hv₁ ▸ drop_infix _ _, ?_⟩
      intro he
      apply hend
      by_cases h : e = .endOfBuffer
      · exact h
      · have he : (if e = .endOfBuffer then Error.noErrors else e) = .noErrors := he
        rw [if_neg h] at he
        exact absurd he hne

theorem msg_safe (h₁ : FieldsSafe F S 0 n n) (h₂ : OneofsSafe O R) {β : Type} [ReadBuffer β]
    (M : ReadModel β) (fuel : Nat) (b : β) (m : MsgObj F.State O.State)
    (hb : M.Inv b) (hi : (msgSpec n S R).Inv m) :
    (MsgObj.deserialize F O fuel b m).Safe (Fwd M (M.view b) ∧ (M.view b).length < fuel) fun r =>
      M.Inv r.2.1 ∧ (msgSpec n S R).Inv r.2.2 ∧ ((msgSpec n S R).Clean m → (msgSpec n S R).Clean r.2.2) ∧
      (Fwd M (M.view b) → M.view r.2.1 <:+: M.view b) ∧ (r.1 = .noErrors → M.view r.2.1 = []) :=
  (loop_safe h₁ h₂ M fuel fuel b m hb hi).weaken fun h => ⟨h.1, h.2, h.2⟩

theorem msg_check_safe (h₁ : FieldsSafe F S 0 n n) (h₂ : OneofsSafe O R) {β : Type} [ReadBuffer β]
    (M : ReadModel β) (fuel : Nat) (b : β) (wt : WireType) (m : MsgObj F.State O.State)
    (hb : M.Inv b) (hi : (msgSpec n S R).Inv m) :
    (MsgObj.deserializeCheckType F O fuel b wt m).Safe
      (Fwd M (M.view b) ∧ (M.view b).length < fuel) fun r =>
      M.Inv r.2.1 ∧ (msgSpec n S R).Inv r.2.2 ∧ ((msgSpec n S R).Clean m → (msgSpec n S R).Clean r.2.2) ∧
      (Fwd M (M.view b) → M.view r.2.1 <:+: M.view b) := by
  unfold MsgObj.deserializeCheckType
  split
  · rw [Res.Safe_bind]
    refine (deserializeVarint_total M 32 (by decide) b hb).safe.mono ?_
    rintro ⟨r, b'⟩ ⟨g1, j, g2, g3⟩
    dsimp only at g1 g2 g3
    cases r with
    | error e => exact ⟨g1, hi, fun h => h, fun _ => g2 ▸ drop_infix _ _⟩
    | ok v =>
      dsimp only
      rw [Res.Safe_bind]
      refine ((msg_safe h₁ h₂ (Section.model M (M.view b')) fuel _ m
        (Section.new_inv M b' v.toNat g1) hi).weaken ?_).mono ?_
      · rintro ⟨t1, t2⟩
        refine ⟨t1.section, ?_⟩
        show (sectionView M _).length < fuel
        have : (M.view b').length ≤ (M.view b).length := by rw [g2, List.length_drop]; omega
        simp only [sectionView, List.length_take]
        simp only [Section.new]
        omega
      · rintro ⟨e, s, m'⟩ ⟨q1, q2, q3, _⟩
        have q1 : (Section.model M (M.view b')).Inv s := q1
        refine ⟨q1.1, q2, q3, fun hf => ?_⟩
        have := q1.2.2.2 hf.1
        rw [g2] at this
        exact this.trans (drop_infix _ _)
  · exact ⟨hb, hi, fun h => h, fun _ => List.infix_refl _⟩

theorem msg_safeLaw (h₁ : FieldsSafe F S 0 n n) (h₂ : OneofsSafe O R) :
    SafeLaw (messageClass n F O) (msgSpec n S R) := by
  intro β _ M fuel b wt x hb hi
  exact msg_check_safe h₁ h₂ M fuel b wt x hb hi

end Msg

/-! ## Declarations -/

mutual
theorem ElemTy.safe_law : (t : ElemTy) → t.WF → SafeLaw t.cls t.spec
  | .scalar s, _ => scalar_safeLaw s
  | .str cap, h => str_safeLaw cap h.2
  | .msg fs os, h => by
    simp only [ElemTy.WF] at h
    have hd := List.nodup_append.mp h.2.2.1
    have hb := Fields.safe_law fs 0 fs.nOptional h.1 (by omega)
    rw [Nat.zero_add] at hb
    exact msg_safeLaw hb (Oneofs.safe_law os h.2.1 hd.2.1 (fun k hk =>
      (h.2.2.2 k (List.mem_append_right _ hk)).1))
theorem Fields.safe_law : (fs : Fields) → (idx n : Nat) → fs.WF → idx + fs.nOptional ≤ n →
    FieldsSafe (fs.cls idx) (fs.spec idx) idx (idx + fs.nOptional) n
  | .nil, idx, n, _, _ => fieldsSafe_nil idx n
  | .plain num t rest, idx, n, h, hi => by
    simp only [Fields.WF] at h
    simp only [Fields.nOptional] at hi
    exact fieldsSafe_plain (ElemTy.safe_law t h.1) (Fields.safe_law rest idx n h.2 hi)
  | .optional num t rest, idx, n, h, hi => by
    simp only [Fields.WF] at h
    simp only [Fields.nOptional] at hi
    have ih := Fields.safe_law rest (idx + 1) n h.2 (by omega)
    have hb := Fields.base rest (idx + 1) n h.2 (by omega)
    rw [show idx + 1 + rest.nOptional = idx + (rest.nOptional + 1) by omega] at ih hb
    exact fieldsSafe_optional (by simp only [Fields.nOptional]; omega) hb (ElemTy.safe_law t h.1) ih
  | .repeated num cap t rest, idx, n, h, hi => by
    simp only [Fields.WF] at h
    simp only [Fields.nOptional] at hi
    have ih := Fields.safe_law rest idx n h.2.2 hi
    have hE : SafeLaw (repeatedClass t.cls cap) (repSpec t.spec cap) := by
      cases hs : t.isScalar with
      | true =>
        cases t with
        | scalar s =>
          exact rep_safeLaw fun β _ M fuel b x hb hx =>
            rep_safe_packed (scalar_packedSafe s) h.1 M fuel b x hb hx
        | str cap => exact nomatch hs
        | msg fs os => exact nomatch hs
      | false =>
        exact rep_safeLaw fun β _ M fuel b x hb hx =>
          rep_safe_unpacked (ElemTy.unpackedElem t hs) (ElemTy.base t h.2.1) h.1
            (ElemTy.safe_law t h.2.1) (fun hk => (ElemTy.notMessage t hs hk).1) M fuel b x hb hx
    exact fieldsSafe_plain hE ih
theorem Alts.safe_law : (a : Alts) → a.WF → a.numbers.Nodup → AltsSafe a.cls a.spec
  | .nil, _, _ => altsSafe_nil
  | .cons num t rest, h, hd => by
    simp only [Alts.WF] at h
    simp only [Alts.numbers, List.nodup_cons] at hd
    exact altsSafe_cons hd.1 (Alts.base rest h.2 hd.2) (ElemTy.safe_law t h.1)
      (Alts.safe_law rest h.2 hd.2)
theorem Oneofs.safe_law : (os : Oneofs) → os.WF → os.numbers.Nodup → (∀ k ∈ os.numbers, 0 < k) →
    OneofsSafe os.cls os.spec
  | .nil, _, _, _ => oneofsSafe_nil
  | .cons a rest, h, hd, hn => by
    simp only [Oneofs.WF] at h
    simp only [Oneofs.numbers] at hd hn
    have hd' := List.nodup_append.mp hd
    exact oneofsSafe_cons (fun h0 => absurd (hn 0 (List.mem_append_left _ h0)) (by omega))
      (Alts.base a h.1 hd'.1) (Alts.safe_law a h.1 hd'.1)
      (Oneofs.safe_law rest h.2 hd'.2.1 (fun k hk => hn k (List.mem_append_right _ hk)))
end

end EP
