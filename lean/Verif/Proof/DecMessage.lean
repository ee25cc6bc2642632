import Verif.Proof.DecScalar

/-! # Decoding of repeated fields, fields, oneofs and messages -/

namespace EP
open Spec

variable {V W : Type}

/-! ## Repeated fields -/

section Repeated
variable {E : FieldClass} {S : ClassSpec E V} {cap : Nat}

/-- Appending one element. -/
theorem rep_append {x : RepObj E.State} {v : E.State} (hx : (repSpec S cap).Inv x) (hl : x.len < cap)
    (hv : S.Inv v) :
    (repSpec S cap).Inv ⟨x.len + 1, x.data.set x.len v⟩ ∧
    (repSpec S cap).abs ⟨x.len + 1, x.data.set x.len v⟩ = (repSpec S cap).abs x ++ [S.abs v] ∧
    ((repSpec S cap).Clean x → S.Clean v →
      (repSpec S cap).Clean ⟨x.len + 1, x.data.set x.len v⟩) := by
  obtain ⟨h1, h2, h3⟩ := id hx
  have he : (RepObj.elems ⟨x.len + 1, x.data.set x.len v⟩ : List E.State) = x.elems ++ [v] := by
    show List.take _ _ = _
    rw [List.take_add_one, List.take_set_of_le (by omega)]
    simp [h1, hl, RepObj.elems]
  have hs : (RepObj.stale ⟨x.len + 1, x.data.set x.len v⟩ : List E.State) = x.stale.drop 1 := by
    show List.drop _ _ = _
    rw [List.drop_set_of_lt (by simp)]
    simp [RepObj.stale]
  refine ⟨⟨by simpa using h1, by show x.len + 1 ≤ cap; omega, ?_⟩, ?_, ?_⟩
  · intro d hd
    rcases List.mem_or_eq_of_mem_set hd with hd | rfl
    · exact h3 d hd
    · exact hv
  · show List.map _ (RepObj.elems _) = _
    rw [he, List.map_append]; rfl
  · rintro ⟨hc1, hc2⟩ hcv
    refine ⟨?_, ?_⟩
    · intro d hd
      rw [he] at hd
      rcases List.mem_append.mp hd with hd | hd
      · exact hc1 d hd
      · rw [List.mem_singleton.mp hd]; exact hcv
    · intro hk d hd
      rw [hs] at hd
      exact hc2 hk d (List.mem_of_mem_drop hd)

theorem RepObj.limit_eq {x : RepObj E.State} (hc : cap < 4294967296) (hl : x.len < cap) :
    RepObj.limit cap x.len = x.len := by
  rw [RepObj.limit, u32sub_of_le (by omega) (by omega)]
  omega

/-- The element after the last one is new when the object is clean. -/
theorem rep_next {x : RepObj E.State} (hx : (repSpec S cap).Inv x) (hl : x.len < cap) :
    ∃ d, arrayGet x.data x.len = .ok d ∧ S.Inv d ∧
      ((repSpec S cap).Clean x → E.kind = .message → d = E.init) := by
  obtain ⟨h1, h2, h3⟩ := hx
  have hlt : x.len < x.data.length := by omega
  refine ⟨x.data[x.len], arrayGet_of_lt hlt, h3 _ (List.getElem_mem hlt), ?_⟩
  rintro ⟨_, hc⟩ hk
  apply hc hk
  unfold RepObj.stale
  rw [List.drop_eq_getElem_cons hlt]
  exact List.mem_cons_self

/-- Classes whose elements are not packed: how their decoding relates to `deserialize_check_type`. -/
structure UnpackedElem (E : FieldClass) : Prop where
  notPacked : E.isPacked = false
  check : ∀ (β : Type) [ReadBuffer β] (fuel : Nat) (b : β) (x : E.State),
    (E.kind = .message ∧ E.deserializeCheckType fuel b .lengthDelimited x = do
      let (r, b) ← deserializeVarint 32 b
      match r with
      | .error e => pure (e, b, x)
      | .ok v => do
        let (e, s, m) ← E.deserialize fuel (Section.new b v.toNat) x
        pure (e, s.buffer, m)) ∨
    (E.kind ≠ .message ∧ E.deserializeCheckType fuel b .lengthDelimited x = E.deserialize fuel b x)

theorem Res.Safe.and' {α : Type} {T : Prop} {r : Res α} {P Q : α → Prop} (h : r.Safe T P)
    (h' : ∀ a, r = .ok a → Q a) : r.Safe T (fun a => P a ∧ Q a) := by
  cases r with
  | ok a => exact ⟨h, h' a rfl⟩
  | ub => exact h
  | diverge => exact h

theorem deserializeVarint_error_ne {β : Type} [ReadBuffer β] (w : Nat) (b : β)
    (p : Except Error (BitVec w) × β) (h : deserializeVarint w b = .ok p) :
    ∀ e, p.1 = .error e → e ≠ .noErrors := by
  unfold deserializeVarint at h
  cases hl : deserializeVarintLoop (nBytesInVarint w) 0 (0 : BitVec w) b with
  | ok q =>
    obtain ⟨q, b'⟩ := q
    rw [hl, Res.ok_bind] at h
    cases q with
    | none => injection h with h; subst h; rintro e ⟨⟩; simp
    | some q =>
      dsimp only at h
      split at h <;> (injection h with h; subst h; rintro e ⟨⟩)
      simp
  | ub => rw [hl] at h; exact nomatch h
  | diverge => rw [hl] at h; exact nomatch h

/-- `deserialize_unpacked` decodes one more element. -/
theorem unpacked_safe {β : Type} [ReadBuffer β] (hE : UnpackedElem E) (hc : cap < 2147483648) (T : Prop)
    (fuel : Nat) (b : β) (x : RepObj E.State) (d : E.State) (hd : arrayGet x.data x.len = .ok d)
    (hl : x.len < cap) (hlen : x.data.length = cap) (Q : Error × β × E.State → Prop)
    (h : (E.deserializeCheckType fuel b .lengthDelimited d).Safe T Q) :
    (RepObj.deserializeUnpacked cap fuel b x).Safe T fun r =>
      ∃ v, Q (r.1, r.2.1, v) ∧ (r.2.2 = ⟨x.len + 1, x.data.set x.len v⟩ ∨
        (r.1 ≠ .noErrors ∧ r.2.2 = x)) := by
  have hgrow : x.grow cap x.len = ⟨x.len + 1, x.data⟩ := by
    unfold RepObj.grow
    rw [RepObj.limit_eq (by omega) hl]
    dsimp only
    rw [if_pos (by omega), u32_of_lt (by omega)]
  have helem : ∀ (γ : Type) [ReadBuffer γ] (c : γ), RepObj.deserializeElem cap fuel x.len c x = (do
      let (e, c, v) ← E.deserialize fuel c d
      pure (e, c, ⟨x.len + 1, x.data.set x.len v⟩) : Res (Error × γ × RepObj E.State)) := by
    intro γ _ c
    unfold RepObj.deserializeElem
    rw [hgrow, RepObj.limit_eq (by omega) hl]
    dsimp only
    rw [hd, Res.ok_bind]
    congr 1
    funext p
    rw [arraySet_of_lt (by omega)]
    rfl
  unfold RepObj.deserializeUnpacked
  rw [if_pos hl]
  rcases hE.check β fuel b d with ⟨hk, he⟩ | ⟨hk, he⟩
  · rw [if_pos hk]
    rw [he] at h
    rw [Res.Safe_bind] at h ⊢
    refine (h.and' (deserializeVarint_error_ne 32 b)).mono ?_
    rintro ⟨r, b'⟩ ⟨hr, hne⟩
    cases r with
    | error e =>
      dsimp only at hr ⊢
      exact ⟨d, hr, Or.inr ⟨hne e rfl, rfl⟩⟩
    | ok v =>
      dsimp only at hr ⊢
      rw [helem, Res.Safe_bind]
      rw [Res.Safe_bind] at hr
      rw [Res.Safe_bind]
      refine hr.mono ?_
      rintro ⟨e, s, m⟩ hq
      exact ⟨m, hq, Or.inl rfl⟩
  · rw [if_neg hk, helem, Res.Safe_bind]
    rw [he] at h
    refine h.mono ?_
    rintro ⟨e, c, v⟩ hq
    exact ⟨v, hq, Or.inl rfl⟩

/-- Decoding one more element of an unpacked field. -/
theorem rep_decLaw_unpacked {d : V} {P : List Byte → V → V → Prop} (hE : UnpackedElem E)
    (hb₀ : InitLaw E S d) (hc : cap < 2147483648) (h : DecLaw E S .lengthDelimited P)
    (hk : E.kind ≠ .message → (∀ x, S.Clean x) ∧ ∀ bs u u' v, P bs u v → P bs u' v) :
    DecLaw (repeatedClass E cap) (repSpec S cap) .lengthDelimited
      (fun bs u v => v.length ≤ cap ∧ ∃ y, P bs d y ∧ v = u ++ [y]) := by
  intro β _ M fuel b bs rest x v hx hcl hb hv hp hf
  obtain ⟨hlen, y, hp, rfl⟩ := hp
  obtain ⟨h1, h2, h3⟩ := id hx
  have hl : x.len < cap := by
    have : (RepObj.elems x).length = x.len := RepObj.elems_length x h1 h2
    simp [repSpec, this] at hlen
    omega
  obtain ⟨e, he, hei, hec⟩ := rep_next hx hl
  have hee : S.Clean e ∧ P bs (S.abs e) y := by
    by_cases hm : E.kind = .message
    · rw [hec hcl hm]
      exact ⟨hb₀.init_clean, by rw [hb₀.init_abs]; exact hp⟩
    · exact ⟨(hk hm).1 e, (hk hm).2 _ _ _ _ hp⟩
  have := h β M fuel b bs rest e y hei hee.1 hb hv hee.2 hf
  have hu := (unpacked_safe hE hc True fuel b x e he hl h1 _ this.safe).post trivial
  show (RepObj.deserialize cap fuel b x).Post _
  unfold RepObj.deserialize
  rw [hE.notPacked, if_neg (by simp)]
  refine hu.mono ?_
  rintro r ⟨z, ⟨q1, q2, q3, q4, q5, q6⟩, hr | ⟨hne, _⟩⟩
  · obtain ⟨a1, a2, a3⟩ := rep_append hx hl q4
    refine ⟨q1, q2, q3, ?_⟩
    rw [hr]
    refine ⟨a1, a3 hcl q5, ?_⟩
    rw [a2]
    exact congrArg (fun z => (repSpec S cap).abs x ++ [z]) q6
  · exact absurd q1 hne

section Packed
variable {P : List Byte → V → Prop}

theorem Packed.length_le (hpos : ∀ bs v, P bs v → 0 < bs.length) {bs : List Byte} {vs : List V}
    (h : Packed P bs vs) : vs.length ≤ bs.length := by
  induction h with
  | nil => simp
  | cons h1 _ ih => have := hpos _ _ h1; simp; omega

theorem add_eq (hE : PackedElem E S P) (hc : cap < 2147483648) {x : RepObj E.State} {v : E.State}
    (hx : (repSpec S cap).Inv x) (hl : x.len < cap) :
    RepObj.add cap x v = .ok (.noErrors, ⟨x.len + 1, x.data.set x.len v⟩) := by
  obtain ⟨h1, h2, h3⟩ := hx
  unfold RepObj.add
  rw [if_pos hl, arrayGet_of_lt (by omega), Res.ok_bind, hE.assign, Res.ok_bind,
    arraySet_of_lt (by omega), Res.ok_bind, u32_of_lt (by omega)]
  rfl

theorem packedLoop_dec {β : Type} [ReadBuffer β] (M : ReadModel β) (hE : PackedElem E S P)
    (hc : cap < 2147483648) (fuel : Nat) {body : List Byte} {ys : List V} (hp : Packed P body ys)
    (k : Nat) (v : E.State) (b : β) (x : RepObj E.State) (hx : (repSpec S cap).Inv x)
    (hcl : (repSpec S cap).Clean x) (hb : M.Inv b) (hv : M.view b = body)
    (hl : x.len + 1 + ys.length ≤ cap) (hk : ys.length + 1 < k) :
    (RepObj.deserializePackedLoop cap fuel k .noErrors v b x).Post fun r =>
      r.1 = .endOfBuffer ∧ M.Inv r.2.1 ∧ M.view r.2.1 = [] ∧ (repSpec S cap).Inv r.2.2 ∧
      (repSpec S cap).Clean r.2.2 ∧ (repSpec S cap).abs r.2.2 = (repSpec S cap).abs x ++ S.abs v :: ys := by
  induction hp generalizing k v b x with
  | nil =>
    obtain ⟨k, rfl⟩ : ∃ m, k = m + 2 := ⟨k - 2, by simp at hk; omega⟩
    simp only [List.length_nil] at hl
    obtain ⟨a1, a2, a3⟩ := rep_append hx (by omega) (hE.inv v)
    simp only [RepObj.deserializePackedLoop, ↓reduceIte, add_eq hE hc hx (show x.len < cap by omega), Res.ok_bind,
      Res.Post_bind]
    refine (hE.stop β M fuel b v hb hv).mono ?_
    rintro ⟨e, b', v'⟩ ⟨h1, h2, h3⟩
    dsimp only at h1 h2 h3
    subst h1
    simp only [reduceCtorEq, ↓reduceIte]
    exact ⟨rfl, h2, h3, a1, a3 hcl (hE.clean v), a2⟩
  | @cons bs bs' y ys h1 _ ih =>
    obtain ⟨k, rfl⟩ : ∃ m, k = m + 1 := ⟨k - 1, by omega⟩
    simp only [List.length_cons] at hl hk
    obtain ⟨a1, a2, a3⟩ := rep_append hx (by omega) (hE.inv v)
    simp only [RepObj.deserializePackedLoop, ↓reduceIte, add_eq hE hc hx (show x.len < cap by omega), Res.ok_bind,
      Res.Post_bind]
    refine (hE.ok β M fuel b bs bs' v y hb hv h1).mono ?_
    rintro ⟨e, b', v'⟩ ⟨q1, q2, q3, q4⟩
    dsimp only at q1 q2 q3 q4
    subst q1
    refine (ih k v' b' _ a1 (a3 hcl (hE.clean v)) q2 q3 (by simp; omega) (by omega)).mono ?_
    rintro r ⟨r1, r2, r3, r4, r5, r6⟩
    refine ⟨r1, r2, r3, r4, r5, ?_⟩
    rw [r6, a2, q4]
    simp

theorem rep_packed_dec (hE : PackedElem E S P) (hc : cap < 2147483648) {β : Type} [ReadBuffer β]
    (M : ReadModel β) (fuel : Nat) (b : β) (bs rest : List Byte) (x : RepObj E.State) (v : List V)
    (hx : (repSpec S cap).Inv x) (hcl : (repSpec S cap).Clean x) (hb : M.Inv b)
    (hv : M.view b = bs ++ rest) (hp : v.length ≤ cap ∧ ∃ body ys, Delimited bs body ∧
      Packed P body ys ∧ v = (repSpec S cap).abs x ++ ys) (hf : bs.length < fuel) :
    (RepObj.deserialize cap fuel b x).Post fun r =>
      r.1 = .noErrors ∧ M.Inv r.2.1 ∧ M.view r.2.1 = rest ∧
        (repSpec S cap).Inv r.2.2 ∧ (repSpec S cap).Clean r.2.2 ∧ (repSpec S cap).abs r.2.2 = v := by
  obtain ⟨hlen, body, ys, ⟨p, hp, rfl⟩, hpk, rfl⟩ := hp
  obtain ⟨h1, h2, h3⟩ := id hx
  have hl : x.len + ys.length ≤ cap := by
    have : (RepObj.elems x).length = x.len := RepObj.elems_length x h1 h2
    simp [repSpec, this] at hlen
    omega
  have hpl := hp.1.length_pos
  simp only [List.length_append] at hf
  have hlt := M.view_lt b hb
  rw [hv] at hlt
  simp only [List.length_append] at hlt
  unfold RepObj.deserialize
  rw [hE.packed, if_pos rfl]
  unfold RepObj.deserializePacked
  rw [Res.Post_bind]
  rw [List.append_assoc] at hv
  refine (varint_dec M 32 p (body ++ rest) _ hp b hb hv).mono ?_
  rintro ⟨r, b'⟩ ⟨g1, g2, g3⟩
  dsimp only at g1 g2 g3
  subst g1
  dsimp only
  rw [ofNat32_toNat (by omega)]
  obtain ⟨hs1, hs2⟩ := Section.new_frame M b' body rest g2 g3
  obtain ⟨fuel, rfl⟩ : ∃ m, fuel = m + 1 := ⟨fuel - 1, by omega⟩
  cases hpk with
  | nil =>
    rw [Res.Post_bind]
    refine (hE.stop _ (Section.frame M rest) (fuel + 1) _ E.init hs1 hs2).mono ?_
    rintro ⟨e, s, z⟩ ⟨q1, q2, q3⟩
    dsimp only at q1 q2 q3
    subst q1
    obtain ⟨f1, f2⟩ := Section.frame_end M rest s q2 q3
    simp only [RepObj.deserializePackedLoop, reduceCtorEq, ↓reduceIte, Res.pure_eq, Res.ok_bind]
    exact ⟨rfl, f1, f2, hx, hcl, by simp⟩
  | @cons c1 c2 y ys hy hys =>
    rw [Res.Post_bind]
    refine (hE.ok _ (Section.frame M rest) (fuel + 1) _ c1 c2 E.init y hs1 hs2 hy).mono ?_
    rintro ⟨e, s, z⟩ ⟨q1, q2, q3, q4⟩
    dsimp only at q1 q2 q3 q4
    subst q1
    have hlp := Packed.length_le hE.pos hys
    have hl1 := hE.pos _ _ hy
    simp only [List.length_append, List.length_cons] at hf hl
    rw [Res.Post_bind]
    refine (packedLoop_dec (Section.frame M rest) hE hc (fuel + 1) hys (fuel + 1) z s x hx hcl q2 q3
      (by omega) (by omega)).mono ?_
    rintro ⟨e, s', x'⟩ ⟨r1, r2, r3, r4, r5, r6⟩
    dsimp only at r1 r2 r3 r4 r5 r6
    subst r1
    obtain ⟨f1, f2⟩ := Section.frame_end M rest s' r2 r3
    simp only [↓reduceIte, Res.pure_eq, Res.Post_ok]
    refine ⟨trivial, f1, f2, r4, r5, ?_⟩
    rw [r6, q4]

/-- Decoding a packed field. -/
theorem rep_decLaw_packed (hE : PackedElem E S P) (hc : cap < 2147483648) :
    DecLaw (repeatedClass E cap) (repSpec S cap) .lengthDelimited
      (fun bs u v => v.length ≤ cap ∧ ∃ body ys, Delimited bs body ∧ Packed P body ys ∧ v = u ++ ys) := by
  intro β _ M fuel b bs rest x v hx hcl hb hv hp hf
  exact rep_packed_dec hE hc M fuel b bs rest x v hx hcl hb hv hp hf

end Packed

end Repeated

/-! ## Fields -/

structure FieldsDec (F : FieldsClass) (S : FieldsSpec F V) (lo hi n : Nat) (nums : List Nat)
    (R : Nat → WireType → List Byte → V → V → Prop) : Prop where
  mem : ∀ id wt bs u v, R id wt bs u v → id ∈ nums
  none : ∀ (β : Type) [ReadBuffer β] (fuel id : Nat) (wt : WireType) (b : β) (p : Presence) (s : F.State),
    id ∉ nums → F.dispatch fuel id wt b p s = none
  some : ∀ (β : Type) [ReadBuffer β] (M : ReadModel β) (fuel id : Nat) (wt : WireType) (b : β)
    (bs rest : List Byte) (p : Presence) (s : F.State) (v : V), Presence.WF n p → S.Inv p.bit s →
    S.Clean s → M.Inv b → M.view b = bs ++ rest → R id wt bs (S.abs p.bit s) v → bs.length < fuel →
    ∃ r, F.dispatch fuel id wt b p s = some r ∧ r.Post fun r =>
      r.1 = .noErrors ∧ M.Inv r.2.1 ∧ M.view r.2.1 = rest ∧ Presence.WF n r.2.2.1 ∧
      (∀ j, ¬ (lo ≤ j ∧ j < hi) → r.2.2.1.bit j = p.bit j) ∧
      S.Inv r.2.2.1.bit r.2.2.2 ∧ S.Clean r.2.2.2 ∧ S.abs r.2.2.1.bit r.2.2.2 = v

theorem fieldsDec_nil (lo n : Nat) : FieldsDec .nil .nil lo lo n [] (fun _ _ _ _ _ => False) where
  mem _ _ _ _ _ h := h.elim
  none _ _ _ _ _ _ _ _ _ := rfl
  some _ _ _ _ _ _ _ _ _ _ _ _ _ _ _ _ _ h := h.elim

theorem fieldsDec_plain {C : FieldClass} {F : FieldsClass} {S : ClassSpec C V} {R : FieldsSpec F W}
    {lo hi n num : Nat} {nums : List Nat} {w : WireType} {P : List Byte → V → V → Prop}
    {Q : Nat → WireType → List Byte → W → W → Prop} (hnum : num ∉ nums) (h₁ : DecLaw C S w P)
    (h₂ : FieldsDec F R lo hi n nums Q) :
    FieldsDec (.plain num C F) (.plain num S R) lo hi n (num :: nums) (fun id wt bs u v =>
      (id = num ∧ wt = w ∧ P bs u.1 v.1 ∧ v.2 = u.2) ∨ (Q id wt bs u.2 v.2 ∧ v.1 = u.1)) where
  mem id wt bs u v h := by
    rcases h with h | h
    · rw [h.1]; exact List.mem_cons_self
    · exact List.mem_cons_of_mem _ (h₂.mem _ _ _ _ _ h.1)
  none β _ fuel id wt b p s hid := by
    simp only [List.mem_cons, not_or] at hid
    simp only [FieldsClass.plain, hid.1, ↓reduceIte, h₂.none β fuel id wt b p s.2 hid.2]
  some β _ M fuel id wt b bs rest p s v hp hi hc hb hv h hf := by
    obtain ⟨v1, v2⟩ := v
    rcases h with ⟨rfl, rfl, hP, he⟩ | ⟨hQ, he⟩
    · dsimp only at hP he
      subst he
      simp only [FieldsClass.plain, ↓reduceIte]
      refine ⟨_, rfl, ?_⟩
      rw [Res.Post_bind]
      refine (h₁ β M fuel b bs rest s.1 v1 hi.1 hc.1 hb hv hP hf).mono ?_
      rintro ⟨e, b', x⟩ ⟨q1, q2, q3, q4, q5, q6⟩
      dsimp only at q1 q2 q3 q4 q5 q6
      exact ⟨q1, q2, q3, hp, fun _ _ => rfl, ⟨q4, hi.2⟩, ⟨q5, hc.2⟩, by
        show (S.abs x, _) = _; rw [q6]; rfl⟩
    · dsimp only at hQ he
      subst he
      have hne : id ≠ num := fun h => hnum (h ▸ h₂.mem _ _ _ _ _ hQ)
      obtain ⟨r, hr, hpost⟩ := h₂.some β M fuel id wt b bs rest p s.2 v2 hp hi.2 hc.2 hb hv hQ hf
      simp only [FieldsClass.plain, hne, ↓reduceIte, hr]
      refine ⟨_, rfl, ?_⟩
      rw [Res.Post_bind]
      refine hpost.mono ?_
      rintro ⟨e, b', p', t⟩ ⟨q1, q2, q3, q4, q5, q6, q7, q8⟩
      dsimp only at q1 q2 q3 q4 q5 q6 q7 q8
      exact ⟨q1, q2, q3, q4, q5, ⟨hi.1, q6⟩, ⟨hc.1, q7⟩, by
        show (S.abs s.1, _) = _; rw [q8]; rfl⟩

theorem fieldsDec_optional {C : FieldClass} {F : FieldsClass} {S : ClassSpec C V} {R : FieldsSpec F W}
    {idx hi n num : Nat} {nums : List Nat} {w : WireType} {P : List Byte → V → V → Prop}
    {Q : Nat → WireType → List Byte → W → W → Prop} {d : V} {e : W} (hnum : num ∉ nums) (hn : hi ≤ n)
    (hb₁ : InitLaw C S d) (hb₂ : FieldsInit F R (idx + 1) hi n e)
    (h₁ : DecLaw C S w P) (h₂ : FieldsDec F R (idx + 1) hi n nums Q) :
    FieldsDec (.optional num idx C F) (.optional num idx S R) idx hi n (num :: nums)
      (fun id wt bs u v =>
        (id = num ∧ wt = w ∧ (∃ y, P bs (u.1.getD d) y ∧ v.1 = .some y) ∧ v.2 = u.2) ∨
        (Q id wt bs u.2 v.2 ∧ v.1 = u.1)) where
  mem id wt bs u v h := by
    rcases h with h | h
    · rw [h.1]; exact List.mem_cons_self
    · exact List.mem_cons_of_mem _ (h₂.mem _ _ _ _ _ h.1)
  none β _ fuel id wt b p s hid := by
    simp only [List.mem_cons, not_or] at hid
    simp only [FieldsClass.optional, hid.1, ↓reduceIte, h₂.none β fuel id wt b p s.2 hid.2]
  some β _ M fuel id wt b bs rest p s v hp hi' hc hb hv h hf := by
    have hlo := hb₂.lo_le
    have hin : idx < n := by omega
    obtain ⟨v1, v2⟩ := v
    rcases h with ⟨rfl, rfl, ⟨y, hP, hy⟩, he⟩ | ⟨hQ, he⟩
    · dsimp only at hP he hy
      subst he
      subst hy
      obtain ⟨p₁, hc₁, hw₁, hb₁'⟩ := Presence.setBit_eq (i := idx) hp hin
      simp only [FieldsClass.optional, ↓reduceIte, hc₁, Res.ok_bind]
      refine ⟨_, rfl, ?_⟩
      rw [Res.Post_bind]
      have hold : P bs (S.abs s.1) y := by
        have : ((FieldsSpec.optional id idx S R).abs p.bit s).1.getD d = S.abs s.1 := by
          show (if p.bit idx then _ else _ : Option V).getD d = _
          cases hbit : p.bit idx
          · have := hi'.1.2 hbit
            rw [this, hb₁.init_abs]; rfl
          · rfl
        rwa [this] at hP
      refine (h₁ β M fuel b bs rest s.1 y hi'.1.1 hc.1 hb hv hold hf).mono ?_
      rintro ⟨e, b', x⟩ ⟨q1, q2, q3, q4, q5, q6⟩
      dsimp only at q1 q2 q3 q4 q5 q6
      have hcg := hb₂.congr p.bit p₁.bit s.2 (by
        intro i h1 h2; rw [hb₁']; simp; omega)
      have hbi : p₁.bit idx = true := by rw [hb₁']; simp
      refine ⟨q1, q2, q3, hw₁, ?_, ⟨⟨q4, by simp [hbi]⟩, hcg.2 hi'.2⟩, ⟨q5, hc.2⟩, ?_⟩
      · intro j hj
        rw [hb₁']; simp; omega
      · show (if p₁.bit idx then _ else _, R.abs p₁.bit s.2) = (Option.some y, R.abs p.bit s.2)
        rw [hbi, ← hcg.1, q6]; rfl
    · dsimp only at hQ he
      subst he
      have hne : id ≠ num := fun h => hnum (h ▸ h₂.mem _ _ _ _ _ hQ)
      obtain ⟨r, hr, hpost⟩ := h₂.some β M fuel id wt b bs rest p s.2 v2 hp hi'.2 hc.2 hb hv hQ hf
      simp only [FieldsClass.optional, hne, ↓reduceIte, hr]
      refine ⟨_, rfl, ?_⟩
      rw [Res.Post_bind]
      refine hpost.mono ?_
      rintro ⟨e, b', p', t⟩ ⟨q1, q2, q3, q4, q5, q6, q7, q8⟩
      dsimp only at q1 q2 q3 q4 q5 q6 q7 q8
      have hbi : p'.bit idx = p.bit idx := q5 idx (by omega)
      refine ⟨q1, q2, q3, q4, fun j hj => q5 j (by omega), ⟨⟨hi'.1.1, ?_⟩, q6⟩, ⟨hc.1, q7⟩, ?_⟩
      · rw [hbi]; exact hi'.1.2
      · show (if p'.bit idx then _ else _, R.abs p'.bit t) = (if p.bit idx then _ else _, v2)
        rw [hbi, q8]

/-! ## Oneofs -/

structure AltsDec (A : AltsClass) (S : AltsSpec A V) (nums : List Nat)
    (R : Nat → WireType → List Byte → Option V → V → Prop) : Prop where
  mem : ∀ id wt bs u v, R id wt bs u v → id ∈ nums
  ok : ∀ (β : Type) [ReadBuffer β] (M : ReadModel β) (fuel id : Nat) (wt : WireType) (b : β)
    (bs rest : List Byte) (u : A.U) (o : Option A.U) (v : V), S.num u = id → S.Inv u → S.Clean u →
    (o = some u ∨ (A.construct id none = some u ∧ ∀ u', o = some u' → S.num u' ≠ id)) →
    M.Inv b → M.view b = bs ++ rest → R id wt bs (o.map S.abs) v → bs.length < fuel →
    (A.deserialize fuel id b wt (some u)).Post fun r =>
      r.1 = .noErrors ∧ M.Inv r.2.1 ∧ M.view r.2.1 = rest ∧ ∃ z, r.2.2 = some z ∧ S.num z = id ∧
        S.Inv z ∧ S.Clean z ∧ S.abs z = v

theorem altsDec_nil : AltsDec .nil .nil [] (fun _ _ _ _ _ => False) where
  mem _ _ _ _ _ h := h.elim
  ok _ _ _ _ _ _ _ _ _ u := nomatch u

theorem altsDec_cons {C : FieldClass} {A : AltsClass} {S : ClassSpec C V} {R : AltsSpec A W}
    {num : Nat} {nums : List Nat} {w : WireType} {P : List Byte → V → V → Prop}
    {Q : Nat → WireType → List Byte → Option W → W → Prop} {d : V} (hnum : num ∉ nums)
    (hb₁ : InitLaw C S d) (hb₂ : AltsInit A R nums) (h₁ : DecLaw C S w P) (h₂ : AltsDec A R nums Q) :
    AltsDec (.cons num C A) (.cons num S R) (num :: nums) (fun id wt bs u v =>
      (id = num ∧ wt = w ∧ ∃ y, P bs (leftD d u) y ∧ v = .inl y) ∨
      (∃ y, Q id wt bs (rightOf u) y ∧ v = .inr y)) where
  mem id wt bs u v h := by
    rcases h with h | ⟨y, h, _⟩
    · rw [h.1]; exact List.mem_cons_self
    · exact List.mem_cons_of_mem _ (h₂.mem _ _ _ _ _ h)
  ok β _ M fuel id wt b bs rest u o v hid hu hcl ho hb hv h hf := by
    rcases h with ⟨hid', rfl, y, hP, rfl⟩ | ⟨y, hQ, rfl⟩
    · subst hid'
      cases u with
      | inr u =>
        have : R.num u = id := hid
        exact absurd (this ▸ hb₂.num_mem u) hnum
      | inl x =>
        have hold : leftD d (o.map (AltsSpec.cons id S R).abs) = S.abs x := by
          rcases ho with rfl | ⟨hcon, hno⟩
          · rfl
          · have hx : x = C.init := by
              simp only [AltsClass.cons, ↓reduceIte] at hcon
              injection hcon with hcon
              injection hcon with hcon
              exact hcon.symm
            rw [hx, hb₁.init_abs]
            cases o with
            | none => rfl
            | some u' =>
              cases u' with
              | inl z => exact absurd rfl (hno _ rfl)
              | inr z => rfl
        rw [hold] at hP
        simp only [AltsClass.cons, ↓reduceIte, AltsClass.left?, AltsClass.access, Res.ok_bind]
        rw [Res.Post_bind]
        refine (h₁ β M fuel b bs rest x y hu hcl hb hv hP hf).mono ?_
        rintro ⟨e, b', z⟩ ⟨q1, q2, q3, q4, q5, q6⟩
        exact ⟨q1, q2, q3, .inl z, rfl, rfl, q4, q5, congrArg Sum.inl q6⟩
    · have hmem := h₂.mem _ _ _ _ _ hQ
      have hne : id ≠ num := fun h => hnum (h ▸ hmem)
      cases u with
      | inl x => exact absurd hid.symm hne
      | inr u =>
        have hold : rightOf (o.map (AltsSpec.cons num S R).abs) = (AltsClass.right? o).map R.abs := by
          cases o with
          | none => rfl
          | some z => cases z <;> rfl
        rw [hold] at hQ
        simp only [AltsClass.cons, hne, ↓reduceIte, AltsClass.right?]
        rw [Res.Post_bind]
        refine (h₂.ok β M fuel id wt b bs rest u (AltsClass.right? o) y hid hu hcl ?_ hb hv hQ hf).mono ?_
        · rcases ho with rfl | ⟨hcon, hno⟩
          · exact Or.inl rfl
          · right
            refine ⟨?_, ?_⟩
            · simp only [AltsClass.cons, hne, ↓reduceIte] at hcon
              change AltsClass.inr? (A.construct id none) = _ at hcon
              cases hc : A.construct id none with
              | none => rw [hc] at hcon; exact nomatch hcon
              | some z =>
                rw [hc] at hcon
                injection hcon with hcon
                injection hcon with hcon
                rw [hcon]
            · intro u' hu'
              cases o with
              | none => exact nomatch hu'
              | some z =>
                cases z with
                | inl z => exact nomatch hu'
                | inr z =>
                  injection hu' with hu'
                  subst hu'
                  exact hno _ rfl
        · rintro ⟨e, b', z⟩ ⟨q1, q2, q3, z', hz, q4, q5, q6, q7⟩
          dsimp only at hz
          subst hz
          exact ⟨q1, q2, q3, .inr z', rfl, q4, q5, q6, congrArg Sum.inr q7⟩

/-- Decoding a member of a oneof. -/
theorem deserializeObj_dec {A : AltsClass} {S : AltsSpec A V} {nums : List Nat}
    {R : Nat → WireType → List Byte → Option V → V → Prop} (hbase : AltsInit A S nums)
    (h0 : 0 ∉ nums) (hdec : AltsDec A S nums R) {β : Type} [ReadBuffer β] (M : ReadModel β)
    (fuel id : Nat) (wt : WireType) (b : β) (bs rest : List Byte) (o : OneofObj A.U) (v : V)
    (ho : S.ObjInv o) (hcl : ∀ u, o.live = some u → S.Clean u) (hb : M.Inv b)
    (hv : M.view b = bs ++ rest) (h : R id wt bs (o.live.map S.abs) v) (hf : bs.length < fuel) :
    (A.deserializeObj fuel id b wt o).Post fun r =>
      r.1 = .noErrors ∧ M.Inv r.2.1 ∧ M.view r.2.1 = rest ∧ S.ObjInv r.2.2 ∧
      ∃ z, r.2.2.live = some z ∧ S.Clean z ∧ S.abs z = v := by
  have hmem := hdec.mem _ _ _ _ _ h
  obtain ⟨u, hu0, hu1, hu2, hu3⟩ := activate_eq hbase h0 o ho id hmem
  unfold AltsClass.deserializeObj
  rw [hu0, Res.ok_bind, Res.Post_bind]
  refine (hdec.ok β M fuel id wt b bs rest u o.live v hu1 hu2 ?_ ?_ hb hv h hf).mono ?_
  · rcases hu3 with ⟨_, hl⟩ | ⟨_, _, hc⟩
    · exact hcl u hl
    · exact hc
  · rcases hu3 with ⟨_, hl⟩ | ⟨hw, hcon, _⟩
    · exact Or.inl hl
    · refine Or.inr ⟨hcon, ?_⟩
      intro u' hu' hn
      unfold AltsSpec.ObjInv at ho
      rw [hu'] at ho
      exact hw (ho.1.trans hn)
  · rintro ⟨e, b', r⟩ ⟨q1, q2, q3, z, hz, q4, q5, q6, q7⟩
    dsimp only at q1 q2 q3 hz
    subst q1
    subst hz
    simp only [ne_eq, not_true_eq_false, ↓reduceIte]
    exact ⟨rfl, q2, q3, ⟨q4.symm, q5⟩, z, rfl, q6, q7⟩

structure OneofsDec (O : OneofsClass) (S : OneofsSpec O V) (nums : List Nat)
    (R : Nat → WireType → List Byte → V → V → Prop) : Prop where
  mem : ∀ id wt bs u v, R id wt bs u v → id ∈ nums
  none : ∀ (β : Type) [ReadBuffer β] (fuel id : Nat) (wt : WireType) (b : β) (s : O.State),
    id ∉ nums → O.dispatch fuel id wt b s = none
  some : ∀ (β : Type) [ReadBuffer β] (M : ReadModel β) (fuel id : Nat) (wt : WireType) (b : β)
    (bs rest : List Byte) (s : O.State) (v : V), S.Inv s → S.Clean s → M.Inv b →
    M.view b = bs ++ rest → R id wt bs (S.abs s) v → bs.length < fuel →
    ∃ r, O.dispatch fuel id wt b s = some r ∧ r.Post fun r =>
      r.1 = .noErrors ∧ M.Inv r.2.1 ∧ M.view r.2.1 = rest ∧ S.Inv r.2.2 ∧ S.Clean r.2.2 ∧
      S.abs r.2.2 = v

theorem oneofsDec_nil : OneofsDec .nil .nil [] (fun _ _ _ _ _ => False) where
  mem _ _ _ _ _ h := h.elim
  none _ _ _ _ _ _ _ _ := rfl
  some _ _ _ _ _ _ _ _ _ _ _ _ _ _ _ h := h.elim

theorem oneofsDec_cons {A : AltsClass} {O : OneofsClass} {S : AltsSpec A V} {R : OneofsSpec O W}
    {nums₁ nums₂ : List Nat} {P : Nat → WireType → List Byte → Option V → V → Prop}
    {Q : Nat → WireType → List Byte → W → W → Prop} (h0 : 0 ∉ nums₁)
    (hdis : ∀ k ∈ nums₁, k ∉ nums₂) (hb₁ : AltsInit A S nums₁) (h₁ : AltsDec A S nums₁ P)
    (h₂ : OneofsDec O R nums₂ Q) :
    OneofsDec (.cons A O) (.cons S R) (nums₁ ++ nums₂) (fun id wt bs u v =>
      ((∃ y, P id wt bs u.1 y ∧ v.1 = .some y) ∧ v.2 = u.2) ∨ (Q id wt bs u.2 v.2 ∧ v.1 = u.1)) where
  mem id wt bs u v h := by
    rcases h with ⟨⟨y, h, _⟩, _⟩ | h
    · exact List.mem_append_left _ (h₁.mem _ _ _ _ _ h)
    · exact List.mem_append_right _ (h₂.mem _ _ _ _ _ h.1)
  none β _ fuel id wt b s hid := by
    simp only [List.mem_append, not_or] at hid
    simp only [OneofsClass.cons, hb₁.hasCase, decide_eq_false hid.1, Bool.false_eq_true, ↓reduceIte,
      h₂.none β fuel id wt b s.2 hid.2]
  some β _ M fuel id wt b bs rest s v hi hc hb hv h hf := by
    obtain ⟨v1, v2⟩ := v
    rcases h with ⟨⟨y, hP, he1⟩, he2⟩ | ⟨hQ, he⟩
    · dsimp only at hP he1 he2
      subst he1
      subst he2
      have hmem := h₁.mem _ _ _ _ _ hP
      simp only [OneofsClass.cons, hb₁.hasCase, decide_eq_true hmem, ↓reduceIte]
      refine ⟨_, rfl, ?_⟩
      rw [Res.Post_bind]
      refine (deserializeObj_dec hb₁ h0 h₁ M fuel id wt b bs rest s.1 y hi.1 hc.1 hb hv hP hf).mono ?_
      rintro ⟨e, b', o⟩ ⟨q1, q2, q3, q4, z, hz, q5, q6⟩
      dsimp only at q1 q2 q3 q4 hz
      refine ⟨q1, q2, q3, ⟨q4, hi.2⟩, ⟨?_, hc.2⟩, ?_⟩
      · intro u hu
        change o.live = _ at hu
        rw [hz] at hu
        injection hu with hu
        exact hu ▸ q5
      · show (o.live.map S.abs, R.abs s.2) = (Option.some y, R.abs s.2)
        rw [hz, ← q6]; rfl
    · dsimp only at hQ he
      subst he
      have hmem := h₂.mem _ _ _ _ _ hQ
      have hnm : id ∉ nums₁ := fun h => hdis id h hmem
      obtain ⟨r, hr, hpost⟩ := h₂.some β M fuel id wt b bs rest s.2 v2 hi.2 hc.2 hb hv hQ hf
      simp only [OneofsClass.cons, hb₁.hasCase, decide_eq_false hnm, Bool.false_eq_true, ↓reduceIte, hr]
      refine ⟨_, rfl, ?_⟩
      rw [Res.Post_bind]
      refine hpost.mono ?_
      rintro ⟨e, b', t⟩ ⟨q1, q2, q3, q4, q5, q6⟩
      dsimp only at q1 q2 q3 q4 q5 q6
      exact ⟨q1, q2, q3, ⟨hi.1, q4⟩, ⟨hc.1, q5⟩, by show (_, R.abs t) = _; rw [q6]; rfl⟩

/-! ## Unknown fields -/

theorem skipUnknown_ok {β : Type} [ReadBuffer β] (M : ReadModel β) (wt : WireType) (b : β)
    (bs rest : List Byte) (hb : M.Inv b) (hv : M.view b = bs ++ rest) (h : UnknownPayload wt bs) :
    (skipUnknownField b wt).Post fun r => r.1 = .noErrors ∧ M.Inv r.2 ∧ M.view r.2 = rest := by
  cases wt with
  | varint =>
    show (do let (r, b) ← deserializeVarint 64 b; pure (errOf r, b) : Res (Error × β)).Post _
    rw [Res.Post_bind]
    refine (deserializeVarint_ok M 64 bs rest h b hb hv).mono ?_
    rintro ⟨r, b'⟩ ⟨h1, h2⟩
    dsimp only at h1 h2
    subst h1
    exact ⟨rfl, h2⟩
  | fixed64 =>
    show (do let (r, b) ← deserializeFixed 64 b; pure (errOf r, b) : Res (Error × β)).Post _
    rw [Res.Post_bind]
    refine (deserializeFixed_ok M 64 bs rest h b hb hv).mono ?_
    rintro ⟨r, b'⟩ ⟨h1, h2⟩
    dsimp only at h1 h2
    subst h1
    exact ⟨rfl, h2⟩
  | fixed32 =>
    show (do let (r, b) ← deserializeFixed 32 b; pure (errOf r, b) : Res (Error × β)).Post _
    rw [Res.Post_bind]
    refine (deserializeFixed_ok M 32 bs rest h b hb hv).mono ?_
    rintro ⟨r, b'⟩ ⟨h1, h2⟩
    dsimp only at h1 h2
    subst h1
    exact ⟨rfl, h2⟩
  | lengthDelimited =>
    obtain ⟨body, p, hp, rfl⟩ := h
    show (skipLengthDelimited b).Post _
    unfold skipLengthDelimited
    have hlt := M.view_lt b hb
    rw [hv] at hlt
    simp only [List.length_append] at hlt
    rw [List.append_assoc] at hv
    rw [Res.Post_bind]
    refine (varint_dec M 32 p (body ++ rest) _ hp b hb hv).mono ?_
    rintro ⟨r, b'⟩ ⟨h1, h2, h3⟩
    dsimp only at h1 h2 h3
    subst h1
    dsimp only
    rw [ofNat32_toNat (by omega)]
    obtain ⟨r, b'', ha, hi, hvw⟩ := M.advanceN_le b' body.length h2 (by rw [h3]; simp)
    rw [ha]
    refine ⟨rfl, hi, ?_⟩
    rw [hvw, h3, List.drop_left' rfl]
  | startGroup => exact h.elim
  | endGroup => exact h.elim

/-! ## Messages -/

section Msg
variable {F : FieldsClass} {O : OneofsClass} {S : FieldsSpec F V} {R : OneofsSpec O W} {n : Nat}
  {numsF numsO : List Nat} {P : Nat → WireType → List Byte → V → V → Prop}
  {Q : Nat → WireType → List Byte → W → W → Prop}

theorem RecordStep.length_pos {known : List Nat} {bs : List Byte} {u v : V × W}
    (h : RecordStep known P Q bs u v) : 0 < bs.length := by
  obtain ⟨num, wt, t, p, ht, rfl, _⟩ := h
  have := ht.1.length_pos
  simp; omega

/-- One record. -/
theorem msg_step (h₁ : FieldsDec F S 0 n n numsF P) (h₂ : OneofsDec O R numsO Q)
    (hdis : ∀ k ∈ numsO, k ∉ numsF) {β : Type} [ReadBuffer β] (M : ReadModel β) (fuel : Nat) (b : β)
    (bs rest : List Byte) (m : MsgObj F.State O.State) (v : V × W)
    (hi : (msgSpec n S R).Inv m) (hc : (msgSpec n S R).Clean m) (hb : M.Inv b)
    (hv : M.view b = bs ++ rest) (h : RecordStep (numsF ++ numsO) P Q bs ((msgSpec n S R).abs m) v)
    (hf : bs.length < fuel) :
    ∃ id wt b₁ b' m', deserializeTag b = .ok (.ok (wt, id), b₁) ∧
      MsgObj.step F O fuel id wt b₁ m = .ok (.noErrors, b', m') ∧ M.Inv b' ∧ M.view b' = rest ∧
      (msgSpec n S R).Inv m' ∧ (msgSpec n S R).Clean m' ∧ (msgSpec n S R).abs m' = v := by
  obtain ⟨id, wt, t, p, ht, rfl, hcase⟩ := h
  rw [List.append_assoc] at hv
  simp only [List.length_append] at hf
  obtain ⟨⟨_, b₁⟩, ht1, rfl, ht3, ht4⟩ := (deserializeTag_ok M t (p ++ rest) _ wt id ht rfl b hb hv).exists
  dsimp only at ht3 ht4
  refine ⟨id, wt, b₁, ?_⟩
  suffices hs : (MsgObj.step F O fuel id wt b₁ m).Post fun r => r.1 = .noErrors ∧ M.Inv r.2.1 ∧
      M.view r.2.1 = rest ∧ (msgSpec n S R).Inv r.2.2 ∧ (msgSpec n S R).Clean r.2.2 ∧
      (msgSpec n S R).abs r.2.2 = v by
    obtain ⟨⟨e, b', m'⟩, hs1, rfl, hs2⟩ := hs.exists
    exact ⟨b', m', ht1, hs1, hs2⟩
  obtain ⟨hi1, hi2, hi3⟩ := hi
  obtain ⟨hc1, hc2⟩ := hc
  obtain ⟨v1, v2⟩ := v
  unfold MsgObj.step
  rcases hcase with ⟨hP, he⟩ | ⟨hQ, he⟩ | ⟨hid, hun, hpay, he⟩
  · dsimp only at hP he
    subst he
    obtain ⟨r, hr, hpost⟩ := h₁.some β M fuel id wt b₁ p rest m.presence m.fields v1 hi1 hi2 hc1 ht3
      ht4 hP (by omega)
    simp only [hr, Res.Post_bind]
    refine hpost.mono ?_
    rintro ⟨e, b', p', s'⟩ ⟨q1, q2, q3, q4, q5, q6, q7, q8⟩
    dsimp only at q1 q2 q3 q4 q5 q6 q7 q8
    exact ⟨q1, q2, q3, ⟨q4, q6, hi3⟩, ⟨q7, hc2⟩, by
      show (S.abs p'.bit s', _) = _; rw [q8]; rfl⟩
  · dsimp only at hQ he
    subst he
    have hmem := h₂.mem _ _ _ _ _ hQ
    obtain ⟨r, hr, hpost⟩ := h₂.some β M fuel id wt b₁ p rest m.oneofs v2 hi3 hc2 ht3
      ht4 hQ (by omega)
    simp only [h₁.none β fuel id wt b₁ m.presence m.fields (hdis id hmem), hr, Res.Post_bind]
    refine hpost.mono ?_
    rintro ⟨e, b', s'⟩ ⟨q1, q2, q3, q4, q5, q6⟩
    dsimp only at q1 q2 q3 q4 q5 q6
    exact ⟨q1, q2, q3, ⟨hi1, hi2, q4⟩, ⟨hc1, q5⟩, by
      show (_, R.abs s') = _; rw [q6]; rfl⟩
  · simp only [List.mem_append, not_or] at hun
    simp only [h₁.none β fuel id wt b₁ m.presence m.fields hun.1,
      h₂.none β fuel id wt b₁ m.oneofs hun.2]
    rw [if_neg (by omega), Res.Post_bind]
    refine (skipUnknown_ok M wt b₁ p rest ht3 ht4 hpay).mono ?_
    rintro ⟨e, b'⟩ ⟨q1, q2, q3⟩
    exact ⟨q1, q2, q3, ⟨hi1, hi2, hi3⟩, ⟨hc1, hc2⟩, he.symm⟩

/-- A sequence of well formed records at the start of the buffer is decoded, and decoding continues
with what follows. -/
theorem msg_stream (h₁ : FieldsDec F S 0 n n numsF P) (h₂ : OneofsDec O R numsO Q)
    (hdis : ∀ k ∈ numsO, k ∉ numsF) {β : Type} [ReadBuffer β] (M : ReadModel β) (fuel : Nat)
    {bs : List Byte} {u v : V × W} (h : Stream (RecordStep (numsF ++ numsO) P Q) bs u v) (k : Nat) (b : β)
    (rest : List Byte) (m : MsgObj F.State O.State) (hu : (msgSpec n S R).abs m = u)
    (hi : (msgSpec n S R).Inv m) (hc : (msgSpec n S R).Clean m) (hb : M.Inv b)
    (hv : M.view b = bs ++ rest) (hf : bs.length < fuel) (hk : bs.length ≤ k) :
    ∃ k' b' m', tagLoop (MsgObj.step F O fuel) k b m = tagLoop (MsgObj.step F O fuel) k' b' m' ∧
      k ≤ k' + bs.length ∧ M.Inv b' ∧ M.view b' = rest ∧ (msgSpec n S R).Inv m' ∧
      (msgSpec n S R).Clean m' ∧ (msgSpec n S R).abs m' = v := by
  induction h generalizing k b m with
  | nil => exact ⟨k, b, m, rfl, by simp, hb, hv, hi, hc, hu⟩
  | @cons bs bs' u w v hstep _ ih =>
    subst hu
    have hpos := RecordStep.length_pos hstep
    simp only [List.length_append] at hf hk
    rw [List.append_assoc] at hv
    obtain ⟨id, wt, b₁, b', m', e1, e2, q1, q2, q3, q4, q5⟩ :=
      msg_step h₁ h₂ hdis M fuel b bs (bs' ++ rest) m _ hi hc hb hv hstep (by omega)
    obtain ⟨k, rfl⟩ : ∃ j, k = j + 1 := ⟨k - 1, by omega⟩
    obtain ⟨k', b'', m'', r1, r2, r3⟩ := ih k b' m' q5 q3 q4 q1 q2 (by omega) (by omega)
    refine ⟨k', b'', m'', ?_, by simp; omega, r3⟩
    rw [← r1]
    rw [tagLoop, e1, Res.ok_bind]
    dsimp only
    rw [e2, Res.ok_bind]
    rfl

/-- A buffer holding exactly a sequence of well formed records. -/
theorem msg_body (h₁ : FieldsDec F S 0 n n numsF P) (h₂ : OneofsDec O R numsO Q)
    (hdis : ∀ k ∈ numsO, k ∉ numsF) {β : Type} [ReadBuffer β] (M : ReadModel β) (fuel : Nat)
    {bs : List Byte} {v : V × W} (b : β) (m : MsgObj F.State O.State)
    (h : Stream (RecordStep (numsF ++ numsO) P Q) bs ((msgSpec n S R).abs m) v)
    (hi : (msgSpec n S R).Inv m) (hc : (msgSpec n S R).Clean m) (hb : M.Inv b)
    (hv : M.view b = bs) (hf : bs.length < fuel) :
    (MsgObj.deserialize F O fuel b m).Post fun r => r.1 = .noErrors ∧ M.Inv r.2.1 ∧
      M.view r.2.1 = [] ∧ (msgSpec n S R).Inv r.2.2 ∧ (msgSpec n S R).Clean r.2.2 ∧
      (msgSpec n S R).abs r.2.2 = v := by
  obtain ⟨k', b', m', e1, e2, q1, q2, q3⟩ := msg_stream h₁ h₂ hdis M fuel h fuel b [] m rfl hi hc hb
    (by simpa using hv) hf (by omega)
  unfold MsgObj.deserialize
  rw [e1]
  obtain ⟨k', rfl⟩ : ∃ j, k' = j + 1 := ⟨k' - 1, by omega⟩
  rw [tagLoop, Res.Post_bind]
  refine (deserializeTag_nil M b' q1 q2).mono ?_
  rintro ⟨r, b''⟩ ⟨s1, s2, s3⟩
  dsimp only at s1 s2 s3
  subst s1
  exact ⟨rfl, s2, s3, q3⟩

theorem msg_deserialize (h₁ : FieldsDec F S 0 n n numsF P) (h₂ : OneofsDec O R numsO Q)
    (hdis : ∀ k ∈ numsO, k ∉ numsF) {β : Type} [ReadBuffer β] (M : ReadModel β) (fuel : Nat) (b : β)
    (bs rest : List Byte) (m : MsgObj F.State O.State) (v : V × W)
    (hi : (msgSpec n S R).Inv m) (hc : (msgSpec n S R).Clean m) (hb : M.Inv b)
    (hv : M.view b = bs ++ rest) (h : ∃ body, Delimited bs body ∧
      Stream (RecordStep (numsF ++ numsO) P Q) body ((msgSpec n S R).abs m) v) (hf : bs.length < fuel) :
    (MsgObj.deserializeCheckType F O fuel b .lengthDelimited m).Post fun r =>
      r.1 = .noErrors ∧ M.Inv r.2.1 ∧ M.view r.2.1 = rest ∧ (msgSpec n S R).Inv r.2.2 ∧
      (msgSpec n S R).Clean r.2.2 ∧ (msgSpec n S R).abs r.2.2 = v := by
  obtain ⟨body, ⟨p, hp, rfl⟩, hst⟩ := h
  have hpl := hp.1.length_pos
  have hlt := M.view_lt b hb
  rw [hv] at hlt
  simp only [List.length_append] at hf hlt
  rw [List.append_assoc] at hv
  unfold MsgObj.deserializeCheckType
  rw [if_pos rfl, Res.Post_bind]
  refine (varint_dec M 32 p (body ++ rest) _ hp b hb hv).mono ?_
  rintro ⟨r, b'⟩ ⟨g1, g2, g3⟩
  dsimp only at g1 g2 g3
  subst g1
  dsimp only
  rw [ofNat32_toNat (by omega), Res.Post_bind]
  obtain ⟨hs1, hs2⟩ := Section.new_frame M b' body rest g2 g3
  refine (msg_body h₁ h₂ hdis (Section.frame M rest) fuel _ m hst hi hc hs1 hs2 (by omega)).mono ?_
  rintro ⟨e, s, m'⟩ ⟨q1, q2, q3, q4⟩
  obtain ⟨f1, f2⟩ := Section.frame_end M rest s q2 q3
  exact ⟨q1, f1, f2, q4⟩

theorem msg_decLaw (h₁ : FieldsDec F S 0 n n numsF P) (h₂ : OneofsDec O R numsO Q)
    (hdis : ∀ k ∈ numsO, k ∉ numsF) :
    DecLaw (messageClass n F O) (msgSpec n S R) .lengthDelimited (fun bs u v =>
      ∃ body, Delimited bs body ∧ Stream (RecordStep (numsF ++ numsO) P Q) body u v) := by
  intro β _ M fuel b bs rest x v hi hc hb hv h hf
  exact msg_deserialize h₁ h₂ hdis M fuel b bs rest x v hi hc hb hv h hf

end Msg

/-! ## Declarations -/

theorem str_unpackedElem (cap : Nat) : UnpackedElem (strClass cap) where
  notPacked := rfl
  check _ _ _ _ _ := Or.inr ⟨by simp [strClass], rfl⟩

theorem msg_unpackedElem (n : Nat) (F : FieldsClass) (O : OneofsClass) :
    UnpackedElem (messageClass n F O) where
  notPacked := rfl
  check _ _ _ _ _ := Or.inl ⟨rfl, rfl⟩

/-- Only messages are merged into what is there. -/
theorem ElemTy.notMessage (t : ElemTy) (hs : t.isScalar = false) : t.cls.kind ≠ .message →
    (∀ x, t.spec.Clean x) ∧ ∀ bs u u' v, t.Payload bs u v → t.Payload bs u' v := by
  intro hk
  cases t with
  | scalar s => exact nomatch hs
  | str cap =>
    refine ⟨fun _ => trivial, fun bs u u' v h => ?_⟩
    simp only [ElemTy.Payload] at h ⊢
    exact h
  | msg fs os => exact absurd rfl hk

theorem ElemTy.unpackedElem (t : ElemTy) (h : t.isScalar = false) : UnpackedElem t.cls := by
  cases t with
  | scalar s => exact nomatch h
  | str cap => exact str_unpackedElem cap
  | msg fs os => exact msg_unpackedElem _ _ _

/-- Decoding of a repeated field, given decoding of its elements. -/
theorem ElemTy.rep_dec_of (t : ElemTy) {cap : Nat} (hc : cap < 2147483648) (h : t.WF)
    (hl : DecLaw t.cls t.spec t.wire t.Payload) :
    DecLaw (repeatedClass t.cls cap) (repSpec t.spec cap) .lengthDelimited
      (fun bs u v => v.length ≤ cap ∧ (if t.isScalar then
        ∃ body ys, Delimited bs body ∧ Packed (fun b y => t.Payload b t.dflt y) body ys ∧ v = u ++ ys
        else ∃ y, t.Payload bs t.dflt y ∧ v = u ++ [y])) := by
  cases hs : t.isScalar with
  | true =>
    cases t with
    | scalar s => exact rep_decLaw_packed (scalar_packedElem s) hc
    | str cap => exact nomatch hs
    | msg fs os => exact nomatch hs
  | false =>
    have hw : t.wire = .lengthDelimited := by
      cases t with
      | scalar s => exact nomatch hs
      | str cap => rfl
      | msg fs os => rfl
    rw [hw] at hl
    exact rep_decLaw_unpacked (ElemTy.unpackedElem t hs) (ElemTy.base t h).toInitLaw hc hl
      (ElemTy.notMessage t hs)

mutual
theorem ElemTy.dec_law : (t : ElemTy) → t.WF → DecLaw t.cls t.spec t.wire t.Payload
  | .scalar s, _ => scalar_decLaw s
  | .str cap, h => str_decLaw cap h.2
  | .msg fs os, h => by
    simp only [ElemTy.WF] at h
    have hd := List.nodup_append.mp h.2.2.1
    have hb := Fields.dec_law fs 0 fs.nOptional h.1 hd.1 (by omega)
    rw [Nat.zero_add] at hb
    exact msg_decLaw hb (Oneofs.dec_law os h.2.1 hd.2.1 (fun k hk =>
      (h.2.2.2 k (List.mem_append_right _ hk)).1)) (fun k hk hk' => hd.2.2 k hk' k hk rfl)
theorem Fields.dec_law : (fs : Fields) → (idx n : Nat) → fs.WF → fs.numbers.Nodup →
    idx + fs.nOptional ≤ n →
    FieldsDec (fs.cls idx) (fs.spec idx) idx (idx + fs.nOptional) n fs.numbers fs.Record
  | .nil, idx, n, _, _, _ => fieldsDec_nil idx n
  | .plain num t rest, idx, n, h, hd, hi => by
    simp only [Fields.WF] at h
    simp only [Fields.nOptional] at hi
    simp only [Fields.numbers, List.nodup_cons] at hd
    exact fieldsDec_plain hd.1 (ElemTy.dec_law t h.1) (Fields.dec_law rest idx n h.2 hd.2 hi)
  | .optional num t rest, idx, n, h, hd, hi => by
    simp only [Fields.WF] at h
    simp only [Fields.nOptional] at hi
    simp only [Fields.numbers, List.nodup_cons] at hd
    have ih := Fields.dec_law rest (idx + 1) n h.2 hd.2 (by omega)
    have hb := Fields.base rest (idx + 1) n h.2 (by omega)
    rw [show idx + 1 + rest.nOptional = idx + (rest.nOptional + 1) by omega] at ih hb
    exact fieldsDec_optional hd.1 (by simp only [Fields.nOptional]; omega) (ElemTy.base t h.1).toInitLaw hb.toFieldsInit
      (ElemTy.dec_law t h.1) ih
  | .repeated num cap t rest, idx, n, h, hd, hi => by
    simp only [Fields.WF] at h
    simp only [Fields.nOptional] at hi
    simp only [Fields.numbers, List.nodup_cons] at hd
    have ih := Fields.dec_law rest idx n h.2.2 hd.2 hi
    have hE := ElemTy.rep_dec_of t h.1 h.2.1 (ElemTy.dec_law t h.2.1)
    have := fieldsDec_plain hd.1 hE ih
    refine Eq.mp (congrArg (FieldsDec _ _ idx _ n _) ?_) this
    funext id wt bs u v
    apply propext
    show _ ↔ (id = num ∧ wt = .lengthDelimited ∧ v.1.length ≤ cap ∧ v.2 = u.2 ∧ _) ∨ _
    constructor
    · rintro (⟨h1, h2, ⟨h3, h4⟩, h5⟩ | h)
      · exact Or.inl ⟨h1, h2, h3, h5, h4⟩
      · exact Or.inr h
    · rintro (⟨h1, h2, h3, h5, h4⟩ | h)
      · exact Or.inl ⟨h1, h2, ⟨h3, h4⟩, h5⟩
      · exact Or.inr h
theorem Alts.dec_law : (a : Alts) → a.WF → a.numbers.Nodup → AltsDec a.cls a.spec a.numbers a.Record
  | .nil, _, _ => altsDec_nil
  | .cons num t rest, h, hd => by
    simp only [Alts.WF] at h
    simp only [Alts.numbers, List.nodup_cons] at hd
    exact altsDec_cons hd.1 (ElemTy.base t h.1).toInitLaw (Alts.base rest h.2 hd.2).toAltsInit (ElemTy.dec_law t h.1)
      (Alts.dec_law rest h.2 hd.2)
theorem Oneofs.dec_law : (os : Oneofs) → os.WF → os.numbers.Nodup → (∀ k ∈ os.numbers, 0 < k) →
    OneofsDec os.cls os.spec os.numbers os.Record
  | .nil, _, _, _ => oneofsDec_nil
  | .cons a rest, h, hd, hn => by
    simp only [Oneofs.WF] at h
    simp only [Oneofs.numbers] at hd hn
    have hd' := List.nodup_append.mp hd
    exact oneofsDec_cons (fun h0 => absurd (hn 0 (List.mem_append_left _ h0)) (by omega))
      (fun k hk hk' => hd'.2.2 k hk k hk' rfl) (Alts.base a h.1 hd'.1).toAltsInit (Alts.dec_law a h.1 hd'.1)
      (Oneofs.dec_law rest h.2 hd'.2.1 (fun k hk => hn k (List.mem_append_right _ hk)))
end

/-- `deserialize()` of a message on a buffer that holds well formed records. -/
theorem decode_records (fs : Fields) (os : Oneofs) (h : (ElemTy.msg fs os).WF) {β : Type}
    [ReadBuffer β] (M : ReadModel β) (fuel : Nat) {bs : List Byte} {v : (ElemTy.msg fs os).Val} (b : β)
    (x : (ElemTy.msg fs os).Obj) (hr : Records fs os bs ((ElemTy.msg fs os).abs x) v)
    (hi : (ElemTy.msg fs os).Inv x) (hc : (ElemTy.msg fs os).Clean x) (hb : M.Inv b)
    (hv : M.view b = bs) (hf : bs.length < fuel) :
    ((ElemTy.msg fs os).cls.deserialize fuel b x).Post fun r => r.1 = .noErrors ∧ M.Inv r.2.1 ∧
      M.view r.2.1 = [] ∧ (ElemTy.msg fs os).Inv r.2.2 ∧ (ElemTy.msg fs os).Clean r.2.2 ∧
      (ElemTy.msg fs os).abs r.2.2 = v := by
  simp only [ElemTy.WF] at h
  have hd := List.nodup_append.mp h.2.2.1
  have hb' := Fields.dec_law fs 0 fs.nOptional h.1 hd.1 (by omega)
  rw [Nat.zero_add] at hb'
  exact msg_body hb' (Oneofs.dec_law os h.2.1 hd.2.1 (fun k hk =>
      (h.2.2.2 k (List.mem_append_right _ hk)).1)) (fun k hk hk' => hd.2.2 k hk' k hk rfl)
      M fuel b x hr hi hc hb hv hf

end EP
