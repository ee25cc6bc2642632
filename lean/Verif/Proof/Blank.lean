import Verif.Proof.HeldMerge

/-! # Leftovers that do not show (specification level) -/

namespace EP
open Spec

variable {U V : Type}

/-! ## New objects -/

mutual
theorem ElemTy.fresh_spec : (t : ElemTy) → t.seen t.fresh = t.dflt ∧ t.Blank t.fresh ∧ t.Sized t.fresh
  | .scalar _ => ⟨rfl, trivial, trivial⟩
  | .str _ => ⟨rfl, trivial, trivial⟩
  | .msg fs os => by
    obtain ⟨h1, h2, h3⟩ := Fields.fresh_spec fs
    obtain ⟨g1, g2, g3⟩ := Oneofs.fresh_spec os
    exact ⟨Prod.ext h1 g1, ⟨h2, g2⟩, ⟨h3, g3⟩⟩
theorem Fields.fresh_spec : (fs : Fields) → fs.seen fs.fresh = fs.dflt ∧ fs.Blank fs.fresh ∧ fs.Sized fs.fresh
  | .nil => ⟨rfl, trivial, trivial⟩
  | .plain _ t rest => by
    obtain ⟨h1, h2, h3⟩ := ElemTy.fresh_spec t
    obtain ⟨g1, g2, g3⟩ := Fields.fresh_spec rest
    exact ⟨Prod.ext h1 g1, ⟨h2, g2⟩, ⟨h3, g3⟩⟩
  | .optional _ t rest => by
    obtain ⟨g1, g2, g3⟩ := Fields.fresh_spec rest
    exact ⟨Prod.ext rfl g1, ⟨fun _ h => (nomatch h), g2⟩, ⟨fun _ h => (nomatch h), g3⟩⟩
  | .repeated _ cap t rest => by
    obtain ⟨h1, h2, h3⟩ := ElemTy.fresh_spec t
    obtain ⟨g1, g2, g3⟩ := Fields.fresh_spec rest
    refine ⟨Prod.ext rfl g1, ⟨fun _ x hx => ?_, g2⟩, ⟨⟨?_, fun _ h => (nomatch h), fun x hx => ?_⟩, g3⟩⟩
    · rw [List.eq_of_mem_replicate hx]; exact ⟨h1, h2⟩
    · show 0 + (List.replicate cap t.fresh).length = cap
      simp
    · rw [List.eq_of_mem_replicate hx]; exact h3
theorem Oneofs.fresh_spec : (os : Oneofs) → os.seen os.fresh = os.dflt ∧ os.Blank os.fresh ∧ os.Sized os.fresh
  | .nil => ⟨rfl, trivial, trivial⟩
  | .cons a rest => by
    obtain ⟨g1, g2, g3⟩ := Oneofs.fresh_spec rest
    exact ⟨Prod.ext rfl g1, ⟨fun _ h => (nomatch h), g2⟩, ⟨fun _ h => (nomatch h), g3⟩⟩
end

/-! ## Merging the default value does nothing -/

theorem ElemTy.isDflt_dflt (t : ElemTy) : t.isDflt t.dflt = true := (ElemTy.isDflt_iff t _).mpr rfl

theorem Fields.absorb_dflt : (fs : Fields) → (u : fs.Held) →
    fs.absorb u fs.dflt = u ∧ fs.Room u fs.dflt ∧ fs.merge (fs.seen u) fs.dflt = fs.seen u
  | .nil, _ => ⟨rfl, trivial, rfl⟩
  | .plain _ t rest, u => by
    obtain ⟨h1, h2, h3⟩ := Fields.absorb_dflt rest u.2
    refine ⟨Prod.ext ?_ h1, ⟨fun h => ?_, h2⟩, Prod.ext ?_ h3⟩
    · exact if_pos t.isDflt_dflt
    · have h : t.isDflt t.dflt = false := h
      rw [t.isDflt_dflt] at h; exact nomatch h
    · exact if_pos t.isDflt_dflt
  | .optional _ t rest, (u1, u2) => by
    obtain ⟨h1, h2, h3⟩ := Fields.absorb_dflt rest u2
    refine ⟨Prod.ext rfl h1, ⟨fun _ h => (nomatch h), h2⟩, Prod.ext ?_ h3⟩
    cases u1 <;> rfl
  | .repeated _ _ t rest, u => by
    obtain ⟨h1, h2, h3⟩ := Fields.absorb_dflt rest u.2
    refine ⟨Prod.ext (Prod.ext ?_ rfl) h1, ⟨⟨Nat.zero_le _, fun p hp => ?_⟩, h2⟩, Prod.ext ?_ h3⟩
    · show u.1.1 ++ List.zipWith t.absorb u.1.2 [] = u.1.1
      simp
    · have hp : p ∈ u.1.2.zip ([] : List t.Val) := hp
      simp at hp
    · exact List.append_nil _

theorem Oneofs.absorb_dflt : (os : Oneofs) → (u : os.Held) →
    os.absorb u os.dflt = u ∧ os.Room u os.dflt ∧ os.merge (os.seen u) os.dflt = os.seen u
  | .nil, _ => ⟨rfl, trivial, rfl⟩
  | .cons a rest, (u1, u2) => by
    obtain ⟨h1, h2, h3⟩ := Oneofs.absorb_dflt rest u2
    refine ⟨Prod.ext rfl h1, ⟨fun _ h => (nomatch h), h2⟩, Prod.ext ?_ h3⟩
    cases u1 <;> rfl

theorem ElemTy.absorb_dflt (fs : Fields) (os : Oneofs) (u : (ElemTy.msg fs os).Held) :
    (ElemTy.msg fs os).absorb u (ElemTy.msg fs os).dflt = u ∧
      (ElemTy.msg fs os).Room u (ElemTy.msg fs os).dflt := by
  obtain ⟨h1, h2, _⟩ := Fields.absorb_dflt fs u.1
  obtain ⟨g1, g2, _⟩ := Oneofs.absorb_dflt os u.2
  exact ⟨Prod.ext h1 g1, h2, g2⟩

/-! ## With blank leftovers, the visible effect is the merge -/

theorem map_zipWith_eq {H W : Type} (f : H → V → H) (g : H → W) (k : V → W) : (hs : List H) → (ys : List V) →
    ys.length ≤ hs.length → (∀ p ∈ hs.zip ys, g (f p.1 p.2) = k p.2) →
    (List.zipWith f hs ys).map g = ys.map k
  | _, [], _, _ => by simp
  | [], y :: ys, h, _ => by simp at h
  | h :: hs, y :: ys, hl, hp => by
    simp only [List.zip_cons_cons, List.mem_cons, forall_eq_or_imp] at hp
    simp only [List.zipWith_cons_cons, List.map_cons]
    rw [hp.1, map_zipWith_eq f g k hs ys (by simpa using hl) hp.2]

mutual
theorem ElemTy.seen_absorb : (t : ElemTy) → (u : t.Held) → (v : t.Val) → t.Blank u → t.Room u v →
    t.seen (t.absorb u v) = t.merge (t.seen u) v
  | .scalar _, _, _, _, _ => rfl
  | .str _, _, _, _, _ => rfl
  | .msg fs os, u, v, hb, hr =>
    Prod.ext (Fields.seen_absorb fs u.1 v.1 hb.1 hr.1) (Oneofs.seen_absorb os u.2 v.2 hb.2 hr.2)
theorem Fields.seen_absorb : (fs : Fields) → (u : fs.Held) → (v : fs.Val) → fs.Blank u → fs.Room u v →
    fs.seen (fs.absorb u v) = fs.merge (fs.seen u) v
  | .nil, _, _, _, _ => rfl
  | .plain _ t rest, u, v, hb, hr => by
    refine Prod.ext ?_ (Fields.seen_absorb rest u.2 v.2 hb.2 hr.2)
    show t.seen (if t.isDflt v.1 then u.1 else t.absorb u.1 v.1) =
      if t.isDflt v.1 then t.seen u.1 else t.merge (t.seen u.1) v.1
    cases hd : t.isDflt v.1 with
    | true => rfl
    | false => exact ElemTy.seen_absorb t u.1 v.1 hb.1 (hr.1 hd)
  | .optional _ t rest, (u1, u2), (v1, v2), hb, hr => by
    refine Prod.ext ?_ (Fields.seen_absorb rest u2 v2 hb.2 hr.2)
    cases v1 with
    | none => cases u1 <;> rfl
    | some y =>
      have hr1 := hr.1 y rfl
      cases u1 with
      | some x => exact congrArg some (ElemTy.seen_absorb t x y (hb.1 x rfl) hr1)
      | none =>
        obtain ⟨f1, f2, _⟩ := ElemTy.fresh_spec t
        have := ElemTy.seen_absorb t t.fresh y f2 hr1
        rw [f1, ElemTy.merge_dflt] at this
        exact congrArg some this
  | .repeated _ _ t rest, (u1, u2), (v1, v2), hb, hr => by
    refine Prod.ext ?_ (Fields.seen_absorb rest u2 v2 hb.2 hr.2)
    obtain ⟨xs, hs⟩ := u1
    have hb1 : t.isMsg = true → ∀ x ∈ hs, t.seen x = t.dflt ∧ t.Blank x := hb.1
    have hr1 : RoomList t.Room hs v1 := hr.1
    show List.map t.seen (xs ++ List.zipWith t.absorb hs v1) = List.map t.seen xs ++ v1
    rw [List.map_append]
    congr 1
    rw [map_zipWith_eq t.absorb t.seen id hs v1 hr1.1 ?_, List.map_id]
    rintro ⟨g, y⟩ hp
    have hR := hr1.2 _ hp
    have hg := (List.of_mem_zip hp).1
    cases t with
    | scalar s => rfl
    | str c => rfl
    | msg fs os =>
      obtain ⟨e1, e2⟩ := hb1 rfl g hg
      have := ElemTy.seen_absorb (.msg fs os) g y e2 hR
      rwa [e1, ElemTy.merge_dflt] at this
theorem Alts.seen_absorb : (a : Alts) → (u : Option a.Held) → (v : a.Val) →
    (∀ x, u = some x → a.Blank x) → a.Room u v →
    some (a.seen (a.absorb u v)) = match u.map a.seen with
      | none => some v
      | some u => some (a.merge u v)
  | .nil, _, v, _, _ => nomatch v
  | .cons _ t rest, u, .inl y, hb, hr => by
    have key : ∀ g, t.Blank g → t.Room g y → t.seen (t.absorb g y) = t.merge (t.seen g) y :=
      fun g h1 h2 => ElemTy.seen_absorb t g y h1 h2
    obtain ⟨f1, f2, _⟩ := ElemTy.fresh_spec t
    cases u with
    | none =>
      have := key t.fresh f2 hr
      rw [f1, ElemTy.merge_dflt] at this
      exact congrArg (fun z => some (Sum.inl z)) this
    | some u =>
      cases u with
      | inl x => exact congrArg (fun z => some (Sum.inl z)) (key x (hb _ rfl) hr)
      | inr x =>
        have := key t.fresh f2 hr
        rw [f1, ElemTy.merge_dflt] at this
        exact congrArg (fun z => some (Sum.inl z)) this
  | .cons _ t rest, u, .inr y, hb, hr => by
    have ih := Alts.seen_absorb rest (rightOf u) y (by
      intro x hx
      cases u with
      | none => exact nomatch hx
      | some u =>
        cases u with
        | inl z => exact nomatch hx
        | inr z =>
          injection hx with hx
          subst hx
          exact hb _ rfl) hr
    cases u with
    | none => exact congrArg (fun z => some (Sum.inr z)) (Option.some.inj ih)
    | some u =>
      cases u with
      | inl x => exact congrArg (fun z => some (Sum.inr z)) (Option.some.inj ih)
      | inr x => exact congrArg (fun z => some (Sum.inr z)) (Option.some.inj ih)
theorem Oneofs.seen_absorb : (os : Oneofs) → (u : os.Held) → (v : os.Val) → os.Blank u → os.Room u v →
    os.seen (os.absorb u v) = os.merge (os.seen u) v
  | .nil, _, _, _, _ => rfl
  | .cons a rest, (u1, u2), (v1, v2), hb, hr => by
    refine Prod.ext ?_ (Oneofs.seen_absorb rest u2 v2 hb.2 hr.2)
    cases v1 with
    | none => cases u1 <;> rfl
    | some y =>
      have := Alts.seen_absorb a u1 y hb.1 (hr.1 y rfl)
      cases u1 <;> exact this
end

/-! ## Only with blank leftovers -/

theorem zip_replicate {H : Type} (hs : List H) (d y : V) (i : Nat) (hi : i < hs.length) :
    (List.zipWith (fun h y => (h, y)) hs (List.replicate i d ++ [y])) =
      (hs.take i).map (fun h => (h, d)) ++ [(hs[i], y)] := by
  induction i generalizing hs with
  | zero =>
    cases hs with
    | nil => simp at hi
    | cons h hs => simp
  | succ i ih =>
    cases hs with
    | nil => simp at hi
    | cons h hs =>
      simp only [List.length_cons, Nat.add_lt_add_iff_right] at hi
      simp [List.replicate_succ, ih hs hi]

mutual
theorem ElemTy.blank_of : (t : ElemTy) → (u : t.Held) →
    (∀ v, t.Room u v → t.seen (t.absorb u v) = t.merge (t.seen u) v) → t.Blank u
  | .scalar _, _, _ => trivial
  | .str _, _, _ => trivial
  | .msg fs os, u, h => by
    constructor
    · refine Fields.blank_of fs u.1 fun v hv => ?_
      have := h (v, os.dflt) ⟨hv, (Oneofs.absorb_dflt os u.2).2.1⟩
      exact congrArg Prod.fst this
    · refine Oneofs.blank_of os u.2 fun v hv => ?_
      have := h (fs.dflt, v) ⟨(Fields.absorb_dflt fs u.1).2.1, hv⟩
      exact congrArg Prod.snd this
theorem Fields.blank_of : (fs : Fields) → (u : fs.Held) →
    (∀ v, fs.Room u v → fs.seen (fs.absorb u v) = fs.merge (fs.seen u) v) → fs.Blank u
  | .nil, _, _ => trivial
  | .plain _ t rest, u, h => by
    constructor
    · cases t with
      | scalar s => trivial
      | str c => trivial
      | msg fs os =>
        refine ElemTy.blank_of (.msg fs os) u.1 fun v hv => ?_
        cases hd : (ElemTy.msg fs os).isDflt v with
        | true =>
          rw [(ElemTy.isDflt_iff _ _).mp hd, (ElemTy.absorb_dflt fs os u.1).1]
          exact (Prod.ext (Fields.absorb_dflt fs u.1.1).2.2 (Oneofs.absorb_dflt os u.1.2).2.2 :
            (ElemTy.msg fs os).merge ((ElemTy.msg fs os).seen u.1) (ElemTy.msg fs os).dflt =
              (ElemTy.msg fs os).seen u.1).symm
        | false =>
          have := congrArg Prod.fst (h (v, rest.dflt) ⟨fun _ => hv, (Fields.absorb_dflt rest u.2).2.1⟩)
          have : (ElemTy.msg fs os).seen (if (ElemTy.msg fs os).isDflt v then u.1
              else (ElemTy.msg fs os).absorb u.1 v) = if (ElemTy.msg fs os).isDflt v then _
              else (ElemTy.msg fs os).merge ((ElemTy.msg fs os).seen u.1) v := this
          rwa [hd] at this
    · refine Fields.blank_of rest u.2 fun v hv => ?_
      have := h (t.dflt, v) ⟨fun hd => absurd t.isDflt_dflt (Bool.eq_false_iff.mp hd), hv⟩
      exact congrArg Prod.snd this
  | .optional _ t rest, u, h => by
    constructor
    · intro x hx
      refine ElemTy.blank_of t x fun v hv => ?_
      obtain ⟨u1, u2⟩ := u
      have hx : u1 = some x := hx
      subst hx
      have := h (some v, rest.dflt) ⟨fun y hy => by injection hy with hy; subst hy; exact hv,
        (Fields.absorb_dflt rest u2).2.1⟩
      exact Option.some.inj (congrArg Prod.fst this)
    · refine Fields.blank_of rest u.2 fun v hv => ?_
      have := h (none, v) ⟨fun _ h => (nomatch h), hv⟩
      exact congrArg Prod.snd this
  | .repeated _ _ t rest, u, h => by
    constructor
    · intro hm g hg
      obtain ⟨⟨xs, hs⟩, u2⟩ := u
      have hg : g ∈ hs := hg
      obtain ⟨fs, os, rfl⟩ : ∃ fs os, t = .msg fs os := by
        cases t with
        | scalar s => exact nomatch hm
        | str c => exact nomatch hm
        | msg fs os => exact ⟨fs, os, rfl⟩
      have key : ∀ y, (ElemTy.msg fs os).Room g y →
          (ElemTy.msg fs os).seen ((ElemTy.msg fs os).absorb g y) = y := by
        intro y hy
        obtain ⟨i, hi, rfl⟩ := List.getElem_of_mem hg
        have hz := zip_replicate hs (ElemTy.msg fs os).dflt y i hi
        have hroom : RoomList (ElemTy.msg fs os).Room hs
            (List.replicate i (ElemTy.msg fs os).dflt ++ [y]) := by
          refine ⟨by simp; omega, fun p hp => ?_⟩
          have hp : p ∈ List.zipWith (fun h y => (h, y)) hs
            (List.replicate i (ElemTy.msg fs os).dflt ++ [y]) := hp
          rw [hz] at hp
          rcases List.mem_append.mp hp with hp | hp
          · obtain ⟨a, _, rfl⟩ := List.mem_map.mp hp
            exact (ElemTy.absorb_dflt fs os a).2
          · rw [List.mem_singleton.mp hp]; exact hy
        have := congrArg Prod.fst (h (List.replicate i (ElemTy.msg fs os).dflt ++ [y], rest.dflt)
          ⟨hroom, (Fields.absorb_dflt rest u2).2.1⟩)
        have : List.map (ElemTy.msg fs os).seen (xs ++ List.zipWith (ElemTy.msg fs os).absorb hs
            (List.replicate i (ElemTy.msg fs os).dflt ++ [y])) = List.map _ xs ++ _ := this
        rw [List.map_append, List.append_cancel_left_eq] at this
        have hzw : List.zipWith (ElemTy.msg fs os).absorb hs
            (List.replicate i (ElemTy.msg fs os).dflt ++ [y]) =
            (List.zipWith (fun h y => (h, y)) hs (List.replicate i (ElemTy.msg fs os).dflt ++ [y])).map
              (fun p => (ElemTy.msg fs os).absorb p.1 p.2) := by
          rw [List.map_zipWith]
        rw [hzw, hz, List.map_append, List.map_append] at this
        have := List.append_inj_right' this (by simp)
        simpa using this
      have hd := key _ (ElemTy.absorb_dflt fs os g).2
      rw [(ElemTy.absorb_dflt fs os g).1] at hd
      refine ⟨hd, ElemTy.blank_of (.msg fs os) g fun v hv => ?_⟩
      rw [key v hv, hd, ElemTy.merge_dflt]
    · refine Fields.blank_of rest u.2 fun v hv => ?_
      have := h ([], v) ⟨⟨Nat.zero_le _, fun p hp => by
        have hp : p ∈ u.1.2.zip ([] : List t.Val) := hp
        simp at hp⟩, hv⟩
      exact congrArg Prod.snd this
theorem Alts.blank_of : (a : Alts) → (u : a.Held) →
    (∀ v, a.Room (some u) v → a.seen (a.absorb (some u) v) = a.merge (a.seen u) v) → a.Blank u
  | .nil, u, _ => nomatch u
  | .cons _ t rest, .inl x, h => ElemTy.blank_of t x fun v hv => Sum.inl.inj (h (.inl v) hv)
  | .cons _ t rest, .inr x, h => Alts.blank_of rest x fun v hv => Sum.inr.inj (h (.inr v) hv)
theorem Oneofs.blank_of : (os : Oneofs) → (u : os.Held) →
    (∀ v, os.Room u v → os.seen (os.absorb u v) = os.merge (os.seen u) v) → os.Blank u
  | .nil, _, _ => trivial
  | .cons a rest, u, h => by
    constructor
    · intro x hx
      refine Alts.blank_of a x fun v hv => ?_
      obtain ⟨u1, u2⟩ := u
      have hx : u1 = some x := hx
      subst hx
      have := h (some v, rest.dflt) ⟨fun y hy => by injection hy with hy; subst hy; exact hv,
        (Oneofs.absorb_dflt rest u2).2.1⟩
      exact Option.some.inj (congrArg Prod.fst this)
    · refine Oneofs.blank_of rest u.2 fun v hv => ?_
      have := h (none, v) ⟨fun _ h => (nomatch h), hv⟩
      exact congrArg Prod.snd this
end

/-! ## Record streams -/

theorem Stream.lift {Step : List Byte → V → V → Prop} {Step' : List Byte → U → U → Prop} {f : U → V}
    {I : U → Prop} (h : ∀ bs u v, Step bs (f u) v → I u → ∃ v', Step' bs u v' ∧ f v' = v ∧ I v')
    {bs : List Byte} {a v : V} (hs : Stream Step bs a v) :
    ∀ u, f u = a → I u → ∃ v', Stream Step' bs u v' ∧ f v' = v ∧ I v' := by
  induction hs with
  | nil a => intro u hu hi; exact ⟨u, .nil u, hu, hi⟩
  | cons h1 _ ih =>
    intro u hu hi
    subst hu
    obtain ⟨w, g1, g2, g3⟩ := h _ _ _ h1 hi
    obtain ⟨v', k1, k2⟩ := ih w g2 g3
    exact ⟨v', .cons g1 k1, k2⟩

theorem recordStep_lift {A B A' B' : Type} {known : List Nat} {f : A' → A} {g : B' → B} {I : A' → Prop}
    {J : B' → Prop} {F : Nat → WireType → List Byte → A → A → Prop}
    {F' : Nat → WireType → List Byte → A' → A' → Prop} {O : Nat → WireType → List Byte → B → B → Prop}
    {O' : Nat → WireType → List Byte → B' → B' → Prop}
    (hF : ∀ num wt bs u v, F num wt bs (f u) v → I u → ∃ v', F' num wt bs u v' ∧ f v' = v ∧ I v')
    (hO : ∀ num wt bs u v, O num wt bs (g u) v → J u → ∃ v', O' num wt bs u v' ∧ g v' = v ∧ J v')
    (bs : List Byte) (u : A' × B') (v : A × B)
    (h : RecordStep known F O bs (f u.1, g u.2) v) (hi : I u.1 ∧ J u.2) :
    ∃ v', RecordStep known F' O' bs u v' ∧ (f v'.1, g v'.2) = v ∧ I v'.1 ∧ J v'.2 := by
  obtain ⟨num, wt, t, p, h1, h2, h3⟩ := h
  rcases h3 with ⟨h3, h4⟩ | ⟨h3, h4⟩ | ⟨h3, h4, h5, h6⟩
  · obtain ⟨w, k1, k2, k3⟩ := hF _ _ _ _ _ h3 hi.1
    exact ⟨(w, u.2), ⟨num, wt, t, p, h1, h2, Or.inl ⟨k1, rfl⟩⟩, Prod.ext k2 h4.symm, k3, hi.2⟩
  · obtain ⟨w, k1, k2, k3⟩ := hO _ _ _ _ _ h3 hi.2
    exact ⟨(u.1, w), ⟨num, wt, t, p, h1, h2, Or.inr (Or.inl ⟨k1, rfl⟩)⟩, Prod.ext h4.symm k2, hi.1, k3⟩
  · exact ⟨u, ⟨num, wt, t, p, h1, h2, Or.inr (Or.inr ⟨h3, h4, h5, rfl⟩)⟩, h6.symm, hi⟩

mutual
theorem ElemTy.lift : (t : ElemTy) → (bs : List Byte) → (u : t.Held) → (v : t.Val) →
    t.Payload bs (t.seen u) v → t.Blank u ∧ t.Sized u →
    ∃ v', t.HPayload bs u v' ∧ t.seen v' = v ∧ t.Blank v' ∧ t.Sized v'
  | .scalar _, _, _, v, h, _ => ⟨v, h, rfl, trivial, trivial⟩
  | .str _, _, _, v, h, _ => ⟨v, h, rfl, trivial, trivial⟩
  | .msg fs os, bs, u, v, h, hi => by
    obtain ⟨body, hd, hs⟩ := h
    obtain ⟨v', h1, h2, h3⟩ := Stream.lift
      (I := fun u : fs.Held × os.Held => (fs.Blank u.1 ∧ fs.Sized u.1) ∧ os.Blank u.2 ∧ os.Sized u.2)
      (recordStep_lift (fun num wt bs u v => Fields.lift fs num wt bs u v)
        (fun num wt bs u v => Oneofs.lift os num wt bs u v)) hs u rfl
      ⟨⟨hi.1.1, hi.2.1⟩, hi.1.2, hi.2.2⟩
    exact ⟨v', ⟨body, hd, h1⟩, h2, ⟨h3.1.1, h3.2.1⟩, h3.1.2, h3.2.2⟩
theorem Fields.lift : (fs : Fields) → (num : Nat) → (wt : WireType) → (bs : List Byte) →
    (u : fs.Held) → (v : fs.Val) → fs.Record num wt bs (fs.seen u) v → fs.Blank u ∧ fs.Sized u →
    ∃ v', fs.HRecord num wt bs u v' ∧ fs.seen v' = v ∧ fs.Blank v' ∧ fs.Sized v'
  | .nil, _, _, _, _, _, h, _ => h.elim
  | .plain n t rest, num, wt, bs, (u1, u2), (v1, v2), h, hi => by
    rcases h with ⟨h1, h2, h3, h4⟩ | ⟨h3, h4⟩
    · obtain ⟨w, k1, k2, k3, k4⟩ := ElemTy.lift t bs u1 v1 h3 ⟨hi.1.1, hi.2.1⟩
      exact ⟨(w, u2), Or.inl ⟨h1, h2, k1, rfl⟩, Prod.ext k2 h4.symm, ⟨k3, hi.1.2⟩, ⟨k4, hi.2.2⟩⟩
    · obtain ⟨w, k1, k2, k3, k4⟩ := Fields.lift rest num wt bs u2 v2 h3 ⟨hi.1.2, hi.2.2⟩
      exact ⟨(u1, w), Or.inr ⟨k1, rfl⟩, Prod.ext h4.symm k2, ⟨hi.1.1, k3⟩, ⟨hi.2.1, k4⟩⟩
  | .optional n t rest, num, wt, bs, (u1, u2), (v1, v2), h, hi => by
    rcases h with ⟨h1, h2, ⟨y, h3, h5⟩, h4⟩ | ⟨h3, h4⟩
    · have hg : t.seen (u1.getD t.fresh) = (u1.map t.seen).getD t.dflt ∧ t.Blank (u1.getD t.fresh) ∧
          t.Sized (u1.getD t.fresh) := by
        cases u1 with
        | none => exact ElemTy.fresh_spec t
        | some x => exact ⟨rfl, hi.1.1 x rfl, hi.2.1 x rfl⟩
      obtain ⟨w, k1, k2, k3, k4⟩ := ElemTy.lift t bs (u1.getD t.fresh) y (by rw [hg.1]; exact h3) hg.2
      have h5 : v1 = some y := h5
      subst h5
      refine ⟨(some w, u2), Or.inl ⟨h1, h2, ⟨w, k1, rfl⟩, rfl⟩, Prod.ext (congrArg some k2) h4.symm,
        ⟨?_, hi.1.2⟩, ⟨?_, hi.2.2⟩⟩
      · intro x hx; injection hx with hx; subst hx; exact k3
      · intro x hx; injection hx with hx; subst hx; exact k4
    · obtain ⟨w, k1, k2, k3, k4⟩ := Fields.lift rest num wt bs u2 v2 h3 ⟨hi.1.2, hi.2.2⟩
      exact ⟨(u1, w), Or.inr ⟨k1, rfl⟩, Prod.ext h4.symm k2, ⟨hi.1.1, k3⟩, ⟨hi.2.1, k4⟩⟩
  | .repeated n cap t rest, num, wt, bs, (u1, u2), (v1, v2), h, hi => by
    rcases h with ⟨h1, h2, hlen, h4, h3⟩ | ⟨h3, h4⟩
    · obtain ⟨xs, hs⟩ := u1
      obtain ⟨⟨hb, hb2⟩, ⟨hsz, hs1, hs2⟩, hsz2⟩ := id hi
      dsimp only at hb hsz hs1 hs2 hb2 hsz2 hlen
      have hlen : v1.length ≤ cap := hlen
      cases hsc : t.isScalar with
      | true =>
        rw [if_pos hsc] at h3
        obtain ⟨body, ys, g1, g2, g3⟩ := h3
        have g3 : v1 = List.map t.seen xs ++ ys := g3
        subst g3
        cases t with
        | str c => exact nomatch hsc
        | msg fs os => exact nomatch hsc
        | scalar s =>
          have hl : ys.length ≤ hs.length := by
            simp only [List.length_append, List.length_map] at hlen; omega
          obtain ⟨zs, hzs⟩ : ∃ zs : List (ElemTy.scalar s).Held, zs = ys := ⟨ys, rfl⟩
          have hzl : zs.length = ys.length := by rw [hzs]; rfl
          refine ⟨((xs ++ zs, hs.drop zs.length), u2), Or.inl ⟨h1, h2, ?_, rfl⟩, Prod.ext ?_ h4.symm,
            ⟨fun hm => (nomatch hm), hb2⟩, ⟨⟨?_, fun _ _ => trivial, fun _ _ => trivial⟩, hsz2⟩⟩
          · rw [if_pos hsc]
            exact ⟨body, zs, g1, hzs ▸ g2, hzl ▸ hl, rfl⟩
          · show List.map (ElemTy.scalar s).seen (xs ++ zs) = List.map (ElemTy.scalar s).seen xs ++ ys
            rw [List.map_append, hzs]
            congr 1
            exact List.map_id _
          · show (xs ++ zs).length + (hs.drop zs.length).length = cap
            simp only [List.length_append, List.length_drop]; omega
      | false =>
        rw [if_neg (by simp [hsc])] at h3
        obtain ⟨y, g1, g3⟩ := h3
        have g3 : v1 = List.map t.seen xs ++ [y] := g3
        subst g3
        cases hs with
        | nil =>
          simp only [List.length_append, List.length_map, List.length_cons, List.length_nil] at hlen hsz
          omega
        | cons g gs =>
        obtain ⟨w, k1, k2, k3, k4⟩ : ∃ w, t.HPayload bs g w ∧ t.seen w = y ∧ t.Blank w ∧ t.Sized w := by
          cases t with
          | scalar s => exact nomatch hsc
          | str c => exact ⟨y, g1, rfl, trivial, trivial⟩
          | msg fs os =>
            obtain ⟨e1, e2⟩ := hb rfl g List.mem_cons_self
            exact ElemTy.lift (.msg fs os) bs g y (by rw [e1]; exact g1) ⟨e2, hs2 g List.mem_cons_self⟩
        refine ⟨((xs ++ [w], gs), u2), Or.inl ⟨h1, h2, ?_, rfl⟩, Prod.ext ?_ h4.symm,
          ⟨fun hm x hx => hb hm x (List.mem_cons_of_mem _ hx), hb2⟩, ⟨⟨?_, ?_, ?_⟩, hsz2⟩⟩
        · rw [if_neg (by simp [hsc])]
          exact ⟨g, gs, w, rfl, k1, rfl⟩
        · show List.map t.seen (xs ++ [w]) = List.map t.seen xs ++ [y]
          rw [List.map_append, ← k2]; rfl
        · show (xs ++ [w]).length + gs.length = cap
          simp only [List.length_append, List.length_cons, List.length_nil] at hsz ⊢; omega
        · intro x hx
          rcases List.mem_append.mp hx with hx | hx
          · exact hs1 x hx
          · rw [List.mem_singleton.mp hx]; exact k4
        · exact fun x hx => hs2 x (List.mem_cons_of_mem _ hx)
    · obtain ⟨w, k1, k2, k3, k4⟩ := Fields.lift rest num wt bs u2 v2 h3 ⟨hi.1.2, hi.2.2⟩
      exact ⟨(u1, w), Or.inr ⟨k1, rfl⟩, Prod.ext h4.symm k2, ⟨hi.1.1, k3⟩, ⟨hi.2.1, k4⟩⟩
theorem Alts.lift : (a : Alts) → (num : Nat) → (wt : WireType) → (bs : List Byte) →
    (u : Option a.Held) → (v : a.Val) → a.Record num wt bs (u.map a.seen) v →
    (∀ x, u = some x → a.Blank x ∧ a.Sized x) →
    ∃ v', a.HRecord num wt bs u v' ∧ a.seen v' = v ∧ a.Blank v' ∧ a.Sized v'
  | .nil, _, _, _, _, v, _, _ => nomatch v
  | .cons n t rest, num, wt, bs, u, v, h, hi => by
    rcases h with ⟨h1, h2, y, h3, rfl⟩ | ⟨y, h3, rfl⟩
    · have hg : t.seen (leftD t.fresh u) = leftD t.dflt (u.map (Alts.cons n t rest).seen) ∧
          t.Blank (leftD t.fresh u) ∧ t.Sized (leftD t.fresh u) := by
        cases u with
        | none => exact ElemTy.fresh_spec t
        | some u =>
          cases u with
          | inl x => exact ⟨rfl, hi _ rfl⟩
          | inr x => exact ElemTy.fresh_spec t
      obtain ⟨w, k1, k2, k3, k4⟩ := ElemTy.lift t bs (leftD t.fresh u) y (by rw [hg.1]; exact h3) hg.2
      exact ⟨.inl w, Or.inl ⟨h1, h2, w, k1, rfl⟩, congrArg Sum.inl k2, k3, k4⟩
    · have hg : (rightOf u).map rest.seen = rightOf (u.map (Alts.cons n t rest).seen) ∧
          ∀ x, rightOf u = some x → rest.Blank x ∧ rest.Sized x := by
        cases u with
        | none => exact ⟨rfl, fun _ h => (nomatch h)⟩
        | some u =>
          cases u with
          | inl x => exact ⟨rfl, fun _ h => (nomatch h)⟩
          | inr x =>
            refine ⟨rfl, fun z hz => ?_⟩
            injection hz with hz
            subst hz
            exact hi _ rfl
      obtain ⟨w, k1, k2, k3, k4⟩ := Alts.lift rest num wt bs (rightOf u) y (by rw [hg.1]; exact h3) hg.2
      exact ⟨.inr w, Or.inr ⟨w, k1, rfl⟩, congrArg Sum.inr k2, k3, k4⟩
theorem Oneofs.lift : (os : Oneofs) → (num : Nat) → (wt : WireType) → (bs : List Byte) →
    (u : os.Held) → (v : os.Val) → os.Record num wt bs (os.seen u) v → os.Blank u ∧ os.Sized u →
    ∃ v', os.HRecord num wt bs u v' ∧ os.seen v' = v ∧ os.Blank v' ∧ os.Sized v'
  | .nil, _, _, _, _, _, h, _ => h.elim
  | .cons a rest, num, wt, bs, (u1, u2), (v1, v2), h, hi => by
    rcases h with ⟨⟨y, h3, h5⟩, h4⟩ | ⟨h3, h4⟩
    · obtain ⟨w, k1, k2, k3, k4⟩ := Alts.lift a num wt bs u1 y h3 (fun x hx => ⟨hi.1.1 x hx, hi.2.1 x hx⟩)
      have h5 : v1 = some y := h5
      subst h5
      refine ⟨(some w, u2), Or.inl ⟨⟨w, k1, rfl⟩, rfl⟩, Prod.ext (congrArg some k2) h4.symm,
        ⟨?_, hi.1.2⟩, ⟨?_, hi.2.2⟩⟩
      · intro x hx; injection hx with hx; subst hx; exact k3
      · intro x hx; injection hx with hx; subst hx; exact k4
    · obtain ⟨w, k1, k2, k3, k4⟩ := Oneofs.lift rest num wt bs u2 v2 h3 ⟨hi.1.2, hi.2.2⟩
      exact ⟨(u1, w), Or.inr ⟨k1, rfl⟩, Prod.ext h4.symm k2, ⟨hi.1.1, k3⟩, ⟨hi.2.1, k4⟩⟩
end

/-- With blank leftovers, records have their usual effect, and the leftovers stay blank. -/
theorem Records.held {fs : Fields} {os : Oneofs} {bs : List Byte} {v : fs.Val × os.Val}
    (u : (ElemTy.msg fs os).Held) (h : Records fs os bs ((ElemTy.msg fs os).seen u) v)
    (hb : (ElemTy.msg fs os).Blank u) (hs : (ElemTy.msg fs os).Sized u) :
    ∃ v' : (ElemTy.msg fs os).Held, HRecords fs os bs u v' ∧ (ElemTy.msg fs os).seen v' = v ∧
      (ElemTy.msg fs os).Blank v' := by
  obtain ⟨v', h1, h2, h3⟩ := Stream.lift
    (I := fun u : fs.Held × os.Held => (fs.Blank u.1 ∧ fs.Sized u.1) ∧ os.Blank u.2 ∧ os.Sized u.2)
    (recordStep_lift (fun num wt bs u v => Fields.lift fs num wt bs u v)
      (fun num wt bs u v => Oneofs.lift os num wt bs u v)) h u rfl
    ⟨⟨hb.1, hs.1⟩, hb.2, hs.2⟩
  exact ⟨v', h1, h2, h3.1.1, h3.2.1⟩

end EP
