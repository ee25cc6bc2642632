import Verif.Proof.EncMessage

/-! # Construction, clearing and copying -/

namespace EP

variable {V W : Type}

/-- New and cleared objects. -/
structure InitLaw (C : FieldClass) (S : ClassSpec C V) (d : V) : Prop where
  init_inv : S.Inv C.init
  init_clean : S.Clean C.init
  init_abs : S.abs C.init = d
  clear : ∀ x, S.Inv x → C.clear x = .ok C.init

structure BaseLaw (C : FieldClass) (S : ClassSpec C V) (d : V) : Prop extends InitLaw C S d where
  assign : ∀ x y, S.Inv x → S.Inv y → (C.assign x y).Post fun z =>
    S.Inv z ∧ S.abs z = S.abs y ∧ (x = C.init → S.Clean z)
  set : ∀ x y, S.Inv x → S.Inv y → (C.set x y).Post fun z =>
    S.Inv z ∧ S.abs z = S.abs y ∧ (x = C.init → S.Clean z)

theorem scalar_base (s : ScalarTy) : BaseLaw (scalarClass s) (scalarSpec s) s.zero where
  init_inv := trivial
  init_clean := trivial
  init_abs := rfl
  clear _ _ := rfl
  assign _ _ _ _ := ⟨trivial, rfl, fun _ => trivial⟩
  set _ _ _ _ := ⟨trivial, rfl, fun _ => trivial⟩

theorem StrObj.setData_eq (cap : Nat) (x : StrObj) (bs : List Byte) (hx : x.WF cap)
    (hb : bs.length ≤ cap) :
    x.setData cap bs = .ok (.noErrors, ⟨bs.length, bs ++ x.data.drop bs.length⟩) := by
  obtain ⟨h1, h2⟩ := hx
  unfold StrObj.setData
  rw [if_pos hb, arrayCopy, if_pos (by omega)]
  simp

theorem str_base (cap : Nat) : BaseLaw (strClass cap) (strSpec cap) [] where
  init_inv := by simp [strSpec, strClass, StrObj.WF, StrObj.init]
  init_clean := trivial
  init_abs := by simp [strSpec, strClass, StrObj.chars, StrObj.init]
  clear _ _ := rfl
  assign _ _ _ hy := ⟨hy, rfl, fun _ => trivial⟩
  set x y hx hy := by
    obtain ⟨h1, h2⟩ := id hy
    have hl := StrObj.WF.chars_length hy
    have : StrObj.setFrom cap x y = .ok (.noErrors, ⟨y.len, y.chars ++ x.data.drop y.len⟩) := by
      unfold StrObj.setFrom
      rw [if_pos (by omega)]
      have := StrObj.setData_eq cap x y.chars hx (by omega)
      rw [hl] at this
      exact this
    show (do let (_, x) ← StrObj.setFrom cap x y; pure x : Res StrObj).Post _
    rw [this]
    have hx1 := hx.1
    refine ⟨⟨?_, h2⟩, ?_, fun _ => trivial⟩
    · simp [hl, hx1]; omega
    · show List.take _ _ = _
      rw [List.take_left' hl]
      rfl

/-! ## Repeated fields -/

section Repeated
variable {E : FieldClass} {S : ClassSpec E V} {d : V} {cap : Nat}

theorem copyElems_post (h : BaseLaw E S d) (data : List E.State) (i : Nat) (rs : List E.State)
    (hl : i + rs.length ≤ data.length) (hd : ∀ x ∈ data, S.Inv x) (hr : ∀ x ∈ rs, S.Inv x) :
    (RepObj.copyElems data i rs).Post fun data' =>
      ∃ zs, data' = data.take i ++ zs ++ data.drop (i + rs.length) ∧ zs.length = rs.length ∧
        (∀ z ∈ zs, S.Inv z) ∧ zs.map S.abs = rs.map S.abs ∧
        ((∀ x ∈ data.drop i, x = E.init) → ∀ z ∈ zs, S.Clean z) := by
  induction rs generalizing data i with
  | nil => exact ⟨[], by simp, rfl, by simp, rfl, by simp⟩
  | cons r rs ih =>
    simp only [List.length_cons] at hl
    have hi : i < data.length := by omega
    unfold RepObj.copyElems
    rw [arrayGet_of_lt hi, Res.ok_bind, Res.Post_bind]
    refine (h.assign _ r (hd _ (List.getElem_mem hi)) (hr r List.mem_cons_self)).mono ?_
    rintro z ⟨hz1, hz2, hz3⟩
    rw [arraySet_of_lt hi, Res.ok_bind]
    refine (ih (data.set i z) (i + 1) (by simp; omega) ?_ (fun x hx => hr x (List.mem_cons_of_mem _ hx))).mono ?_
    · intro x hx
      rcases List.mem_or_eq_of_mem_set hx with hx | rfl
      · exact hd x hx
      · exact hz1
    · rintro data' ⟨zs, he, hzl, hzi, hza, hzc⟩
      refine ⟨z :: zs, ?_, by simp [hzl], ?_, by simp [hz2, hza], ?_⟩
      · have ht : (data.set i z).take (i + 1) = data.take i ++ [z] := by
          rw [List.take_add_one, List.take_set_of_le (by omega)]
          simp [hi]
        rw [he, List.drop_set_of_lt (by omega), ht]
        simp [Nat.add_assoc, Nat.add_comm 1]
      · simp only [List.mem_cons, forall_eq_or_imp]; exact ⟨hz1, hzi⟩
      · intro hinit
        simp only [List.mem_cons, forall_eq_or_imp]
        constructor
        · apply hz3
          apply hinit
          rw [List.drop_eq_getElem_cons hi]; exact List.mem_cons_self
        · apply hzc
          intro x hx
          rw [List.drop_set_of_lt (by omega)] at hx
          apply hinit
          rw [List.drop_eq_getElem_cons hi]; exact List.mem_cons_of_mem _ hx

theorem clearElems_eq (h : InitLaw E S d) (data : List E.State) (hd : ∀ x ∈ data, S.Inv x) :
    RepObj.clearElems data = .ok (List.replicate data.length E.init) := by
  induction data with
  | nil => rfl
  | cons x xs ih =>
    simp only [List.mem_cons, forall_eq_or_imp] at hd
    simp [RepObj.clearElems, h.clear x hd.1, ih hd.2, List.replicate_succ]

/-- Result of overwriting the first elements. -/
theorem rep_overwrite (h : BaseLaw E S d) (x : RepObj E.State) (rs : List E.State)
    (hx : (repSpec S cap).Inv x) (hr : ∀ r ∈ rs, S.Inv r) (hl : rs.length ≤ cap) :
    (RepObj.copyElems x.data 0 rs).Post fun data' =>
      (repSpec S cap).Inv ⟨rs.length, data'⟩ ∧ (repSpec S cap).abs ⟨rs.length, data'⟩ = rs.map S.abs ∧
      data'.drop rs.length = x.data.drop rs.length ∧
      ((∀ d ∈ x.data, d = E.init) → (repSpec S cap).Clean ⟨rs.length, data'⟩) := by
  obtain ⟨h1, h2, h3⟩ := hx
  refine (copyElems_post h x.data 0 rs (by omega) h3 hr).mono ?_
  rintro data' ⟨zs, he, hzl, hzi, hza, hzc⟩
  rw [Nat.zero_add, List.take_zero, List.nil_append] at he
  subst he
  refine ⟨⟨?_, hl, ?_⟩, ?_, ?_, ?_⟩
  · simp; omega
  · intro y hy
    rcases List.mem_append.mp hy with hy | hy
    · exact hzi y hy
    · exact h3 y (List.mem_of_mem_drop hy)
  · show (List.take _ _).map _ = _
    rw [List.take_left' hzl, hza]
  · rw [List.drop_left' hzl]
  · intro hall
    constructor
    · intro y hy
      have : (RepObj.elems ⟨rs.length, zs ++ x.data.drop rs.length⟩ : List E.State) = zs := List.take_left' hzl
      rw [this] at hy
      exact hzc (fun x hx => hall x (List.mem_of_mem_drop hx)) y hy
    · intro _ y hy
      have : (RepObj.stale ⟨rs.length, zs ++ x.data.drop rs.length⟩ : List E.State) = x.data.drop rs.length := List.drop_left' hzl
      rw [this] at hy
      exact hall y (List.mem_of_mem_drop hy)

theorem rep_assign (h : BaseLaw E S d) (x y : RepObj E.State) (hx : (repSpec S cap).Inv x)
    (hy : (repSpec S cap).Inv y) :
    (x.assign y).Post fun z => (repSpec S cap).Inv z ∧ (repSpec S cap).abs z = (repSpec S cap).abs y ∧
      (x = RepObj.init E cap → (repSpec S cap).Clean z) := by
  obtain ⟨h1, h2, h3⟩ := id hy
  have hl : y.elems.length = y.len := y.elems_length h1 h2
  unfold RepObj.assign
  rw [if_pos (by omega), Res.Post_bind]
  refine (rep_overwrite h x y.elems hx (fun r hr => h3 r (List.mem_of_mem_take hr)) (by omega)).mono ?_
  rintro data' ⟨ha, hb, _, hc⟩
  rw [hl] at ha hb hc
  refine ⟨ha, hb, fun hi => hc ?_⟩
  subst hi
  intro d hd
  exact List.eq_of_mem_replicate hd

theorem rep_base (h : BaseLaw E S d) : BaseLaw (repeatedClass E cap) (repSpec S cap) [] where
  init_inv := by
    refine ⟨by simp [repeatedClass, RepObj.init], by simp [repeatedClass, RepObj.init], ?_⟩
    intro x hx
    rw [List.eq_of_mem_replicate hx]; exact h.init_inv
  init_clean := by
    refine ⟨by simp [RepObj.elems, repeatedClass, RepObj.init], ?_⟩
    intro _ x hx
    exact List.eq_of_mem_replicate (List.mem_of_mem_drop hx)
  init_abs := by simp [repSpec, RepObj.elems, repeatedClass, RepObj.init]
  clear x hx := by
    obtain ⟨h1, h2, h3⟩ := hx
    show RepObj.clear x = _
    simp only [RepObj.clear, clearElems_eq h.toInitLaw x.data h3, Res.ok_bind, Res.pure_eq]
    rw [h1]; rfl
  assign x y hx hy := rep_assign h x y hx hy
  set x y hx hy := rep_assign h x y hx hy

end Repeated

/-! ## Fields -/

/-- New and cleared fields. -/
structure FieldsInit (F : FieldsClass) (S : FieldsSpec F V) (lo hi n : Nat) (d : V) : Prop where
  lo_le : lo ≤ hi
  congr : ∀ b b' s, (∀ i, lo ≤ i → i < hi → b i = b' i) →
    S.abs b s = S.abs b' s ∧ (S.Inv b s → S.Inv b' s)
  init : ∀ b, (∀ i, lo ≤ i → i < hi → b i = false) →
    S.Inv b F.init ∧ S.Clean F.init ∧ S.abs b F.init = d
  clear : ∀ p s, Presence.WF n p → S.Inv p.bit s → ∃ p', F.clear p s = .ok (p', F.init) ∧
    Presence.WF n p' ∧ ∀ j, p'.bit j = if lo ≤ j ∧ j < hi then false else p.bit j

structure FieldsBase (F : FieldsClass) (S : FieldsSpec F V) (lo hi n : Nat) (d : V) : Prop
    extends FieldsInit F S lo hi n d where
  assign : ∀ p s q t, Presence.WF n p → Presence.WF n q → S.Inv p.bit s → S.Inv q.bit t →
    (F.assign (p, s) (q, t)).Post fun r => Presence.WF n r.1 ∧
      (∀ j, r.1.bit j = if lo ≤ j ∧ j < hi then q.bit j else p.bit j) ∧
      S.Inv r.1.bit r.2 ∧ S.abs r.1.bit r.2 = S.abs q.bit t ∧ (s = F.init → S.Clean r.2)

theorem fieldsInit_nil (lo n : Nat) : FieldsInit .nil .nil lo lo n () where
  lo_le := Nat.le_refl _
  congr _ _ _ _ := ⟨rfl, id⟩
  init _ _ := ⟨trivial, trivial, rfl⟩
  clear p s hp _ := ⟨p, rfl, hp, fun j => by rw [if_neg (by omega)]⟩

theorem fieldsBase_nil (lo n : Nat) : FieldsBase .nil .nil lo lo n () where
  toFieldsInit := fieldsInit_nil lo n
  assign p s q t hp _ _ _ := ⟨hp, fun j => by rw [if_neg (by omega)], trivial, rfl, fun _ => trivial⟩

theorem fieldsInit_plain {C : FieldClass} {F : FieldsClass} {S : ClassSpec C V} {R : FieldsSpec F W}
    {lo hi n : Nat} (num : Nat) {d : V} {e : W} (h₁ : InitLaw C S d) (h₂ : FieldsInit F R lo hi n e) :
    FieldsInit (.plain num C F) (.plain num S R) lo hi n (d, e) where
  lo_le := h₂.lo_le
  congr b b' s h := by
    obtain ⟨ha, hb⟩ := h₂.congr b b' s.2 h
    exact ⟨by simp only [FieldsSpec.plain, ha], fun hi => ⟨hi.1, hb hi.2⟩⟩
  init b h := by
    obtain ⟨ha, hb, hc⟩ := h₂.init b h
    refine ⟨⟨h₁.init_inv, ha⟩, ⟨h₁.init_clean, hb⟩, ?_⟩
    simp only [FieldsSpec.plain, FieldsClass.plain, h₁.init_abs, hc]
  clear p s hp hi := by
    obtain ⟨p', hc, hw, hb⟩ := h₂.clear p s.2 hp hi.2
    refine ⟨p', ?_, hw, hb⟩
    simp only [FieldsClass.plain, h₁.clear s.1 hi.1, hc, Res.ok_bind, Res.pure_eq]

theorem fieldsBase_plain {C : FieldClass} {F : FieldsClass} {S : ClassSpec C V} {R : FieldsSpec F W}
    {lo hi n : Nat} (num : Nat) {d : V} {e : W} (h₁ : BaseLaw C S d) (h₂ : FieldsBase F R lo hi n e) :
    FieldsBase (.plain num C F) (.plain num S R) lo hi n (d, e) where
  toFieldsInit := fieldsInit_plain num h₁.toInitLaw h₂.toFieldsInit
  assign p s q t hp hq hs ht := by
    simp only [FieldsClass.plain, Res.Post_bind]
    refine (h₁.set s.1 t.1 hs.1 ht.1).mono ?_
    rintro x ⟨hx1, hx2, hx3⟩
    refine (h₂.assign p s.2 q t.2 hp hq hs.2 ht.2).mono ?_
    rintro ⟨p', s'⟩ ⟨h1, h2, h3, h4, h5⟩
    refine ⟨h1, h2, ⟨hx1, h3⟩, ?_, ?_⟩
    · simp only [FieldsSpec.plain, hx2]; rw [h4]
    · intro he
      subst he
      exact ⟨hx3 rfl, h5 rfl⟩

theorem fieldsInit_optional {C : FieldClass} {F : FieldsClass} {S : ClassSpec C V} {R : FieldsSpec F W}
    {idx hi n : Nat} (hn : hi ≤ n) (num : Nat) {d : V} {e : W} (h₁ : InitLaw C S d)
    (h₂ : FieldsInit F R (idx + 1) hi n e) :
    FieldsInit (.optional num idx C F) (.optional num idx S R) idx hi n (none, e) where
  lo_le := Nat.le_of_succ_le h₂.lo_le
  congr b b' s h := by
    have := h₂.lo_le
    obtain ⟨ha, hb⟩ := h₂.congr b b' s.2 (fun i h1 h2 => h i (by omega) h2)
    have hidx := h idx (Nat.le_refl _) (by omega)
    refine ⟨by simp only [FieldsSpec.optional, ha, hidx], fun hi => ⟨?_, hb hi.2⟩⟩
    rw [← hidx]; exact hi.1
  init b h := by
    have := h₂.lo_le
    obtain ⟨ha, hb, hc⟩ := h₂.init b (fun i h1 h2 => h i (by omega) h2)
    have hidx := h idx (Nat.le_refl _) (by omega)
    refine ⟨⟨⟨h₁.init_inv, fun _ => rfl⟩, ha⟩, ⟨h₁.init_clean, hb⟩, ?_⟩
    simp only [FieldsSpec.optional, FieldsClass.optional, hidx, hc, Bool.false_eq_true, ↓reduceIte]
  clear p s hp hi' := by
    have := h₂.lo_le
    obtain ⟨p₁, hc₁, hw₁, hb₁⟩ := Presence.clearBit_eq (i := idx) hp (by omega)
    obtain ⟨p', hc, hw, hb⟩ := h₂.clear p₁ s.2 hw₁ ((h₂.congr _ _ _ (by
      intro i h1 h2; rw [hb₁]; simp; omega)).2 hi'.2)
    refine ⟨p', ?_, hw, ?_⟩
    · simp only [FieldsClass.optional, hc₁, h₁.clear s.1 hi'.1.1, hc, Res.ok_bind, Res.pure_eq]
    · intro j
      rw [hb, hb₁]
      by_cases hj : j = idx
      · subst hj; simp; omega
      · by_cases hj2 : idx + 1 ≤ j ∧ j < hi
        · rw [if_pos hj2, if_pos (by omega)]
        · rw [if_neg hj2, if_neg (by omega)]; simp [hj]

theorem fieldsBase_optional {C : FieldClass} {F : FieldsClass} {S : ClassSpec C V} {R : FieldsSpec F W}
    {idx hi n : Nat} (hn : hi ≤ n) (num : Nat) {d : V} {e : W} (h₁ : BaseLaw C S d)
    (h₂ : FieldsBase F R (idx + 1) hi n e) :
    FieldsBase (.optional num idx C F) (.optional num idx S R) idx hi n (none, e) where
  toFieldsInit := fieldsInit_optional hn num h₁.toInitLaw h₂.toFieldsInit
  assign p s q t hp hq hs ht := by
    have hlo := h₂.lo_le
    have hin : idx < n := by omega
    simp only [FieldsClass.optional, Presence.has_eq hq hin, Res.ok_bind, Res.Post_bind]
    have key : ∀ p₁ x, Presence.WF n p₁ → (∀ j, p₁.bit j = if j = idx then q.bit idx else p.bit j) →
        S.Inv x → (q.bit idx = true → S.abs x = S.abs t.1) → (q.bit idx = false → x = C.init) →
        (s = (FieldsClass.optional num idx C F).init → S.Clean x) →
        ((do
          let (p, t) ← F.assign (p₁, s.2) (q, t.2)
          pure (p, (x, t)) : Res (Presence × C.State × F.State))).Post fun r =>
          Presence.WF n r.1 ∧
          (∀ j, r.1.bit j = if idx ≤ j ∧ j < hi then q.bit j else p.bit j) ∧
          (FieldsSpec.optional num idx S R).Inv r.1.bit r.2 ∧
          (FieldsSpec.optional num idx S R).abs r.1.bit r.2 = (FieldsSpec.optional num idx S R).abs q.bit t ∧
          (s = (FieldsClass.optional num idx C F).init → (FieldsSpec.optional num idx S R).Clean r.2) := by
      intro p₁ x hw₁ hb₁ hx1 hx2 hx3 hx4
      rw [Res.Post_bind]
      refine (h₂.assign p₁ s.2 q t.2 hw₁ hq ((h₂.congr _ _ _ (by
        intro i h1 h2; rw [hb₁, if_neg (by omega)])).2 hs.2) ht.2).mono ?_
      rintro ⟨p', s'⟩ ⟨h1, h2, h3, h4, h5⟩
      have hbi : p'.bit idx = q.bit idx := by
        rw [h2]; simp [hb₁]
      refine ⟨h1, ?_, ⟨⟨hx1, ?_⟩, h3⟩, ?_, ?_⟩
      · intro j
        simp only at h2
        rw [h2, hb₁]
        by_cases hj : j = idx
        · subst hj; simp; omega
        · by_cases hj2 : idx + 1 ≤ j ∧ j < hi
          · rw [if_pos hj2, if_pos (by omega)]
          · rw [if_neg hj2, if_neg hj, if_neg (by omega)]
      · intro hb; exact hx3 (hbi ▸ hb)
      · show (if p'.bit idx then _ else _, _) = (if q.bit idx then _ else _, _)
        rw [hbi, h4]
        cases hqb : q.bit idx
        · rfl
        · simp [hx2 hqb]
      · intro he
        refine ⟨hx4 he, h5 ?_⟩
        rw [he]; rfl
    cases hqb : q.bit idx
    · simp only [Bool.false_eq_true, ↓reduceIte]
      obtain ⟨p₁, hc₁, hw₁, hb₁⟩ := Presence.clearBit_eq (i := idx) hp hin
      simp only [hc₁, h₁.clear s.1 hs.1.1, Res.ok_bind, Res.pure_eq, Res.Post_ok]
      have := key p₁ C.init hw₁ (by
        intro j; rw [hb₁]
        by_cases hj : j = idx
        · subst hj; simp [hqb]
        · simp [hj]) h₁.init_inv (by simp [hqb]) (fun _ => rfl) (fun _ => h₁.init_clean)
      rw [Res.Post_bind] at this
      exact this
    · simp only [↓reduceIte]
      obtain ⟨p₁, hc₁, hw₁, hb₁⟩ := Presence.setBit_eq (i := idx) hp hin
      simp only [hc₁, Res.ok_bind]
      rw [Res.Post_bind]
      refine (h₁.set s.1 t.1 hs.1.1 ht.1.1).mono ?_
      rintro x ⟨hx1, hx2, hx3⟩
      simp only [Res.pure_eq, Res.Post_ok]
      have := key p₁ x hw₁ (by
        intro j; rw [hb₁]
        by_cases hj : j = idx
        · subst hj; simp [hqb]
        · simp [hj]) hx1 (fun _ => hx2) (by simp [hqb]) (fun he => hx3 (by rw [he]; rfl))
      rw [Res.Post_bind] at this
      exact this

/-! ## Oneofs -/

/-- New and destroyed members of a oneof. -/
structure AltsInit (A : AltsClass) (S : AltsSpec A V) (nums : List Nat) : Prop where
  num_mem : ∀ u, S.num u ∈ nums
  hasCase : ∀ id, A.hasCase id = decide (id ∈ nums)
  construct : ∀ id u, id ∈ nums → ∃ v, A.construct id u = some v ∧ A.construct id none = some v ∧
    S.num v = id ∧ S.Inv v ∧ S.Clean v
  destroy : ∀ u, A.destroy (S.num u) (some u) = .ok none
  destroy_none : ∀ id, id ∉ nums → A.destroy id none = .ok none

structure AltsBase (A : AltsClass) (S : AltsSpec A V) (nums : List Nat) : Prop
    extends AltsInit A S nums where
  setFrom : ∀ u v, S.Inv u → S.Inv v → S.num u = S.num v →
    (A.setFrom (S.num v) (some u) (some v)).Post fun r => ∃ z, r = some z ∧ S.num z = S.num v ∧
      S.Inv z ∧ S.abs z = S.abs v ∧ (A.construct (S.num v) none = some u → S.Clean z)

theorem altsInit_nil : AltsInit .nil .nil [] where
  num_mem u := nomatch u
  hasCase _ := rfl
  construct _ _ h := nomatch h
  destroy u := nomatch u
  destroy_none _ _ := rfl

theorem altsBase_nil : AltsBase .nil .nil [] where
  toAltsInit := altsInit_nil
  setFrom u := nomatch u

theorem altsInit_cons {C : FieldClass} {A : AltsClass} {S : ClassSpec C V} {R : AltsSpec A W}
    {num : Nat} {nums : List Nat} (hnum : num ∉ nums) {d : V} (h₁ : InitLaw C S d)
    (h₂ : AltsInit A R nums) :
    AltsInit (.cons num C A) (.cons num S R) (num :: nums) where
  num_mem u := by
    cases u with
    | inl x => exact List.mem_cons_self
    | inr u => exact List.mem_cons_of_mem _ (h₂.num_mem u)
  hasCase id := by
    simp only [AltsClass.cons, h₂.hasCase, List.mem_cons, Bool.decide_or]
    congr 1
  construct id u hid := by
    by_cases he : id = num
    · subst he
      refine ⟨.inl C.init, ?_, ?_, rfl, h₁.init_inv, h₁.init_clean⟩ <;>
        simp only [AltsClass.cons, ↓reduceIte]
    · have hid' : id ∈ nums := by
        rcases List.mem_cons.mp hid with h | h
        · exact absurd h he
        · exact h
      obtain ⟨v, hv0, hv1, hv2, hv3, hv4⟩ := h₂.construct id (AltsClass.right? u) hid'
      obtain ⟨v', hv0', hv1', _⟩ := h₂.construct id (AltsClass.right? (none : Option (C.State ⊕ A.U))) hid'
      have : v' = v := by rw [hv1] at hv1'; injection hv1' with h; exact h.symm
      subst this
      refine ⟨.inr v', ?_, ?_, hv2, hv3, hv4⟩
      · simp only [AltsClass.cons, he, ↓reduceIte, hv0, AltsClass.inr?]
      · simp only [AltsClass.cons, he, ↓reduceIte, hv0', AltsClass.inr?]
  destroy u := by
    cases u with
    | inl x => simp [AltsClass.cons, AltsSpec.cons, AltsClass.access, AltsClass.left?]
    | inr u =>
      have hne : R.num u ≠ num := fun h => hnum (h ▸ h₂.num_mem u)
      simp [AltsClass.cons, AltsSpec.cons, hne, AltsClass.right?, h₂.destroy, AltsClass.inr?]
  destroy_none id hid := by
    simp only [List.mem_cons, not_or] at hid
    simp [AltsClass.cons, hid.1, AltsClass.right?, h₂.destroy_none id hid.2, AltsClass.inr?]

theorem altsBase_cons {C : FieldClass} {A : AltsClass} {S : ClassSpec C V} {R : AltsSpec A W}
    {num : Nat} {nums : List Nat} (hnum : num ∉ nums) {d : V} (h₁ : BaseLaw C S d)
    (h₂ : AltsBase A R nums) :
    AltsBase (.cons num C A) (.cons num S R) (num :: nums) where
  toAltsInit := altsInit_cons hnum h₁.toInitLaw h₂.toAltsInit
  setFrom u v hu hv hn := by
    cases v with
    | inl y =>
      cases u with
      | inl x =>
        simp only [AltsClass.cons, AltsSpec.cons, ↓reduceIte, AltsClass.left?, AltsClass.access,
          Res.ok_bind, Res.Post_bind, Res.pure_eq, Res.Post_ok]
        refine (h₁.set x y hu hv).mono ?_
        rintro z ⟨hz1, hz2, hz3⟩
        refine ⟨.inl z, rfl, rfl, hz1, congrArg Sum.inl hz2, ?_⟩
        intro he
        apply hz3
        injection he with he
        injection he with he
        exact he.symm
      | inr x =>
        have hn : R.num x = num := hn
        exact absurd (hn ▸ h₂.num_mem x) hnum
    | inr y =>
      cases u with
      | inl x =>
        have hn : num = R.num y := hn
        exact absurd (hn ▸ h₂.num_mem y) hnum
      | inr x =>
        have hne : R.num y ≠ num := fun h => hnum (h ▸ h₂.num_mem y)
        simp only [AltsClass.cons, AltsSpec.cons, hne, ↓reduceIte, AltsClass.right?,
          Res.Post_bind, Res.pure_eq, Res.Post_ok]
        refine (h₂.setFrom x y hu hv hn).mono ?_
        rintro r ⟨z, rfl, hz1, hz2, hz3, hz4⟩
        refine ⟨.inr z, rfl, hz1, hz2, congrArg Sum.inr hz3, ?_⟩
        intro he
        apply hz4
        cases hc : A.construct (R.num y) none with
        | none => simp [hc, AltsClass.inr?] at he
        | some w =>
          simp only [hc, AltsClass.inr?] at he
          injection he with he
          injection he with he
          rw [he]

section Obj
variable {A : AltsClass} {S : AltsSpec A V} {nums : List Nat}

theorem clearObj_eq (h : AltsInit A S nums) (h0 : 0 ∉ nums) (o : OneofObj A.U) (ho : S.ObjInv o) :
    A.clearObj o = .ok A.initObj := by
  obtain ⟨which, live⟩ := o
  cases live with
  | none =>
    have : which = 0 := ho
    subst this
    simp [AltsClass.clearObj, h.destroy_none 0 h0, AltsClass.initObj]
  | some u =>
    have : which = S.num u := ho.1
    subst this
    simp [AltsClass.clearObj, h.destroy u, AltsClass.initObj]

/-- Selecting a member: it stays if already live, otherwise it is new. -/
theorem activate_eq (h : AltsInit A S nums) (h0 : 0 ∉ nums) (o : OneofObj A.U) (ho : S.ObjInv o)
    (id : Nat) (hid : id ∈ nums) :
    ∃ u, A.activate o id = .ok ⟨id, some u⟩ ∧ S.num u = id ∧ S.Inv u ∧
      ((o.which = id ∧ o.live = some u) ∨ (o.which ≠ id ∧ A.construct id none = some u ∧ S.Clean u)) := by
  unfold AltsClass.activate
  by_cases he : id ≠ o.which
  · rw [if_pos he]
    obtain ⟨v, hv0, hv1, hv2, hv3, hv4⟩ := h.construct id none hid
    refine ⟨v, ?_, hv2, hv3, Or.inr ⟨he.symm, hv1, hv4⟩⟩
    have : (if o.which ≠ 0 then A.clearObj o else pure o : Res (OneofObj A.U)) = .ok A.initObj := by
      split
      · exact clearObj_eq h h0 o ho
      · rename_i hw
        obtain ⟨which, live⟩ := o
        simp only [ne_eq, Decidable.not_not] at hw
        subst hw
        cases live with
        | none => rfl
        | some u =>
          have : 0 = S.num u := ho.1
          exact absurd (this ▸ h.num_mem u) h0
    simp only [AltsClass.initTo]
    rw [this]
    simp only [Res.ok_bind, Res.pure_eq, AltsClass.initObj, hv0]
  · rw [if_neg he]
    have he : id = o.which := Decidable.not_not.mp he
    subst he
    obtain ⟨which, live⟩ := o
    cases live with
    | none =>
      have : which = 0 := ho
      subst this
      exact absurd hid h0
    | some u => exact ⟨u, rfl, ho.1.symm, ho.2, Or.inl ⟨rfl, rfl⟩⟩

theorem assignObj_post (h : AltsBase A S nums) (h0 : 0 ∉ nums) (o r : OneofObj A.U) (ho : S.ObjInv o)
    (hr : S.ObjInv r) :
    (A.assignObj o r).Post fun z => S.ObjInv z ∧ z.live.map S.abs = r.live.map S.abs ∧
      (o = A.initObj → ∀ u, z.live = some u → S.Clean u) := by
  have key : ∀ o' : OneofObj A.U, S.ObjInv o' →
      (∀ u, r.live = some u → (o = A.initObj → o' = A.initObj)) →
      (r.live = none → o' = A.initObj) →
      ((if A.hasCase r.which then do
          let o ← A.activate o' r.which
          let u ← A.setFrom r.which o.live r.live
          pure ⟨o.which, u⟩
        else pure o' : Res (OneofObj A.U))).Post fun z => S.ObjInv z ∧ z.live.map S.abs = r.live.map S.abs ∧
      (o = A.initObj → ∀ u, z.live = some u → S.Clean u) := by
    intro o' ho' hoi hno
    obtain ⟨which, live⟩ := r
    cases live with
    | none =>
      have : which = 0 := hr
      subst this
      rw [h.hasCase, decide_eq_false h0, if_neg (by simp), hno rfl]
      exact ⟨rfl, rfl, fun _ u hu => nomatch hu⟩
    | some v =>
      have : which = S.num v := hr.1
      subst this
      rw [h.hasCase, decide_eq_true (h.num_mem v), if_pos rfl]
      obtain ⟨u, hu0, hu1, hu2, hu3⟩ := activate_eq h.toAltsInit h0 o' ho' (S.num v) (h.num_mem v)
      simp only [hu0, Res.ok_bind, Res.Post_bind]
      refine (h.setFrom u v hu2 hr.2 hu1).mono ?_
      rintro z ⟨z, rfl, hz1, hz2, hz3, hz4⟩
      refine ⟨⟨hz1.symm, hz2⟩, by simp [hz3], ?_⟩
      intro hi w hw
      injection hw with hw
      subst hw
      apply hz4
      rcases hu3 with ⟨ha, hb⟩ | ⟨_, hb, _⟩
      · rw [hoi v rfl hi] at hb; exact nomatch hb
      · exact hb
  unfold AltsClass.assignObj
  by_cases he : r.which ≠ o.which
  · rw [if_pos he, clearObj_eq h.toAltsInit h0 o ho, Res.ok_bind]
    exact key A.initObj rfl (fun _ _ _ => rfl) (fun _ => rfl)
  · rw [if_neg he]
    refine key o ho (fun _ _ hi => hi) ?_
    intro hn
    have he : r.which = o.which := Decidable.not_not.mp he
    obtain ⟨which, live⟩ := r
    obtain ⟨which', live'⟩ := o
    have he : which = which' := he
    have hn : live = none := hn
    subst hn
    have : which = 0 := hr
    subst this
    subst he
    cases live' with
    | none => rfl
    | some u =>
      have : 0 = S.num u := ho.1
      exact absurd (this ▸ h.num_mem u) h0

end Obj

structure OneofsBase (O : OneofsClass) (S : OneofsSpec O V) (d : V) : Prop where
  init_inv : S.Inv O.init
  init_clean : S.Clean O.init
  init_abs : S.abs O.init = d
  clear : ∀ s, S.Inv s → O.clear s = .ok O.init
  assign : ∀ s t, S.Inv s → S.Inv t → (O.assign s t).Post fun z =>
    S.Inv z ∧ S.abs z = S.abs t ∧ (s = O.init → S.Clean z)

theorem oneofsBase_nil : OneofsBase .nil .nil () where
  init_inv := trivial
  init_clean := trivial
  init_abs := rfl
  clear _ _ := rfl
  assign _ _ _ _ := ⟨trivial, rfl, fun _ => trivial⟩

theorem oneofsBase_cons {A : AltsClass} {O : OneofsClass} {S : AltsSpec A V} {R : OneofsSpec O W}
    {nums : List Nat} (h0 : 0 ∉ nums) {d : W} (h₁ : AltsBase A S nums) (h₂ : OneofsBase O R d) :
    OneofsBase (.cons A O) (.cons S R) (none, d) where
  init_inv := ⟨rfl, h₂.init_inv⟩
  init_clean := ⟨fun u hu => (nomatch hu), h₂.init_clean⟩
  init_abs := by simp only [OneofsSpec.cons, OneofsClass.cons, h₂.init_abs]; rfl
  clear s hs := by
    simp only [OneofsClass.cons, clearObj_eq h₁.toAltsInit h0 s.1 hs.1, h₂.clear s.2 hs.2, Res.ok_bind, Res.pure_eq]
  assign s t hs ht := by
    simp only [OneofsClass.cons, Res.Post_bind]
    refine (assignObj_post h₁ h0 s.1 t.1 hs.1 ht.1).mono ?_
    rintro o ⟨ho1, ho2, ho3⟩
    refine (h₂.assign s.2 t.2 hs.2 ht.2).mono ?_
    rintro z ⟨hz1, hz2, hz3⟩
    refine ⟨⟨ho1, hz1⟩, ?_, ?_⟩
    · simp only [OneofsSpec.cons, ho2, hz2]
    · intro he
      subst he
      exact ⟨ho3 rfl, hz3 rfl⟩

/-! ## Messages -/

theorem msg_base {F : FieldsClass} {O : OneofsClass} {S : FieldsSpec F V} {R : OneofsSpec O W}
    {n : Nat} {d : V} {e : W} (h₁ : FieldsBase F S 0 n n d) (h₂ : OneofsBase O R e) :
    BaseLaw (messageClass n F O) (msgSpec n S R) (d, e) := by
  have hinit := h₁.init (Presence.init n).bit (fun i _ _ => Presence.init_bit n i)
  have hassign : ∀ x y : MsgObj F.State O.State, (msgSpec n S R).Inv x → (msgSpec n S R).Inv y →
      (x.assign F O y).Post fun z => (msgSpec n S R).Inv z ∧
        (msgSpec n S R).abs z = (msgSpec n S R).abs y ∧
        (x = (messageClass n F O).init → (msgSpec n S R).Clean z) := by
    intro x y hx hy
    unfold MsgObj.assign
    rw [Res.Post_bind]
    refine (h₁.assign x.presence x.fields y.presence y.fields hx.1 hy.1 hx.2.1 hy.2.1).mono ?_
    rintro ⟨p, s⟩ ⟨h1, h2, h3, h4, h5⟩
    simp only [Res.Post_bind]
    refine (h₂.assign x.oneofs y.oneofs hx.2.2 hy.2.2).mono ?_
    rintro z ⟨hz1, hz2, hz3⟩
    refine ⟨⟨h1, h3, hz1⟩, ?_, ?_⟩
    · simp only [msgSpec, hz2]; rw [h4]
    · intro he
      subst he
      exact ⟨h5 rfl, hz3 rfl⟩
  exact {
    init_inv := ⟨Presence.init_wf n, hinit.1, h₂.init_inv⟩
    init_clean := ⟨hinit.2.1, h₂.init_clean⟩
    init_abs := by
      show (S.abs (Presence.init n).bit F.init, R.abs O.init) = _
      rw [hinit.2.2, h₂.init_abs]
    clear := by
      intro x hx
      obtain ⟨p', hc, hw, hb⟩ := h₁.clear x.presence x.fields hx.1 hx.2.1
      have : p' = Presence.init n := Presence.eq_init hw (fun i hi => by rw [hb, if_pos ⟨by omega, hi⟩])
      subst this
      show MsgObj.clear F O x = _
      simp only [MsgObj.clear, hc, h₂.clear x.oneofs hx.2.2, Res.ok_bind, Res.pure_eq]
      rfl
    assign := hassign
    set := hassign }

/-! ## Declarations -/

mutual
theorem ElemTy.base : (t : ElemTy) → t.WF → BaseLaw t.cls t.spec t.dflt
  | .scalar s, _ => scalar_base s
  | .str cap, _ => str_base cap
  | .msg fs os, h => by
    simp only [ElemTy.WF] at h
    have hb := Fields.base fs 0 fs.nOptional h.1 (by omega)
    rw [Nat.zero_add] at hb
    refine msg_base hb (Oneofs.base os h.2.1 ?_ ?_)
    · exact (List.nodup_append.mp h.2.2.1).2.1
    · intro k hk; exact (h.2.2.2 k (List.mem_append_right _ hk)).1
theorem Fields.base : (fs : Fields) → (idx n : Nat) → fs.WF → idx + fs.nOptional ≤ n →
    FieldsBase (fs.cls idx) (fs.spec idx) idx (idx + fs.nOptional) n fs.dflt
  | .nil, idx, n, _, _ => fieldsBase_nil idx n
  | .plain num t rest, idx, n, h, hi => by
    simp only [Fields.WF] at h
    simp only [Fields.nOptional] at hi
    exact fieldsBase_plain num (ElemTy.base t h.1) (Fields.base rest idx n h.2 hi)
  | .optional num t rest, idx, n, h, hi => by
    simp only [Fields.WF] at h
    simp only [Fields.nOptional] at hi
    have ih := Fields.base rest (idx + 1) n h.2 (by omega)
    rw [show idx + 1 + rest.nOptional = idx + (rest.nOptional + 1) by omega] at ih
    exact fieldsBase_optional (by simp only [Fields.nOptional]; omega) num (ElemTy.base t h.1) ih
  | .repeated num cap t rest, idx, n, h, hi => by
    simp only [Fields.WF] at h
    simp only [Fields.nOptional] at hi
    exact fieldsBase_plain num (rep_base (ElemTy.base t h.2.1)) (Fields.base rest idx n h.2.2 hi)
theorem Alts.base : (a : Alts) → a.WF → a.numbers.Nodup → AltsBase a.cls a.spec a.numbers
  | .nil, _, _ => altsBase_nil
  | .cons num t rest, h, hd => by
    simp only [Alts.WF] at h
    simp only [Alts.numbers, List.nodup_cons] at hd
    exact altsBase_cons hd.1 (ElemTy.base t h.1) (Alts.base rest h.2 hd.2)
theorem Oneofs.base : (os : Oneofs) → os.WF → os.numbers.Nodup → (∀ k ∈ os.numbers, 0 < k) →
    OneofsBase os.cls os.spec os.dflt
  | .nil, _, _, _ => oneofsBase_nil
  | .cons a rest, h, hd, hn => by
    simp only [Oneofs.WF] at h
    simp only [Oneofs.numbers] at hd hn
    have hd' := List.nodup_append.mp hd
    exact oneofsBase_cons (fun h0 => absurd (hn 0 (List.mem_append_left _ h0)) (by omega))
      (Alts.base a h.1 hd'.1)
      (Oneofs.base rest h.2 hd'.2.1 (fun k hk => hn k (List.mem_append_right _ hk)))
end

end EP
