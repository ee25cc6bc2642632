import Verif.Model.Api
import Verif.Proof.Safety

/-! # The calls of the public interface keep the class invariants and are free of undefined
behaviour -/

namespace EP

variable {V W : Type}

/-- `f` keeps `P` and has no undefined behaviour. -/
def Keeps {S : Type} (P : S → Prop) (f : S → Res S) : Prop := ∀ x, P x → (f x).Safe False P

/-- Calls with arguments satisfying the invariant keep the invariant. -/
def ApiLaw {S : Type} (Inv : S → Prop) (Api : (S → Prop) → (S → Res S) → Prop) : Prop :=
  ∀ R f, (∀ z, R z → Inv z) → Api R f → Keeps Inv f

theorem Keeps.pure {S : Type} {P : S → Prop} : Keeps P (pure : S → Res S) := fun _ h => h

theorem ReachGen.keeps {S : Type} {init : S} {Api : (S → Prop) → (S → Res S) → Prop} {Inv : S → Prop}
    (h : ApiLaw Inv Api) (h0 : Inv init) {x : S} (hx : ReachGen init Api x) : Inv x := by
  induction hx with
  | init => exact h0
  | step _ hf _ he ihR ih =>
    have := h _ _ (fun z hz => ihR z hz) hf _ ih
    rw [he] at this
    exact this

theorem MemberApi.keeps {S : Type} {init : S} {Api : (S → Prop) → (S → Res S) → Prop} {Inv : S → Prop}
    (h : ApiLaw Inv Api) (h0 : Inv init) {g : S → Res S} (hg : MemberApi init Api g) : Keeps Inv g := by
  rcases hg with rfl | ⟨R, hR, hg⟩
  · exact Keeps.pure
  · exact h R g (fun z hz => ReachGen.keeps h h0 (hR z hz)) hg

theorem Res.object_safe {α β γ : Type} {r : Res (α × β × γ)} {P : γ → Prop} {T : Prop}
    (h : r.Safe T fun r => P r.2.2) : r.object.Safe T P := by
  cases r <;> exact h

/-- `deserialize` without the type check. -/
def DesSafe (C : FieldClass) (S : ClassSpec C V) : Prop :=
  ∀ (β : Type) [ReadBuffer β] (M : ReadModel β) (fuel : Nat) (b : β) (x : C.State),
    M.Inv b → S.Inv x → (C.deserialize fuel b x).Safe False fun r => S.Inv r.2.2

theorem commonApi_law {C : FieldClass} {S : ClassSpec C V} {d : V} (hb : BaseLaw C S d)
    (hs : SafeLaw C S) (hd : DesSafe C S) : ApiLaw S.Inv (CommonApi C) := by
  intro R f hR hf x hx
  rcases hf with rfl | ⟨y, hy, rfl⟩ | ⟨y, hy, rfl⟩ | ⟨src, fuel, rfl⟩ | ⟨src, fuel, wt, rfl⟩
  · rw [hb.clear x hx]; exact hb.init_inv
  · exact ((hb.assign x y hx (hR y hy)).mono fun z hz => hz.1).safe
  · exact ((hb.set x y hx (hR y hy)).mono fun z hz => hz.1).safe
  · exact Res.object_safe (hd src.β src.M fuel src.buf x src.inv hx)
  · refine Res.object_safe (((hs src.β src.M fuel src.buf wt x src.inv hx).weaken False.elim).mono ?_)
    intro r hr; exact hr.2.1

theorem scalar_des (s : ScalarTy) : DesSafe (scalarClass s) (scalarSpec s) := by
  intro β _ M fuel b x hb hx
  have := (scalar_safeLaw s) β M fuel b s.wireType x hb hx
  simp only [scalarClass, ↓reduceIte] at this
  exact (this.weaken False.elim).mono fun r hr => hr.2.1

theorem str_des (cap : Nat) (hc : cap < 2147483648) : DesSafe (strClass cap) (strSpec cap) := by
  intro β _ M fuel b x hb hx
  have := (str_safeLaw cap hc) β M fuel b .lengthDelimited x hb hx
  simp only [strClass, ↓reduceIte] at this
  exact (this.weaken False.elim).mono fun r hr => hr.2.1

theorem rep_des {E : FieldClass} {S : ClassSpec E V} {cap : Nat}
    (h : SafeLaw (repeatedClass E cap) (repSpec S cap)) : DesSafe (repeatedClass E cap) (repSpec S cap) := by
  intro β _ M fuel b x hb hx
  have := h β M fuel b .lengthDelimited x hb hx
  simp only [repeatedClass, ↓reduceIte] at this
  exact (this.weaken False.elim).mono fun r hr => hr.2.1

theorem msg_des {F : FieldsClass} {O : OneofsClass} {S : FieldsSpec F V} {R : OneofsSpec O W} {n : Nat}
    (h₁ : FieldsSafe F S 0 n n) (h₂ : OneofsSafe O R) : DesSafe (messageClass n F O) (msgSpec n S R) := by
  intro β _ M fuel b x hb hx
  exact ((msg_safe h₁ h₂ M fuel b x hb hx).weaken False.elim).mono fun r hr => hr.2.1

/-! ## Strings -/

theorem StrObj.setCStr_eq (cap : Nat) (x : StrObj) (s : List Byte) (hx : x.WF cap) (hc : cap < 2147483648) :
    x.setCStr cap s = .ok ⟨min s.length cap,
      (s ++ [0]).take cap ++ x.data.drop (min (s.length + 1) cap)⟩ := by
  obtain ⟨h1, h2⟩ := hx
  unfold StrObj.setCStr StrObj.setLength StrObj.strnlen
  have e1 : min (min (u32 (cap + 1)) s.length) cap = min s.length cap := by
    rw [u32_of_lt (by omega)]; omega
  simp only [e1]
  by_cases hl : s.length < cap
  · have e2 : min s.length cap = s.length := by omega
    have e3 : u32 (s.length + 1) = s.length + 1 := u32_of_lt (by omega)
    have e4 : StrObj.strncpySrc s (s.length + 1) = s ++ [0] := by
      simp only [StrObj.strncpySrc, List.take_of_length_le (show s.length ≤ s.length + 1 by omega)]
      congr 1
      rw [show s.length + 1 - s.length = 1 by omega]; rfl
    simp only [e2, gt_iff_lt, hl, ↓reduceIte, e3, e4]
    rw [arrayCopy, if_pos (by simp; omega)]
    have e5 : min (s.length + 1) cap = s.length + 1 := by omega
    have e6 : (s ++ [0]).take cap = s ++ [0] := List.take_of_length_le (by simp; omega)
    rw [e5, e6]
    simp
  · have e2 : min s.length cap = cap := by omega
    have e4 : StrObj.strncpySrc s cap = s.take cap := by
      simp only [StrObj.strncpySrc, show cap - s.length = 0 by omega, List.replicate_zero, List.append_nil]
    simp only [e2, gt_iff_lt, Nat.lt_irrefl, ↓reduceIte, e4]
    rw [arrayCopy, if_pos (by simp; omega)]
    have e5 : min (s.length + 1) cap = cap := by omega
    have e6 : (s ++ [0]).take cap = s.take cap := List.take_append_of_le_length (by omega)
    have e7 : (s.take cap).length = cap := by simp; omega
    simp only [Res.ok_bind, Res.pure_eq, e5, e6, e7, List.take_zero, List.nil_append, Nat.zero_add]

theorem strApi_law (cap : Nat) (h0 : 0 < cap) (hc : cap < 2147483648) {f : StrObj → Res StrObj}
    (hf : StrApi cap f) : Keeps (StrObj.WF cap) f := by
  intro x hx
  obtain ⟨h1, h2⟩ := id hx
  have hlim : ∀ i, min i (u32sub cap 1) < cap := by
    intro i; rw [u32sub_of_le (by omega) (by omega)]; omega
  have hu : ∀ i, u32 (min i (u32sub cap 1) + 1) ≤ cap := by
    intro i
    have := hlim i
    rw [u32_of_lt (by omega)]; omega
  rcases hf with ⟨bs, rfl⟩ | ⟨s, rfl⟩ | ⟨i, v, rfl⟩ | ⟨i, rfl⟩
  · by_cases hb : bs.length ≤ cap
    · simp only [StrObj.setData_eq cap x bs hx hb, Res.ok_bind, Res.pure_eq, Res.Safe_ok]
      exact ⟨by simp; omega, hb⟩
    · simp only [StrObj.setData, if_neg hb, Res.pure_eq, Res.ok_bind, Res.Safe_ok]
      exact hx
  · simp only [StrObj.setCStr_eq cap x s hx hc, Res.Safe_ok]
    exact ⟨by simp; omega, by simp only; omega⟩
  · simp only [StrObj.setAt]
    rw [arraySet_of_lt (by rw [h1]; exact hlim i)]
    simp only [Res.ok_bind, Res.pure_eq, Res.Safe_ok]
    refine ⟨by simp [h1], ?_⟩
    simp only
    split
    · exact hu i
    · exact h2
  · simp only [StrObj.getAt]
    rw [arrayGet_of_lt (by rw [h1]; exact hlim i)]
    simp only [Res.ok_bind, Res.pure_eq, Res.Safe_ok]
    refine ⟨h1, ?_⟩
    simp only
    split
    · exact hu i
    · exact h2

/-! ## Repeated fields -/

section Repeated
variable {E : FieldClass} {S : ClassSpec E V} {d : V} {cap : Nat}

theorem modifyAt_keeps (h0 : 0 < cap) (hc : cap < 2147483648) (i : Nat) {g : E.State → Res E.State}
    (hg : Keeps S.Inv g) : Keeps (repSpec S cap).Inv fun x : RepObj E.State => x.modifyAt cap i g := by
  intro x hx
  obtain ⟨h1, h2, h3⟩ := id hx
  have hlim : RepObj.limit cap i < cap := by
    rw [RepObj.limit, u32sub_of_le (by omega) (by omega)]; omega
  have hl : RepObj.limit cap i < x.data.length := by omega
  simp only [RepObj.modifyAt, RepObj.grow]
  rw [arrayGet_of_lt hl]
  simp only [Res.ok_bind]
  refine Res.Safe_bind.mpr ((hg _ (h3 _ (List.getElem_mem hl))).mono ?_)
  intro v hv
  rw [arraySet_of_lt hl]
  simp only [Res.pure_eq]
  refine ⟨by simp [h1], ?_, ?_⟩
  · simp only
    split
    · rw [u32_of_lt (by omega)]; omega
    · exact h2
  · intro y hy
    rcases List.mem_or_eq_of_mem_set hy with hy | rfl
    · exact h3 y hy
    · exact hv

theorem repApi_law (hb : BaseLaw E S d) (hc : cap < 2147483648)
    {Reach : E.State → Prop} {Api : (E.State → Prop) → (E.State → Res E.State) → Prop}
    (hR : ∀ z, Reach z → S.Inv z) (hA : ApiLaw S.Inv Api) {f : RepObj E.State → Res (RepObj E.State)}
    (hf : RepApi E cap Reach Api f) : Keeps (repSpec S cap).Inv f := by
  rcases hf with ⟨v, hv, rfl⟩ | ⟨i, v, h0, hv, rfl⟩ | ⟨vs, hvs, rfl⟩ | ⟨i, h0, rfl⟩ | ⟨i, R, g, h0, hg, hga, rfl⟩
  · intro x hx
    obtain ⟨h1, h2, h3⟩ := id hx
    simp only [RepObj.add]
    split
    · rename_i hl
      have hl' : x.len < x.data.length := by omega
      rw [arrayGet_of_lt hl']
      simp only [Res.ok_bind]
      refine Res.Safe_bind.mpr (Res.Safe_bind.mpr
        ((hb.assign _ v (h3 _ (List.getElem_mem hl')) (hR v hv)).mono ?_).safe)
      rintro z ⟨hz, _⟩
      rw [arraySet_of_lt hl']
      simp only [Res.pure_eq, Res.ok_bind, Res.Safe_ok]
      refine ⟨by simp [h1], ?_, ?_⟩
      · simp only; rw [u32_of_lt (by omega)]; omega
      · intro y hy
        rcases List.mem_or_eq_of_mem_set hy with hy | rfl
        · exact h3 y hy
        · exact hz
    · exact hx
  · refine modifyAt_keeps h0 hc i ?_
    intro x hx
    exact ((hb.assign x v hx (hR v hv)).mono fun z hz => hz.1).safe
  · intro x hx
    simp only [RepObj.setData]
    split
    · rename_i hl
      refine Res.Safe_bind.mpr (Res.Safe_bind.mpr
        ((rep_overwrite hb x vs hx (fun r hr => hR r (hvs r hr)) hl).mono ?_).safe)
      intro data' hd
      exact hd.1
    · exact hx
  · exact modifyAt_keeps h0 hc i Keeps.pure
  · exact modifyAt_keeps h0 hc i (hA R g (fun z hz => hR z (hg z hz)) hga)

end Repeated

/-! ## Fields -/

/-- Presence array and members satisfy the invariant. -/
def FieldsSpec.PInv {F : FieldsClass} (S : FieldsSpec F V) (n : Nat) (s : Presence × F.State) : Prop :=
  Presence.WF n s.1 ∧ S.Inv s.1.bit s.2

/-- A call on some of the fields changes no presence bit of the others. -/
def FieldsKeep {F : FieldsClass} (S : FieldsSpec F V) (lo hi n : Nat)
    (f : Presence × F.State → Res (Presence × F.State)) : Prop :=
  ∀ s, S.PInv n s → (f s).Safe False fun r => S.PInv n r ∧
    ∀ j, ¬ (lo ≤ j ∧ j < hi) → r.1.bit j = s.1.bit j

theorem onFst_keep {C : FieldClass} {F : FieldsClass} {S : ClassSpec C V} {R : FieldsSpec F W}
    {lo hi n num : Nat} {g : C.State → Res C.State} (hg : Keeps S.Inv g) :
    FieldsKeep (F := .plain num C F) (.plain num S R) lo hi n (onFst g) := by
  rintro ⟨p, x, t⟩ ⟨hp, hx, ht⟩
  refine Res.Safe_bind.mpr ((hg x hx).mono ?_)
  intro z hz
  exact ⟨⟨hp, hz, ht⟩, fun _ _ => rfl⟩

theorem onRest_keep_plain {C : FieldClass} {F : FieldsClass} {S : ClassSpec C V} {R : FieldsSpec F W}
    {lo hi n num : Nat} {g : Presence × F.State → Res (Presence × F.State)}
    (hg : FieldsKeep R lo hi n g) :
    FieldsKeep (F := .plain num C F) (.plain num S R) lo hi n (onRest g) := by
  rintro ⟨p, x, t⟩ ⟨hp, hx, ht⟩
  refine Res.Safe_bind.mpr ((hg (p, t) ⟨hp, ht⟩).mono ?_)
  rintro ⟨p', t'⟩ ⟨⟨h1, h2⟩, h3⟩
  exact ⟨⟨h1, hx, h2⟩, h3⟩

theorem onRest_keep_optional {C : FieldClass} {F : FieldsClass} {S : ClassSpec C V} {R : FieldsSpec F W}
    {idx hi n num : Nat} {g : Presence × F.State → Res (Presence × F.State)}
    (hg : FieldsKeep R (idx + 1) hi n g) :
    FieldsKeep (F := .optional num idx C F) (.optional num idx S R) idx hi n (onRest g) := by
  rintro ⟨p, x, t⟩ ⟨hp, hx, ht⟩
  refine Res.Safe_bind.mpr ((hg (p, t) ⟨hp, ht⟩).mono ?_)
  rintro ⟨p', t'⟩ ⟨⟨h1, h2⟩, h3⟩
  have hb : p'.bit idx = p.bit idx := h3 idx (by omega)
  refine ⟨⟨h1, ⟨hx.1, ?_⟩, h2⟩, fun j hj => h3 j (by omega)⟩
  intro hf
  exact hx.2 (hb ▸ hf)

theorem touchOptional_keep {C : FieldClass} {F : FieldsClass} {S : ClassSpec C V} {R : FieldsSpec F W}
    {idx hi n num : Nat} {e : W} (hn : hi ≤ n) (hb₂ : FieldsInit F R (idx + 1) hi n e)
    {g : C.State → Res C.State} (hg : Keeps S.Inv g) :
    FieldsKeep (F := .optional num idx C F) (.optional num idx S R) idx hi n (touchOptional idx g) := by
  rintro ⟨p, x, t⟩ ⟨hp, hx, ht⟩
  have hlo := hb₂.lo_le
  obtain ⟨p₁, hc₁, hw₁, hbit⟩ := Presence.setBit_eq (i := idx) hp (by omega)
  unfold touchOptional
  simp only [hc₁, Res.ok_bind]
  refine Res.Safe_bind.mpr ((hg x hx.1).mono ?_)
  intro z hz
  refine ⟨⟨hw₁, ⟨hz, ?_⟩, (hb₂.congr p.bit p₁.bit t ?_).2 ht⟩, ?_⟩
  · intro hf
    rw [hbit] at hf
    simp at hf
  · intro i h1 h2
    rw [hbit]; simp; omega
  · intro j hj
    show p₁.bit j = p.bit j
    rw [hbit]; simp; omega

theorem clearOptional_keep {C : FieldClass} {F : FieldsClass} {S : ClassSpec C V} {R : FieldsSpec F W}
    {idx hi n num : Nat} {d : V} {e : W} (hn : hi ≤ n) (hb₁ : InitLaw C S d)
    (hb₂ : FieldsInit F R (idx + 1) hi n e) :
    FieldsKeep (F := .optional num idx C F) (.optional num idx S R) idx hi n (clearOptional idx C.clear) := by
  rintro ⟨p, x, t⟩ ⟨hp, hx, ht⟩
  have hlo := hb₂.lo_le
  obtain ⟨p₁, hc₁, hw₁, hbit⟩ := Presence.clearBit_eq (i := idx) hp (by omega)
  unfold clearOptional
  simp only [hc₁, Res.ok_bind, hb₁.clear x hx.1, Res.pure_eq]
  refine ⟨⟨hw₁, ⟨hb₁.init_inv, fun _ => rfl⟩, (hb₂.congr p.bit p₁.bit t ?_).2 ht⟩, ?_⟩
  · intro i h1 h2
    rw [hbit]; simp; omega
  · intro j hj
    rw [hbit]; simp; omega

/-! ## Oneofs -/

/-- A call on the live member `id`. -/
def AltsKeep {A : AltsClass} (S : AltsSpec A V) (id : Nat) (f : Option A.U → Res (Option A.U)) : Prop :=
  ∀ u, S.num u = id → S.Inv u → (f (some u)).Safe False fun r => ∃ z, r = some z ∧ S.num z = id ∧ S.Inv z

theorem onLeft_keep {C : FieldClass} {A : AltsClass} {S : ClassSpec C V} {R : AltsSpec A W}
    {num : Nat} {nums : List Nat} (hnum : num ∉ nums) (hb₂ : AltsInit A R nums)
    {g : C.State → Res C.State} (hg : Keeps S.Inv g) :
    AltsKeep (A := .cons num C A) (.cons num S R) num (onLeft g) := by
  intro u hu hi
  cases u with
  | inl x =>
    refine Res.Safe_bind.mpr ?_
    simp only [AltsClass.left?, AltsClass.access, Res.Safe_ok]
    refine Res.Safe_bind.mpr ((hg x hi).mono ?_)
    intro z hz
    exact ⟨.inl z, rfl, rfl, hz⟩
  | inr y =>
    have hu : R.num y = num := hu
    exact absurd (hu ▸ hb₂.num_mem y) hnum

theorem onRight_keep {C : FieldClass} {A : AltsClass} {S : ClassSpec C V} {R : AltsSpec A W}
    {num id : Nat} {nums : List Nat} (hnum : num ∉ nums) (hid : id ∈ nums)
    {g : Option A.U → Res (Option A.U)} (hg : AltsKeep R id g) :
    AltsKeep (A := .cons num C A) (.cons num S R) id (onRight g) := by
  intro u hu hi
  cases u with
  | inl x =>
    have hu : num = id := hu
    exact absurd (hu ▸ hid) hnum
  | inr y =>
    refine Res.Safe_bind.mpr ((hg y hu hi).mono ?_)
    rintro r ⟨z, rfl, h1, h2⟩
    exact ⟨.inr z, rfl, h1, h2⟩

theorem touchMember_keep {A : AltsClass} {S : AltsSpec A V} {nums : List Nat} (h : AltsInit A S nums)
    (h0 : 0 ∉ nums) {id : Nat} (hid : id ∈ nums) {g : Option A.U → Res (Option A.U)}
    (hg : AltsKeep S id g) : Keeps S.ObjInv (touchMember A id g) := by
  intro o ho
  obtain ⟨u, hu0, hu1, hu2, _⟩ := activate_eq h h0 o ho id hid
  unfold touchMember
  simp only [hu0, Res.ok_bind]
  refine Res.Safe_bind.mpr ((hg u hu1 hu2).mono ?_)
  rintro r ⟨z, rfl, h1, h2⟩
  exact ⟨h1.symm, h2⟩

theorem clearMember_keep {A : AltsClass} {S : AltsSpec A V} {nums : List Nat} (h : AltsInit A S nums)
    (h0 : 0 ∉ nums) (id : Nat) : Keeps S.ObjInv (clearMember A id) := by
  intro o ho
  unfold clearMember
  split
  · rw [clearObj_eq h h0 o ho]
    exact rfl
  · exact ho

/-! ## Declarations -/

theorem ElemTy.rep_safe (t : ElemTy) (cap : Nat) (hc : cap < 2147483648) (h : t.WF) :
    SafeLaw (repeatedClass t.cls cap) (repSpec t.spec cap) := by
  cases hs : t.isScalar with
  | true =>
    cases t with
    | scalar s =>
      exact rep_safeLaw fun β _ M fuel b x hb hx =>
        rep_safe_packed (scalar_packedSafe s) hc M fuel b x hb hx
    | str cap => exact nomatch hs
    | msg fs os => exact nomatch hs
  | false =>
    exact rep_safeLaw fun β _ M fuel b x hb hx =>
      rep_safe_unpacked (ElemTy.unpackedElem t hs) (ElemTy.base t h) hc
        (ElemTy.safe_law t h) (fun hk => (ElemTy.notMessage t hs hk).1) M fuel b x hb hx

mutual
theorem ElemTy.api_law : (t : ElemTy) → t.WF → ApiLaw t.spec.Inv t.Api
  | .scalar s, _ => by
    intro R f hR hf
    rcases hf with hf | ⟨v, rfl⟩
    · exact commonApi_law (scalar_base s) (scalar_safeLaw s) (scalar_des s) R f hR hf
    · intro x hx; exact trivial
  | .str cap, h => by
    intro R f hR hf
    rcases hf with hf | hf
    · exact commonApi_law (str_base cap) (str_safeLaw cap h.2) (str_des cap h.2) R f hR hf
    · exact strApi_law cap h.1 h.2 hf
  | .msg fs os, h => by
    intro R f hR hf
    have hwf := h
    simp only [ElemTy.WF] at h
    have hd := List.nodup_append.mp h.2.2.1
    have hs := Fields.safe_law fs 0 fs.nOptional h.1 (by omega)
    rw [Nat.zero_add] at hs
    have hos := Oneofs.safe_law os h.2.1 hd.2.1
      (fun k hk => (h.2.2.2 k (List.mem_append_right _ hk)).1)
    rcases hf with hf | ⟨g, hg, rfl⟩ | ⟨g, hg, rfl⟩
    · exact commonApi_law (ElemTy.base (.msg fs os) hwf) (ElemTy.safe_law (.msg fs os) hwf)
        (msg_des hs hos) R f hR hf
    · have hk := Fields.api_law fs 0 fs.nOptional h.1 (by omega) g hg
      rintro ⟨p, s, o⟩ ⟨hp, hs, ho⟩
      refine Res.Safe_bind.mpr ((hk (p, s) ⟨hp, hs⟩).mono ?_)
      rintro ⟨p', s'⟩ ⟨⟨h1, h2⟩, _⟩
      exact ⟨h1, h2, ho⟩
    · have hk := Oneofs.api_law os h.2.1 hd.2.1
        (fun k hk => (h.2.2.2 k (List.mem_append_right _ hk)).1) g hg
      rintro ⟨p, s, o⟩ ⟨hp, hs, ho⟩
      refine Res.Safe_bind.mpr ((hk o ho).mono ?_)
      intro o' ho'
      exact ⟨hp, hs, ho'⟩
theorem Fields.api_law : (fs : Fields) → (idx n : Nat) → fs.WF → idx + fs.nOptional ≤ n →
    ∀ g, fs.Api idx g → FieldsKeep (fs.spec idx) idx (idx + fs.nOptional) n g
  | .nil, _, _, _, _, _, hg => hg.elim
  | .plain num t rest, idx, n, h, hi, f, hf => by
    simp only [Fields.WF] at h
    simp only [Fields.nOptional] at hi
    rcases hf with ⟨g, hg, rfl⟩ | ⟨g, hg, rfl⟩
    · exact onFst_keep (hg.keeps (ElemTy.api_law t h.1) (ElemTy.base t h.1).init_inv)
    · exact onRest_keep_plain (Fields.api_law rest idx n h.2 hi g hg)
  | .optional num t rest, idx, n, h, hi, f, hf => by
    simp only [Fields.WF] at h
    simp only [Fields.nOptional] at hi
    have hb := Fields.base rest (idx + 1) n h.2 (by omega)
    have he : idx + 1 + rest.nOptional = idx + (rest.nOptional + 1) := by omega
    rw [he] at hb
    have hle : idx + (rest.nOptional + 1) ≤ n := by omega
    rcases hf with ⟨g, hg, rfl⟩ | rfl | ⟨g, hg, rfl⟩
    · exact touchOptional_keep hle hb.toFieldsInit (hg.keeps (ElemTy.api_law t h.1) (ElemTy.base t h.1).init_inv)
    · exact clearOptional_keep hle (ElemTy.base t h.1).toInitLaw hb.toFieldsInit
    · have := Fields.api_law rest (idx + 1) n h.2 (by omega) g hg
      rw [he] at this
      exact onRest_keep_optional this
  | .repeated num cap t rest, idx, n, h, hi, f, hf => by
    simp only [Fields.WF] at h
    simp only [Fields.nOptional] at hi
    rcases hf with ⟨g, hg, rfl⟩ | ⟨g, hg, rfl⟩
    · have ha := ElemTy.api_law t h.2.1
      have hbase := ElemTy.base t h.2.1
      refine onFst_keep (hg.keeps ?_ (rep_base hbase).init_inv)
      intro R f hR hf
      rcases hf with hf | hf
      · have hs := ElemTy.rep_safe t cap h.1 h.2.1
        exact commonApi_law (rep_base hbase) hs (rep_des hs) R f hR hf
      · exact repApi_law hbase h.1 (fun z hz => ReachGen.keeps ha hbase.init_inv hz) ha hf
    · exact onRest_keep_plain (Fields.api_law rest idx n h.2.2 hi g hg)
theorem Alts.api_law : (a : Alts) → a.WF → a.numbers.Nodup → ∀ id g, a.Api id g →
    id ∈ a.numbers ∧ AltsKeep a.spec id g
  | .nil, _, _, _, _, hg => hg.elim
  | .cons num t rest, h, hd, id, f, hf => by
    simp only [Alts.WF] at h
    simp only [Alts.numbers, List.nodup_cons] at hd
    rcases hf with ⟨rfl, g, hg, rfl⟩ | ⟨g, hg, rfl⟩
    · exact ⟨List.mem_cons_self, onLeft_keep hd.1 (Alts.base rest h.2 hd.2).toAltsInit
        (hg.keeps (ElemTy.api_law t h.1) (ElemTy.base t h.1).init_inv)⟩
    · obtain ⟨h1, h2⟩ := Alts.api_law rest h.2 hd.2 id g hg
      exact ⟨List.mem_cons_of_mem _ h1, onRight_keep hd.1 h1 h2⟩
theorem Oneofs.api_law : (os : Oneofs) → os.WF → os.numbers.Nodup → (∀ k ∈ os.numbers, 0 < k) →
    ∀ g, os.Api g → Keeps os.spec.Inv g
  | .nil, _, _, _, _, hg => hg.elim
  | .cons a rest, h, hd, hn, f, hf => by
    simp only [Oneofs.WF] at h
    simp only [Oneofs.numbers] at hd hn
    have hd' := List.nodup_append.mp hd
    have h0 : 0 ∉ a.numbers := fun h0 => absurd (hn 0 (List.mem_append_left _ h0)) (by omega)
    have hb := Alts.base a h.1 hd'.1
    rcases hf with ⟨id, g, hg, rfl⟩ | ⟨id, _, rfl⟩ | ⟨g, hg, rfl⟩
    · obtain ⟨h1, h2⟩ := Alts.api_law a h.1 hd'.1 id g hg
      rintro ⟨o, t⟩ ⟨ho, ht⟩
      refine Res.Safe_bind.mpr ((touchMember_keep hb.toAltsInit h0 h1 h2 o ho).mono ?_)
      intro o' ho'; exact ⟨ho', ht⟩
    · rintro ⟨o, t⟩ ⟨ho, ht⟩
      refine Res.Safe_bind.mpr ((clearMember_keep hb.toAltsInit h0 id o ho).mono ?_)
      intro o' ho'; exact ⟨ho', ht⟩
    · have := Oneofs.api_law rest h.2 hd'.2.1 (fun k hk => hn k (List.mem_append_right _ hk)) g hg
      rintro ⟨o, t⟩ ⟨ho, ht⟩
      refine Res.Safe_bind.mpr ((this t ht).mono ?_)
      intro t' ht'; exact ⟨ho, ht'⟩
end

/-- Reachable objects satisfy the class invariant. -/
theorem ElemTy.reach_inv (t : ElemTy) (h : t.WF) {x : t.cls.State} (hx : t.Reach x) : t.Inv x :=
  ReachGen.keeps (t.api_law h) (t.base h).init_inv hx

end EP
