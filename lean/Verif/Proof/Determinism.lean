import Verif.Proof.EncMessage

/-!
# Serialization reads only the observable value

Two objects with the same observable value make exactly the same calls on the buffer.  Moreover a
class without string fields never uses the bulk `push`; both facts are proved together by comparing
runs on two implementations of the buffer functions that agree on what the class uses.
-/

namespace EP
open Spec

variable {ω V W : Type}

/-- Two implementations of the write buffer functions on the same type agree on single byte push
and available size, and, if `bulk`, on the bulk push. -/
structure Agree (i₁ i₂ : WriteBuffer ω) (bulk : Bool) : Prop where
  push : i₁.push = i₂.push
  avail : i₁.getAvailableSize = i₂.getAvailableSize
  bytes : bulk = true → i₁.pushBytes = i₂.pushBytes

theorem Agree.refl (i : WriteBuffer ω) (bulk : Bool) : Agree i i bulk := ⟨rfl, rfl, fun _ => rfl⟩

theorem Agree.mono {i₁ i₂ : WriteBuffer ω} {b b' : Bool} (h : Agree i₁ i₂ b)
    (hb : b' = true → b = true) : Agree i₁ i₂ b' := ⟨h.push, h.avail, fun h' => h.bytes (hb h')⟩

section Wire
variable {i₁ i₂ : WriteBuffer ω} {bulk : Bool} (h : Agree i₁ i₂ bulk)
include h

theorem Agree.varintLoop {n : Nat} (k : Nat) (v : BitVec n) (b : ω) :
    @serializeVarintLoop ω i₁ n k v b = @serializeVarintLoop ω i₂ n k v b := by
  induction k generalizing v b with
  | zero => rfl
  | succ k ih => simp only [serializeVarintLoop, h.push, ih]

theorem Agree.varint {n : Nat} (v : BitVec n) (b : ω) :
    @serializeVarint ω i₁ n v b = @serializeVarint ω i₂ n v b := by
  simp only [serializeVarint, h.varintLoop, h.push]

theorem Agree.fixedLoop {n : Nat} (v : BitVec n) (k i : Nat) (b : ω) :
    @serializeFixedLoop ω i₁ n v k i b = @serializeFixedLoop ω i₂ n v k i b := by
  induction k generalizing i b with
  | zero => rfl
  | succ k ih => simp only [serializeFixedLoop, h.push, ih]

theorem Agree.fixed {n : Nat} (v : BitVec n) (b : ω) :
    @serializeFixed ω i₁ n v b = @serializeFixed ω i₂ n v b := by
  simp only [serializeFixed, h.fixedLoop]

theorem Agree.scalar (s : ScalarTy) (v : s.Val) (b : ω) :
    @ScalarTy.serialize ω i₁ s v b = @ScalarTy.serialize ω i₂ s v b := by
  cases s <;> simp only [ScalarTy.serialize, h.varint, h.fixed, h.push]

end Wire

/-- Serialization depends only on the observable value, and on the bulk push only if `bulk`. -/
structure DetLaw (C : FieldClass) (S : ClassSpec C V) (bulk : Bool) : Prop where
  ser : ∀ {ω : Type} {i₁ i₂ : WriteBuffer ω}, Agree i₁ i₂ bulk → ∀ (x y : C.State) (w : ω),
    S.Inv x → S.Inv y → S.abs x = S.abs y → @C.serialize ω i₁ x w = @C.serialize ω i₂ y w
  withId : ∀ {ω : Type} {i₁ i₂ : WriteBuffer ω}, Agree i₁ i₂ bulk →
    ∀ (num : Nat) (opt : Bool) (x y : C.State) (w : ω),
    S.Inv x → S.Inv y → S.abs x = S.abs y →
      @C.serializeWithId ω i₁ num x w opt = @C.serializeWithId ω i₂ num y w opt
  guard : ∀ x y : C.State, S.abs x = S.abs y → C.plainGuard x = C.plainGuard y

theorem DetLaw.size {C : FieldClass} {S : ClassSpec C V} {bulk : Bool} (h : DetLaw C S bulk)
    (x y : C.State) (hx : S.Inv x) (hy : S.Inv y) (he : S.abs x = S.abs y) :
    C.serializedSize x = C.serializedSize y := by
  simp only [FieldClass.serializedSize, h.ser (Agree.refl _ bulk) x y _ hx hy he]

theorem scalar_det (s : ScalarTy) : DetLaw (scalarClass s) (scalarSpec s) false where
  ser := by
    rintro ω i₁ i₂ h x y w _ _ rfl
    exact h.scalar s x w
  withId := by
    intro ω i₁ i₂ h num opt (x : s.Val) y w _ _ he
    cases (show x = y from he)
    have k := fun w => h.scalar s x w
    simp only [scalarClass, h.varint, k]
  guard := by rintro x y rfl; rfl

theorem str_det (cap : Nat) : DetLaw (strClass cap) (strSpec cap) true := by
  have key : ∀ x y : StrObj, x.WF cap → y.WF cap → x.chars = y.chars → x.len = y.len := by
    rintro ⟨l, d⟩ ⟨l', d'⟩ ⟨h1, h2⟩ ⟨h3, h4⟩ h
    have := congrArg List.length h
    simp only [StrObj.chars, List.length_take] at this
    dsimp only at *
    omega
  have ser : ∀ {ω : Type} {i₁ i₂ : WriteBuffer ω}, Agree i₁ i₂ true → ∀ (x y : StrObj) (w : ω),
      x.WF cap → y.WF cap → x.chars = y.chars →
        @StrObj.serialize ω i₁ x w = @StrObj.serialize ω i₂ y w := by
    intro ω i₁ i₂ h x y w hx hy he
    have hl := key x y hx hy he
    unfold StrObj.chars at he
    rw [hl] at he
    simp only [StrObj.serialize, hx.1, hy.1, he, hl, h.bytes rfl]
  refine ⟨fun h x y w hx hy he => ser h x y w hx hy he, ?_, fun _ _ _ => rfl⟩
  intro ω i₁ i₂ h num opt x y w hx hy he
  have hl := key x y hx hy he
  show @StrObj.serializeWithId ω i₁ num x w opt = @StrObj.serializeWithId ω i₂ num y w opt
  simp only [StrObj.serializeWithId, h.varint, h.avail, hl]
  have := fun w => ser h x y w hx hy he
  simp only [this]

section Rep
variable {E : FieldClass} {S : ClassSpec E V} {bulk : Bool} {cap : Nat}

theorem rep_get (hcap : cap < 2147483648) (x y : RepObj E.State)
    (hx : (repSpec S cap).Inv x) (hy : (repSpec S cap).Inv y)
    (he : (repSpec S cap).abs x = (repSpec S cap).abs y) :
    x.len = y.len ∧ ∀ i, i < x.len → ∃ a b, x.getConst cap i = .ok a ∧ y.getConst cap i = .ok b ∧
      S.Inv a ∧ S.Inv b ∧ S.abs a = S.abs b := by
  obtain ⟨hx1, hx2, hx3⟩ := hx
  obtain ⟨hy1, hy2, hy3⟩ := hy
  have he' : x.elems.map S.abs = y.elems.map S.abs := he
  have hl : x.len = y.len := by
    have := congrArg List.length he'
    simp only [List.length_map, RepObj.elems, List.length_take] at this
    omega
  refine ⟨hl, fun i hi => ?_⟩
  obtain ⟨h1, e1⟩ := RepObj.getConst_eq x i hx1 hx2 hi hcap
  obtain ⟨h2, e2⟩ := RepObj.getConst_eq y i hy1 hy2 (hl ▸ hi) hcap
  refine ⟨_, _, e1, e2, hx3 _ (List.getElem_mem _), hy3 _ (List.getElem_mem _), ?_⟩
  have h3 := congrArg (fun l => l[i]?) he'
  simp only [RepObj.elems, List.getElem?_map, List.getElem?_take, hi, hl ▸ hi, ↓reduceIte,
    List.getElem?_eq_getElem h1, List.getElem?_eq_getElem h2, Option.map_some, Option.some.injEq] at h3
  exact h3

theorem rep_det (hE : DetLaw E S bulk) (hcap : cap < 2147483648) :
    DetLaw (repeatedClass E cap) (repSpec S cap) bulk := by
  have packed : ∀ {ω : Type} {i₁ i₂ : WriteBuffer ω}, Agree i₁ i₂ bulk →
      ∀ (x y : RepObj E.State), (repSpec S cap).Inv x → (repSpec S cap).Inv y →
      (repSpec S cap).abs x = (repSpec S cap).abs y → ∀ (n i : Nat) (w : ω), i + n = x.len →
      @RepObj.serializePackedLoop ω E cap i₁ x n i w = @RepObj.serializePackedLoop ω E cap i₂ y n i w := by
    intro ω i₁ i₂ h x y hx hy he n
    obtain ⟨hl, hg⟩ := rep_get hcap x y hx hy he
    induction n with
    | zero => intros; rfl
    | succ n ih =>
      intro i w hi
      obtain ⟨a, b, ha, hb, ia, ib, hab⟩ := hg i (by omega)
      simp only [RepObj.serializePackedLoop, ha, hb, Res.ok_bind, hE.ser h a b w ia ib hab]
      simp only [ih (i + 1) _ (by omega)]
  have unpacked : ∀ {ω : Type} {i₁ i₂ : WriteBuffer ω}, Agree i₁ i₂ bulk →
      ∀ (num : Nat) (x y : RepObj E.State), (repSpec S cap).Inv x → (repSpec S cap).Inv y →
      (repSpec S cap).abs x = (repSpec S cap).abs y → ∀ (n i : Nat) (w : ω), i + n = x.len →
      @RepObj.serializeUnpackedLoop ω E cap i₁ num x n i w
        = @RepObj.serializeUnpackedLoop ω E cap i₂ num y n i w := by
    intro ω i₁ i₂ h num x y hx hy he n
    obtain ⟨hl, hg⟩ := rep_get hcap x y hx hy he
    induction n with
    | zero => intros; rfl
    | succ n ih =>
      intro i w hi
      obtain ⟨a, b, ha, hb, ia, ib, hab⟩ := hg i (by omega)
      simp only [RepObj.serializeUnpackedLoop, ha, hb, Res.ok_bind, hE.size a b ia ib hab, h.varint]
      have := fun w => hE.ser h a b w ia ib hab
      simp only [this, ih (i + 1) _ (by omega)]
  refine ⟨fun _ _ _ _ _ _ _ => rfl, ?_, fun _ _ _ => rfl⟩
  intro ω i₁ i₂ h num opt x y w hx hy he
  have hl := (rep_get hcap x y hx hy he).1
  show @RepObj.serializeWithId ω E cap i₁ num x w opt = @RepObj.serializeWithId ω E cap i₂ num y w opt
  have p1 := packed (Agree.refl inferInstance bulk) x y hx hy he x.len 0 (⟨0⟩ : SizeCalc) (by omega)
  have p2 := fun w => packed h x y hx hy he x.len 0 w (by omega)
  have u1 := unpacked (Agree.refl inferInstance bulk) num x y hx hy he x.len 0 (⟨0⟩ : SizeCalc) (by omega)
  have u2 := fun w => unpacked h num x y hx hy he x.len 0 w (by omega)
  rw [hl] at p1 u1
  simp only [hl] at p2 u2
  simp only [RepObj.serializeWithId, RepObj.serializedSizePacked, RepObj.serializedSizeUnpacked,
    RepObj.serializePacked, RepObj.serializeUnpacked, h.varint, h.avail, hl, p1, p2, u1, u2]

end Rep

/-! ## Messages -/

structure FieldsDet (F : FieldsClass) (S : FieldsSpec F V) (n : Nat) (bulk : Bool) : Prop where
  ser : ∀ {ω : Type} {i₁ i₂ : WriteBuffer ω}, Agree i₁ i₂ bulk →
    ∀ (p q : Presence) (s t : F.State) (e : Error) (w : ω), Presence.WF n p → Presence.WF n q →
    S.Inv p.bit s → S.Inv q.bit t → S.abs p.bit s = S.abs q.bit t →
    @F.serialize ω i₁ p s e w = @F.serialize ω i₂ q t e w

theorem fieldsDet_nil (n : Nat) (bulk : Bool) : FieldsDet .nil .nil n bulk :=
  ⟨fun _ _ _ _ _ _ _ _ _ _ _ _ => rfl⟩

theorem fieldsDet_plain {C : FieldClass} {F : FieldsClass} {S : ClassSpec C V} {R : FieldsSpec F W}
    {n num : Nat} {b b' : Bool} (h₁ : DetLaw C S b) (h₂ : FieldsDet F R n b') :
    FieldsDet (.plain num C F) (.plain num S R) n (b || b') := by
  refine ⟨fun h p q s t e w hp hq is it he => ?_⟩
  have he1 : S.abs s.1 = S.abs t.1 := congrArg Prod.fst he
  have he2 : R.abs p.bit s.2 = R.abs q.bit t.2 := congrArg Prod.snd he
  have k1 := fun w => h₁.withId (h.mono (by simp +contextual)) num false s.1 t.1 w is.1 it.1 he1
  have k2 := fun e w => h₂.ser (h.mono (by simp +contextual)) p q s.2 t.2 e w hp hq is.2 it.2 he2
  simp only [FieldsClass.plain, h₁.guard s.1 t.1 he1, k1, k2]

theorem fieldsDet_optional {C : FieldClass} {F : FieldsClass} {S : ClassSpec C V} {R : FieldsSpec F W}
    {n num idx : Nat} (hidx : idx < n) {b b' : Bool} (h₁ : DetLaw C S b) (h₂ : FieldsDet F R n b') :
    FieldsDet (.optional num idx C F) (.optional num idx S R) n (b || b') := by
  refine ⟨fun h p q s t e w hp hq is it he => ?_⟩
  have he1 : (if p.bit idx then some (S.abs s.1) else none) =
      (if q.bit idx then some (S.abs t.1) else none) := congrArg Prod.fst he
  have he2 : R.abs p.bit s.2 = R.abs q.bit t.2 := congrArg Prod.snd he
  have k2 := fun e w => h₂.ser (h.mono (by simp +contextual)) p q s.2 t.2 e w hp hq is.2 it.2 he2
  simp only [FieldsClass.optional, Presence.has_eq hp hidx, Presence.has_eq hq hidx, Res.ok_bind, k2]
  cases hb : p.bit idx <;> cases hb' : q.bit idx <;> simp only [hb, hb', Bool.false_eq_true, ↓reduceIte, reduceCtorEq, Option.some.injEq] at he1
  · rfl
  · have k1 := fun w => h₁.withId (h.mono (by simp +contextual)) num true s.1 t.1 w is.1.1 it.1.1 he1
    simp only [k1]

structure AltsDet (A : AltsClass) (S : AltsSpec A V) (nums : List Nat) (bulk : Bool) : Prop where
  ser : ∀ {ω : Type} {i₁ i₂ : WriteBuffer ω}, Agree i₁ i₂ bulk → ∀ (u v : A.U) (e : Error) (w : ω),
    S.Inv u → S.Inv v → S.abs u = S.abs v → S.num u = S.num v ∧
    @A.serialize ω i₁ (S.num u) (some u) e w = @A.serialize ω i₂ (S.num v) (some v) e w

theorem altsDet_nil (bulk : Bool) : AltsDet .nil .nil [] bulk := ⟨fun _ u => nomatch u⟩

theorem altsDet_cons {C : FieldClass} {A : AltsClass} {S : ClassSpec C V} {R : AltsSpec A W}
    {num : Nat} {nums : List Nat} (hnum : num ∉ nums) (hmem : ∀ u, R.num u ∈ nums) {b b' : Bool}
    (h₁ : DetLaw C S b) (h₂ : AltsDet A R nums b') :
    AltsDet (.cons num C A) (.cons num S R) (num :: nums) (b || b') := by
  refine ⟨fun h u v e w iu iv he => ?_⟩
  cases u with
  | inl x =>
    cases v with
    | inl y =>
      have he : S.abs x = S.abs y := Sum.inl.inj he
      have k1 := fun w => h₁.withId (h.mono (by simp +contextual)) num true x y w iu iv he
      refine ⟨rfl, ?_⟩
      simp only [AltsClass.cons, AltsSpec.cons, ↓reduceIte, AltsClass.left?, AltsClass.access,
        Res.ok_bind, k1]
    | inr v => exact nomatch he
  | inr u =>
    cases v with
    | inl y => exact nomatch he
    | inr v =>
      have he : R.abs u = R.abs v := Sum.inr.inj he
      obtain ⟨k1, k2⟩ := h₂.ser (h.mono (by simp +contextual)) u v e w iu iv he
      have hu : R.num u ≠ num := fun h => hnum (h ▸ hmem u)
      have hv : R.num v ≠ num := fun h => hnum (h ▸ hmem v)
      refine ⟨k1, ?_⟩
      simp only [AltsClass.cons, AltsSpec.cons, hu, hv, ↓reduceIte, AltsClass.right?]
      exact k2

structure OneofsDet (O : OneofsClass) (S : OneofsSpec O V) (bulk : Bool) : Prop where
  ser : ∀ {ω : Type} {i₁ i₂ : WriteBuffer ω}, Agree i₁ i₂ bulk → ∀ (s t : O.State) (e : Error) (w : ω),
    S.Inv s → S.Inv t → S.abs s = S.abs t → @O.serialize ω i₁ s e w = @O.serialize ω i₂ t e w

theorem oneofsDet_nil (bulk : Bool) : OneofsDet .nil .nil bulk := ⟨fun _ _ _ _ _ _ _ _ => rfl⟩

theorem oneofsDet_cons {A : AltsClass} {O : OneofsClass} {S : AltsSpec A V} {R : OneofsSpec O W}
    {nums : List Nat} {enc : V → List Byte} {txt : V → Bool} (h0 : 0 ∉ nums) (hA : AltsEnc A S nums enc txt) {b b' : Bool}
    (h₁ : AltsDet A S nums b) (h₂ : OneofsDet O R b') :
    OneofsDet (.cons A O) (.cons S R) (b || b') := by
  refine ⟨fun {ω i₁ i₂} h s t e w is it he => ?_⟩
  obtain ⟨⟨which, live⟩, s⟩ := s
  obtain ⟨⟨which', live'⟩, t⟩ := t
  have he1 : live.map S.abs = live'.map S.abs := congrArg Prod.fst he
  have he2 : R.abs s = R.abs t := congrArg Prod.snd he
  have k2 := fun e w => h₂.ser (h.mono (by simp +contextual)) s t e w is.2 it.2 he2
  have k1 : @A.serialize ω i₁ which live e w = @A.serialize ω i₂ which' live' e w := by
    cases live with
    | none =>
      cases live' with
      | none =>
        have e1 : which = 0 := is.1
        have e2 : which' = 0 := it.1
        subst e1 e2
        exact (@AltsEnc.none _ _ _ _ _ _ hA ω i₁ 0 none e w h0).trans
          (@AltsEnc.none _ _ _ _ _ _ hA ω i₂ 0 none e w h0).symm
      | some v => exact nomatch he1
    | some u =>
      cases live' with
      | none => exact nomatch he1
      | some v =>
        have e1 : which = S.num u := is.1.1
        have e2 : which' = S.num v := it.1.1
        subst e1 e2
        exact (h₁.ser (h.mono (by simp +contextual)) u v e w is.1.2 it.1.2 (Option.some.inj he1)).2
  simp only [OneofsClass.cons, k1, k2]

theorem msg_det {F : FieldsClass} {O : OneofsClass} {S : FieldsSpec F V} {R : OneofsSpec O W}
    {n : Nat} {b b' : Bool} (h₁ : FieldsDet F S n b) (h₂ : OneofsDet O R b') :
    DetLaw (messageClass n F O) (msgSpec n S R) (b || b') := by
  have ser : ∀ {ω : Type} {i₁ i₂ : WriteBuffer ω}, Agree i₁ i₂ (b || b') →
      ∀ (x y : MsgObj F.State O.State) (w : ω),
      (msgSpec n S R).Inv x → (msgSpec n S R).Inv y → (msgSpec n S R).abs x = (msgSpec n S R).abs y →
      @MsgObj.serialize ω F O i₁ x w = @MsgObj.serialize ω F O i₂ y w := by
    intro ω i₁ i₂ h x y w hx hy he
    have he1 : S.abs x.presence.bit x.fields = S.abs y.presence.bit y.fields := congrArg Prod.fst he
    have he2 : R.abs x.oneofs = R.abs y.oneofs := congrArg Prod.snd he
    have k1 := fun e w => h₁.ser (h.mono (by simp +contextual)) _ _ _ _ e w hx.1 hy.1 hx.2.1 hy.2.1 he1
    have k2 := fun e w => h₂.ser (h.mono (by simp +contextual)) _ _ e w hx.2.2 hy.2.2 he2
    simp only [MsgObj.serialize, k1, k2]
  refine ⟨fun h x y w hx hy he => ser h x y w hx hy he, ?_, fun _ _ _ => rfl⟩
  intro ω i₁ i₂ h num opt x y w hx hy he
  show @MsgObj.serializeWithId ω F O i₁ num x w opt = @MsgObj.serializeWithId ω F O i₂ num y w opt
  have k1 := fun w => ser h x y w hx hy he
  have k2 := ser (Agree.refl inferInstance (b || b')) x y (⟨0⟩ : SizeCalc) hx hy he
  simp only [MsgObj.serializeWithId, MsgObj.serializedSize, h.varint, h.avail, k1, k2]

mutual
theorem ElemTy.det_law : (t : ElemTy) → t.WF → DetLaw t.cls t.spec t.hasStr
  | .scalar s, _ => scalar_det s
  | .str cap, _ => str_det cap
  | .msg fs os, h => by
    simp only [ElemTy.WF] at h
    have hd := List.nodup_append.mp h.2.2.1
    exact msg_det (Fields.det_law fs 0 fs.nOptional h.1 (by omega))
      (Oneofs.det_law os h.2.1 hd.2.1 (fun k hk => h.2.2.2 k (List.mem_append_right _ hk)))
theorem Fields.det_law : (fs : Fields) → (idx n : Nat) → fs.WF → idx + fs.nOptional ≤ n →
    FieldsDet (fs.cls idx) (fs.spec idx) n fs.hasStr
  | .nil, idx, n, _, _ => fieldsDet_nil n _
  | .plain num t rest, idx, n, h, hi => by
    simp only [Fields.WF] at h
    simp only [Fields.nOptional] at hi
    exact fieldsDet_plain (ElemTy.det_law t h.1) (Fields.det_law rest idx n h.2 hi)
  | .optional num t rest, idx, n, h, hi => by
    simp only [Fields.WF] at h
    simp only [Fields.nOptional] at hi
    exact fieldsDet_optional (by omega) (ElemTy.det_law t h.1)
      (Fields.det_law rest (idx + 1) n h.2 (by omega))
  | .repeated num cap t rest, idx, n, h, hi => by
    simp only [Fields.WF] at h
    simp only [Fields.nOptional] at hi
    exact fieldsDet_plain (rep_det (ElemTy.det_law t h.2.1) h.1)
      (Fields.det_law rest idx n h.2.2 hi)
theorem Alts.det_law : (a : Alts) → a.WF → a.numbers.Nodup → (∀ k ∈ a.numbers, k < 536870912) →
    AltsDet a.cls a.spec a.numbers a.hasStr
  | .nil, _, _, _ => altsDet_nil _
  | .cons num t rest, h, hd, hn => by
    simp only [Alts.WF] at h
    simp only [Alts.numbers, List.nodup_cons] at hd
    simp only [Alts.numbers, List.mem_cons, forall_eq_or_imp] at hn
    exact altsDet_cons hd.1 (Alts.enc_law rest h.2 hd.2 hn.2).num_mem (ElemTy.det_law t h.1)
      (Alts.det_law rest h.2 hd.2 hn.2)
theorem Oneofs.det_law : (os : Oneofs) → os.WF → os.numbers.Nodup →
    (∀ k ∈ os.numbers, 0 < k ∧ k < 536870912) → OneofsDet os.cls os.spec os.hasStr
  | .nil, _, _, _ => oneofsDet_nil _
  | .cons a rest, h, hd, hn => by
    simp only [Oneofs.WF] at h
    simp only [Oneofs.numbers] at hd hn
    have hd' := List.nodup_append.mp hd
    have hk : ∀ k ∈ a.numbers, k < 536870912 := fun k hk => (hn k (List.mem_append_left _ hk)).2
    exact oneofsDet_cons (fun h0 => absurd (hn 0 (List.mem_append_left _ h0)).1 (by omega))
      (Alts.enc_law a h.1 hd'.1 hk) (Alts.det_law a h.1 hd'.1 hk)
      (Oneofs.det_law rest h.2 hd'.2.1 (fun k hk => hn k (List.mem_append_right _ hk)))
end

end EP
