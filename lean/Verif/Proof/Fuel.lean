import Verif.Proof.ReadSim

/-!
# More fuel does not change a result

`fuel` bounds the number of iterations of the loops of the model.  A run that ends gives the same
result with more fuel.
-/

namespace EP

/-- If the first run has a result, it is also that of the second. -/
def Res.Le {α : Type} (r r' : Res α) : Prop := ∀ a, r = .ok a → r' = .ok a

theorem Res.Le.refl {α : Type} (r : Res α) : r.Le r := fun _ h => h

theorem Res.Le.bind {α γ : Type} {r r' : Res α} {f f' : α → Res γ} (h : r.Le r')
    (hf : ∀ a, (f a).Le (f' a)) : (r >>= f).Le (r' >>= f') := by
  intro c hc
  cases r with
  | ok a =>
    rw [h a rfl]
    exact hf a c hc
  | ub => exact nomatch hc
  | diverge => exact nomatch hc

structure FuelLaw (C : FieldClass) : Prop where
  des : ∀ {β : Type} [ReadBuffer β] (fuel fuel' : Nat) (b : β) (x : C.State), fuel ≤ fuel' →
    (C.deserialize fuel b x).Le (C.deserialize fuel' b x)
  check : ∀ {β : Type} [ReadBuffer β] (fuel fuel' : Nat) (b : β) (wt : WireType) (x : C.State),
    fuel ≤ fuel' → (C.deserializeCheckType fuel b wt x).Le (C.deserializeCheckType fuel' b wt x)

theorem scalar_fuel (s : ScalarTy) : FuelLaw (scalarClass s) :=
  ⟨fun _ _ _ _ _ => .refl _, fun _ _ _ _ _ _ => .refl _⟩

theorem str_fuel (cap : Nat) : FuelLaw (strClass cap) :=
  ⟨fun _ _ _ _ _ => .refl _, fun _ _ _ _ _ _ => .refl _⟩

theorem rep_fuel {E : FieldClass} (hE : FuelLaw E) (cap : Nat) : FuelLaw (repeatedClass E cap) := by
  have loop : ∀ {β : Type} [ReadBuffer β] (fuel fuel' : Nat), fuel ≤ fuel' → ∀ (k k' : Nat) (e : Error)
      (v : E.State) (b : β) (x : RepObj E.State), k ≤ k' →
      (RepObj.deserializePackedLoop cap fuel k e v b x).Le
        (RepObj.deserializePackedLoop cap fuel' k' e v b x) := by
    intro β _ fuel fuel' hf k
    induction k with
    | zero => exact fun _ _ _ _ _ _ _ h => nomatch h
    | succ k ih =>
      intro k' e v b x hk
      obtain ⟨j, rfl⟩ : ∃ j, k' = j + 1 := ⟨k' - 1, by omega⟩
      unfold RepObj.deserializePackedLoop
      split
      · refine (Res.Le.refl (RepObj.add cap x v)).bind ?_
        rintro ⟨e', x'⟩
        dsimp only
        split
        · refine (hE.des fuel fuel' b v hf).bind ?_
          rintro ⟨e1, b', v1⟩
          exact ih _ _ _ _ _ (by omega)
        · exact .refl _
      · exact .refl _
  have packed : ∀ {β : Type} [ReadBuffer β] (fuel fuel' : Nat) (b : β) (x : RepObj E.State),
      fuel ≤ fuel' →
      (RepObj.deserializePacked cap fuel b x).Le (RepObj.deserializePacked cap fuel' b x) := by
    intro β _ fuel fuel' b x hf
    unfold RepObj.deserializePacked
    refine (Res.Le.refl _).bind ?_
    rintro ⟨r, b'⟩
    refine (hE.des fuel fuel' _ E.init hf).bind ?_
    rintro ⟨e1, b1, v1⟩
    refine (loop fuel fuel' hf fuel fuel' e1 v1 b1 x hf).bind ?_
    rintro ⟨e3, b2, x3⟩
    exact .refl _
  have elem : ∀ {β : Type} [ReadBuffer β] (fuel fuel' i : Nat) (b : β) (x : RepObj E.State),
      fuel ≤ fuel' →
      (RepObj.deserializeElem cap fuel i b x).Le (RepObj.deserializeElem cap fuel' i b x) := by
    intro β _ fuel fuel' i b x hf
    unfold RepObj.deserializeElem
    dsimp only
    refine (Res.Le.refl _).bind ?_
    intro v
    refine (hE.des fuel fuel' b v hf).bind ?_
    rintro ⟨e1, b1, v1⟩
    exact .refl _
  have unpacked : ∀ {β : Type} [ReadBuffer β] (fuel fuel' : Nat) (b : β) (x : RepObj E.State),
      fuel ≤ fuel' →
      (RepObj.deserializeUnpacked cap fuel b x).Le (RepObj.deserializeUnpacked cap fuel' b x) := by
    intro β _ fuel fuel' b x hf
    unfold RepObj.deserializeUnpacked
    dsimp only
    split
    · split
      · refine (Res.Le.refl _).bind ?_
        rintro ⟨r, b'⟩
        cases r with
        | error e => exact .refl _
        | ok v =>
          refine (elem fuel fuel' _ _ x hf).bind ?_
          rintro ⟨e1, b1, v1⟩
          exact .refl _
      · exact elem fuel fuel' _ _ x hf
    · exact .refl _
  have key : ∀ {β : Type} [ReadBuffer β] (fuel fuel' : Nat) (b : β) (x : RepObj E.State),
      fuel ≤ fuel' → (RepObj.deserialize cap fuel b x).Le (RepObj.deserialize cap fuel' b x) := by
    intro β _ fuel fuel' b x hf
    unfold RepObj.deserialize
    split
    · exact packed fuel fuel' b x hf
    · exact unpacked fuel fuel' b x hf
  refine ⟨fun fuel fuel' b x hf => key fuel fuel' b x hf, fun fuel fuel' b wt x hf => ?_⟩
  show Res.Le (if wt = .lengthDelimited then RepObj.deserialize cap fuel b x else pure (.invalidWiretype, b, x) : Res _)
    (if wt = .lengthDelimited then RepObj.deserialize cap fuel' b x else pure (.invalidWiretype, b, x) : Res _)
  split
  · exact key fuel fuel' b x hf
  · exact .refl _

/-- Both absent, or the same result with more fuel. -/
def OLe {α : Type} (r r' : Option (Res α)) : Prop :=
  match r, r' with
  | none, none => True
  | some r, some r' => r.Le r'
  | _, _ => False

theorem OLe.map {α γ : Type} {r r' : Option (Res α)} (f : Res α → Res γ)
    (hf : ∀ r r' : Res α, r.Le r' → (f r).Le (f r')) (h : OLe r r') : OLe (r.map f) (r'.map f) := by
  match r, r', h with
  | none, none, _ => trivial
  | some r, some r', h => exact hf r r' h

def FieldsFuel (F : FieldsClass) : Prop :=
  ∀ {β : Type} [ReadBuffer β] (fuel fuel' id : Nat) (wt : WireType) (b : β) (p : Presence) (x : F.State),
    fuel ≤ fuel' → OLe (F.dispatch fuel id wt b p x) (F.dispatch fuel' id wt b p x)

theorem fieldsFuel_plain {C : FieldClass} {F : FieldsClass} (num : Nat) (h₁ : FuelLaw C) (h₂ : FieldsFuel F) :
    FieldsFuel (.plain num C F) := by
  intro β _ fuel fuel' id wt b p x hf
  simp only [FieldsClass.plain]
  split
  · exact (h₁.check fuel fuel' b wt x.1 hf).bind fun _ => .refl _
  · have ih := h₂ fuel fuel' id wt b p x.2 hf
    revert ih
    generalize F.dispatch fuel id wt b p x.2 = r₁
    generalize F.dispatch fuel' id wt b p x.2 = r₂
    intro ih
    match r₁, r₂, ih with
    | none, none, _ => trivial
    | some r₁, some r₂, ih => exact Res.Le.bind ih fun _ => .refl _

theorem fieldsFuel_optional {C : FieldClass} {F : FieldsClass} (num idx : Nat) (h₁ : FuelLaw C)
    (h₂ : FieldsFuel F) : FieldsFuel (.optional num idx C F) := by
  intro β _ fuel fuel' id wt b p x hf
  simp only [FieldsClass.optional]
  split
  · exact (Res.Le.refl _).bind fun _ => (h₁.check fuel fuel' b wt x.1 hf).bind fun _ => .refl _
  · have ih := h₂ fuel fuel' id wt b p x.2 hf
    revert ih
    generalize F.dispatch fuel id wt b p x.2 = r₁
    generalize F.dispatch fuel' id wt b p x.2 = r₂
    intro ih
    match r₁, r₂, ih with
    | none, none, _ => trivial
    | some r₁, some r₂, ih => exact Res.Le.bind ih fun _ => .refl _

def AltsFuel (A : AltsClass) : Prop :=
  ∀ {β : Type} [ReadBuffer β] (fuel fuel' id : Nat) (wt : WireType) (b : β) (u : Option A.U),
    fuel ≤ fuel' → (A.deserialize fuel id b wt u).Le (A.deserialize fuel' id b wt u)

theorem altsFuel_cons {C : FieldClass} {A : AltsClass} (num : Nat) (h₁ : FuelLaw C) (h₂ : AltsFuel A) :
    AltsFuel (.cons num C A) := by
  intro β _ fuel fuel' id wt b u hf
  simp only [AltsClass.cons]
  split
  · exact (Res.Le.refl _).bind fun x => (h₁.check fuel fuel' b wt x hf).bind fun _ => .refl _
  · exact (h₂ fuel fuel' id wt b _ hf).bind fun _ => .refl _

theorem AltsFuel.obj {A : AltsClass} (hA : AltsFuel A) {β : Type} [ReadBuffer β] (fuel fuel' id : Nat)
    (wt : WireType) (b : β) (o : OneofObj A.U) (hf : fuel ≤ fuel') :
    (A.deserializeObj fuel id b wt o).Le (A.deserializeObj fuel' id b wt o) := by
  unfold AltsClass.deserializeObj
  exact (Res.Le.refl _).bind fun _ => (hA fuel fuel' _ wt b _ hf).bind fun _ => .refl _

def OneofsFuel (O : OneofsClass) : Prop :=
  ∀ {β : Type} [ReadBuffer β] (fuel fuel' id : Nat) (wt : WireType) (b : β) (x : O.State),
    fuel ≤ fuel' → OLe (O.dispatch fuel id wt b x) (O.dispatch fuel' id wt b x)

theorem oneofsFuel_cons {A : AltsClass} {O : OneofsClass} (h₁ : AltsFuel A) (h₂ : OneofsFuel O) :
    OneofsFuel (.cons A O) := by
  intro β _ fuel fuel' id wt b x hf
  simp only [OneofsClass.cons]
  split
  · exact (h₁.obj fuel fuel' id wt b x.1 hf).bind fun _ => .refl _
  · have ih := h₂ fuel fuel' id wt b x.2 hf
    revert ih
    generalize O.dispatch fuel id wt b x.2 = r₁
    generalize O.dispatch fuel' id wt b x.2 = r₂
    intro ih
    match r₁, r₂, ih with
    | none, none, _ => trivial
    | some r₁, some r₂, ih => exact Res.Le.bind ih fun _ => .refl _

theorem step_fuel {F : FieldsClass} {O : OneofsClass} (h₁ : FieldsFuel F) (h₂ : OneofsFuel O)
    {β : Type} [ReadBuffer β] (fuel fuel' id : Nat) (wt : WireType)
    (b : β) (x : MsgObj F.State O.State) (hf : fuel ≤ fuel') :
    (MsgObj.step F O fuel id wt b x).Le (MsgObj.step F O fuel' id wt b x) := by
  unfold MsgObj.step
  have i₁ := h₁ fuel fuel' id wt b x.presence x.fields hf
  have i₂ := h₂ fuel fuel' id wt b x.oneofs hf
  revert i₁ i₂
  generalize F.dispatch fuel id wt b x.presence x.fields = r₁
  generalize F.dispatch fuel' id wt b x.presence x.fields = r₂
  generalize O.dispatch fuel id wt b x.oneofs = q₁
  generalize O.dispatch fuel' id wt b x.oneofs = q₂
  intro i₁ i₂
  match r₁, r₂, i₁ with
  | some r₁, some r₂, ih => exact Res.Le.bind ih fun _ => .refl _
  | none, none, _ =>
    match q₁, q₂, i₂ with
    | some r₁, some r₂, ih => exact Res.Le.bind ih fun _ => .refl _
    | none, none, _ => exact .refl _

theorem tagLoop_fuel {σ β : Type} [ReadBuffer β] {f g : Nat → WireType → β → σ → Res (Error × β × σ)}
    (hs : ∀ id wt b x, (f id wt b x).Le (g id wt b x)) (k k' : Nat) (b : β)
    (x : σ) (hk : k ≤ k') : (tagLoop f k b x).Le (tagLoop g k' b x) := by
  induction k generalizing k' b x with
  | zero => exact fun _ h => nomatch h
  | succ k ih =>
    obtain ⟨j, rfl⟩ : ∃ j, k' = j + 1 := ⟨k' - 1, by omega⟩
    unfold tagLoop
    refine (Res.Le.refl _).bind ?_
    rintro ⟨r, b'⟩
    cases r with
    | error e => exact .refl _
    | ok v =>
      refine (hs v.2 v.1 b' x).bind ?_
      rintro ⟨e1, b1, v1⟩
      dsimp only
      split
      · exact ih _ _ _ (by omega)
      · exact .refl _

theorem msg_fuel {F : FieldsClass} {O : OneofsClass} (n : Nat) (h₁ : FieldsFuel F) (h₂ : OneofsFuel O) :
    FuelLaw (messageClass n F O) := by
  have key : ∀ {β : Type} [ReadBuffer β] (fuel fuel' : Nat) (b : β) (x : MsgObj F.State O.State),
      fuel ≤ fuel' → (MsgObj.deserialize F O fuel b x).Le (MsgObj.deserialize F O fuel' b x) := by
    intro β _ fuel fuel' b x hf
    exact tagLoop_fuel (fun id wt b x => step_fuel h₁ h₂ fuel fuel' id wt b x hf) fuel fuel' b x hf
  refine ⟨fun fuel fuel' b x hf => key fuel fuel' b x hf, fun fuel fuel' b wt x hf => ?_⟩
  show Res.Le (MsgObj.deserializeCheckType F O fuel b wt x) (MsgObj.deserializeCheckType F O fuel' b wt x)
  unfold MsgObj.deserializeCheckType
  split
  · refine (Res.Le.refl _).bind ?_
    rintro ⟨r, b'⟩
    cases r with
    | error e => exact .refl _
    | ok v => exact (key fuel fuel' _ x hf).bind fun _ => .refl _
  · exact .refl _

mutual
theorem ElemTy.fuel_law : (t : ElemTy) → FuelLaw t.cls
  | .scalar s => scalar_fuel s
  | .str cap => str_fuel cap
  | .msg fs os => msg_fuel _ (Fields.fuel_law fs 0) (Oneofs.fuel_law os)
theorem Fields.fuel_law : (fs : Fields) → (idx : Nat) → FieldsFuel (fs.cls idx)
  | .nil, _ => fun _ _ _ _ _ _ _ _ => trivial
  | .plain num t rest, idx => fieldsFuel_plain num (ElemTy.fuel_law t) (Fields.fuel_law rest idx)
  | .optional num t rest, idx =>
    fieldsFuel_optional num idx (ElemTy.fuel_law t) (Fields.fuel_law rest (idx + 1))
  | .repeated num cap t rest, idx =>
    fieldsFuel_plain num (rep_fuel (ElemTy.fuel_law t) cap) (Fields.fuel_law rest idx)
theorem Alts.fuel_law : (a : Alts) → AltsFuel a.cls
  | .nil => fun _ _ _ _ _ _ _ => .refl _
  | .cons num t rest => altsFuel_cons num (ElemTy.fuel_law t) (Alts.fuel_law rest)
theorem Oneofs.fuel_law : (os : Oneofs) → OneofsFuel os.cls
  | .nil => fun _ _ _ _ _ _ _ => trivial
  | .cons a rest => oneofsFuel_cons (Alts.fuel_law a) (Oneofs.fuel_law rest)
end

end EP
