import Verif.Model.Schema

/-!
# The loop bound of the model does not matter

The loops of `deserialize` are run with a bound on their iterations (`fuel`); `diverge` is the outcome when it is used up.
`Proof.Fuel` shows that a result stays; here: a larger bound gives the same outcome, unless the smaller one was used up.
-/

namespace EP

/-- `b` is the outcome `a`, or `a` was cut short. -/
def Res.Upto {α : Type} (a b : Res α) : Prop := a = .diverge ∨ a = b

namespace Res.Upto
variable {α β : Type}

theorem refl (a : Res α) : Upto a a := Or.inr rfl

theorem bind {a b : Res α} {f g : α → Res β} (h : Upto a b) (hf : ∀ x, Upto (f x) (g x)) :
    Upto (a >>= f) (b >>= g) := by
  rcases h with rfl | rfl
  · exact Or.inl rfl
  · cases a with
    | ok x => exact hf x
    | ub => exact Or.inr rfl
    | diverge => exact Or.inl rfl

theorem same {a : Res α} {f g : α → Res β} (hf : ∀ x, Upto (f x) (g x)) : Upto (a >>= f) (a >>= g) := bind (refl a) hf

end Res.Upto

/-- The same for a `switch` in which no label may match. -/
def Option.Upto {α : Type} : Option (Res α) → Option (Res α) → Prop
  | none, none => True
  | some a, some b => Res.Upto a b
  | _, _ => False

theorem Option.Upto.ite {α : Type} {p : Prop} [Decidable p] {a b a' b' : Option (Res α)} (h : Option.Upto a a')
    (h' : Option.Upto b b') : Option.Upto (if p then a else b) (if p then a' else b') := by
  split <;> assumption

theorem Res.Upto.ite {α : Type} {p : Prop} [Decidable p] {a b a' b' : Res α} (h : Res.Upto a a')
    (h' : Res.Upto b b') : Res.Upto (if p then a else b) (if p then a' else b') := by
  split <;> assumption

section
variable {β : Type} [ReadBuffer β]

theorem tagLoop_upto {σ : Type} {f g : Nat → WireType → β → σ → Res (Error × β × σ)}
    (h : ∀ n wt b s, Res.Upto (f n wt b s) (g n wt b s)) : ∀ m n, m ≤ n → ∀ b s, Res.Upto (tagLoop f m b s) (tagLoop g n b s)
  | 0, _, _, _, _ => Or.inl rfl
  | m + 1, 0, hm, _, _ => absurd hm (by omega)
  | m + 1, n + 1, hm, b, s => by
    unfold tagLoop
    refine .same fun r => ?_
    obtain ⟨t, b⟩ := r
    cases t with
    | error e => exact .refl _
    | ok r =>
      refine .bind (h _ _ _ _) fun r => ?_
      obtain ⟨e, b, s⟩ := r
      dsimp only
      by_cases he : e = .noErrors
      · rw [if_pos he, if_pos he]; exact tagLoop_upto h m n (by omega) b s
      · rw [if_neg he, if_neg he]; exact .refl _

end

/-- A class of which the outcome of decoding does not depend on the bound. -/
structure FieldClass.Steady (C : FieldClass) : Prop where
  des : ∀ {β : Type} [ReadBuffer β] {m n : Nat}, m ≤ n → ∀ (b : β) (x : C.State),
    Res.Upto (C.deserialize m b x) (C.deserialize n b x)
  check : ∀ {β : Type} [ReadBuffer β] {m n : Nat}, m ≤ n → ∀ (b : β) (wt : WireType) (x : C.State),
    Res.Upto (C.deserializeCheckType m b wt x) (C.deserializeCheckType n b wt x)

def FieldsClass.Steady (F : FieldsClass) : Prop :=
  ∀ (β : Type) [ReadBuffer β] (m n : Nat), m ≤ n → ∀ (id : Nat) (wt : WireType) (b : β) (p : Presence) (s : F.State),
    Option.Upto (F.dispatch m id wt b p s) (F.dispatch n id wt b p s)

def AltsClass.Steady (A : AltsClass) : Prop :=
  ∀ (β : Type) [ReadBuffer β] (m n : Nat), m ≤ n → ∀ (which : Nat) (b : β) (wt : WireType) (u : Option A.U),
    Res.Upto (A.deserialize m which b wt u) (A.deserialize n which b wt u)

def OneofsClass.Steady (O : OneofsClass) : Prop :=
  ∀ (β : Type) [ReadBuffer β] (m n : Nat), m ≤ n → ∀ (id : Nat) (wt : WireType) (b : β) (s : O.State),
    Option.Upto (O.dispatch m id wt b s) (O.dispatch n id wt b s)

theorem messageClass_steady {k : Nat} {F : FieldsClass} {O : OneofsClass} (hF : F.Steady) (hO : O.Steady) :
    (messageClass k F O).Steady := by
  have hd : ∀ {β : Type} [ReadBuffer β] {m n : Nat}, m ≤ n → ∀ (b : β) (x : MsgObj F.State O.State),
      Res.Upto (x.deserialize F O m b) (x.deserialize F O n b) := by
    intro β _ m n h b x
    refine tagLoop_upto (fun id wt b s => ?_) m n h b x
    have h1 := hF _ _ _ h id wt b s.presence s.fields
    have h2 := hO _ _ _ h id wt b s.oneofs
    unfold MsgObj.step
    revert h1
    generalize F.dispatch m id wt b s.presence s.fields = r1
    generalize F.dispatch n id wt b s.presence s.fields = r2
    intro h1
    match r1, r2, h1 with
    | some a, some a', h1 => exact .bind h1 fun r => .refl _
    | none, none, _ =>
      dsimp only
      revert h2
      generalize O.dispatch m id wt b s.oneofs = r1
      generalize O.dispatch n id wt b s.oneofs = r2
      intro h2
      match r1, r2, h2 with
      | some a, some a', h2 => exact .bind h2 fun r => .refl _
      | none, none, _ => exact .refl _
  refine ⟨hd, fun {β _ m n} h b wt x => ?_⟩
  show Res.Upto (x.deserializeCheckType F O m b wt) (x.deserializeCheckType F O n b wt)
  unfold MsgObj.deserializeCheckType
  by_cases hw : wt = .lengthDelimited
  · rw [if_pos hw, if_pos hw]
    refine .same fun r => ?_
    obtain ⟨v, b⟩ := r
    cases v with
    | error e => exact .refl _
    | ok v => exact .bind (hd h _ _) fun r => .refl _
  · rw [if_neg hw, if_neg hw]; exact .refl _

theorem packedLoop_upto {E : FieldClass} (hE : E.Steady) (cap : Nat) {β : Type} [ReadBuffer β] {m n : Nat} (h : m ≤ n) :
    ∀ k l, k ≤ l → ∀ (e : Error) (v : E.State) (b : β) (x : RepObj E.State),
      Res.Upto (RepObj.deserializePackedLoop cap m k e v b x) (RepObj.deserializePackedLoop cap n l e v b x)
  | 0, _, _, _, _, _, _ => Or.inl rfl
  | k + 1, 0, hk, _, _, _, _ => absurd hk (by omega)
  | k + 1, l + 1, hk, e, v, b, x => by
    unfold RepObj.deserializePackedLoop
    by_cases he : e = .noErrors
    · rw [if_pos he, if_pos he]
      refine .same fun r => ?_
      obtain ⟨e, x⟩ := r
      dsimp only
      by_cases he : e = .noErrors
      · rw [if_pos he, if_pos he]
        exact .bind (hE.des h _ _) fun r => packedLoop_upto hE cap h k l (by omega) _ _ _ _
      · rw [if_neg he, if_neg he]; exact .refl _
    · rw [if_neg he, if_neg he]; exact .refl _

theorem repeatedClass_steady {E : FieldClass} (hE : E.Steady) (cap : Nat) : (repeatedClass E cap).Steady := by
  have elem : ∀ {β : Type} [ReadBuffer β] {m n : Nat}, m ≤ n → ∀ (i : Nat) (b : β) (x : RepObj E.State),
      Res.Upto (RepObj.deserializeElem cap m i b x) (RepObj.deserializeElem cap n i b x) := by
    intro β _ m n h i b x
    unfold RepObj.deserializeElem
    exact .same fun v => .bind (hE.des h _ _) fun r => .refl _
  have hd : ∀ {β : Type} [ReadBuffer β] {m n : Nat}, m ≤ n → ∀ (b : β) (x : RepObj E.State),
      Res.Upto (x.deserialize cap m b) (x.deserialize cap n b) := by
    intro β _ m n h b x
    unfold RepObj.deserialize
    by_cases hp : E.isPacked = true
    · rw [if_pos hp, if_pos hp]
      unfold RepObj.deserializePacked
      refine .same fun r => .bind (hE.des h _ _) fun r => .bind (packedLoop_upto hE cap h m n h _ _ _ _) fun r => .refl _
    · rw [if_neg hp, if_neg hp]
      unfold RepObj.deserializeUnpacked
      dsimp only
      by_cases hc : cap > x.len
      · rw [if_pos hc, if_pos hc]
        by_cases hk : E.kind = .message
        · rw [if_pos hk, if_pos hk]
          refine .same fun r => ?_
          obtain ⟨v, b⟩ := r
          cases v with
          | error e => exact .refl _
          | ok v => exact .bind (elem h _ _ _) fun r => .refl _
        · rw [if_neg hk, if_neg hk]; exact elem h _ _ _
      · rw [if_neg hc, if_neg hc]; exact .refl _
  refine ⟨hd, fun {β _ m n} h b wt x => ?_⟩
  show Res.Upto (if wt = .lengthDelimited then x.deserialize cap m b else _)
    (if wt = .lengthDelimited then x.deserialize cap n b else _)
  by_cases hw : wt = .lengthDelimited
  · rw [if_pos hw, if_pos hw]; exact hd h b x
  · rw [if_neg hw, if_neg hw]; exact .refl _

theorem FieldsClass.plain_steady (num : Nat) {C : FieldClass} {rest : FieldsClass} (hC : C.Steady) (hr : rest.Steady) :
    (FieldsClass.plain num C rest).Steady := by
  intro β _ m n h id wt b p (s : C.State × rest.State)
  refine Option.Upto.ite (Res.Upto.bind (hC.check h _ _ _) fun r => .refl _) ?_
  generalize hx : rest.dispatch m id wt b p s.2 = x
  generalize hy : rest.dispatch n id wt b p s.2 = y
  have hr := hr β m n h id wt b p s.2
  rw [hx, hy] at hr
  match x, y, hr with
  | none, none, _ => trivial
  | some _, some _, hr => exact Res.Upto.bind hr fun _ => .refl _

theorem FieldsClass.optional_steady (num idx : Nat) {C : FieldClass} {rest : FieldsClass} (hC : C.Steady)
    (hr : rest.Steady) : (FieldsClass.optional num idx C rest).Steady := by
  intro β _ m n h id wt b p (s : C.State × rest.State)
  refine Option.Upto.ite (Res.Upto.same fun p => .bind (hC.check h _ _ _) fun r => .refl _) ?_
  generalize hx : rest.dispatch m id wt b p s.2 = x
  generalize hy : rest.dispatch n id wt b p s.2 = y
  have hr := hr β m n h id wt b p s.2
  rw [hx, hy] at hr
  match x, y, hr with
  | none, none, _ => trivial
  | some _, some _, hr => exact Res.Upto.bind hr fun _ => .refl _

theorem AltsClass.cons_steady (num : Nat) {C : FieldClass} {rest : AltsClass} (hC : C.Steady) (hr : rest.Steady) :
    (AltsClass.cons num C rest).Steady := by
  intro β _ m n h which b wt (u : Option (C.State ⊕ rest.U))
  exact .ite (.same fun x => .bind (hC.check h _ _ _) fun r => .refl _)
    (.bind (hr _ _ _ h which b wt _) fun r => .refl _)

theorem OneofsClass.cons_steady {A : AltsClass} {rest : OneofsClass} (hA : A.Steady) (hr : rest.Steady) :
    (OneofsClass.cons A rest).Steady := by
  intro β _ m n h id wt b (s : OneofObj A.U × rest.State)
  refine Option.Upto.ite (Res.Upto.bind ?_ fun r => .refl _) ?_
  · exact .same fun o => .bind (hA _ _ _ h _ _ _ _) fun r => .refl _
  generalize hx : rest.dispatch m id wt b s.2 = x
  generalize hy : rest.dispatch n id wt b s.2 = y
  have hr := hr β m n h id wt b s.2
  rw [hx, hy] at hr
  match x, y, hr with
  | none, none, _ => trivial
  | some _, some _, hr => exact Res.Upto.bind hr fun _ => .refl _

mutual
theorem ElemTy.steady : (t : ElemTy) → t.cls.Steady
  | .scalar _ => ⟨fun _ _ _ => .refl _, fun _ _ _ _ => .refl _⟩
  | .str _ => ⟨fun _ _ _ => .refl _, fun _ _ _ _ => .refl _⟩
  | .msg fs os => messageClass_steady (Fields.steady fs 0) (Oneofs.steady os)
theorem Fields.steady : (fs : Fields) → (idx : Nat) → (fs.cls idx).Steady
  | .nil, _ => fun _ _ _ _ _ _ _ _ _ _ => trivial
  | .plain num t rest, idx => FieldsClass.plain_steady num t.steady (Fields.steady rest idx)
  | .optional num t rest, idx => FieldsClass.optional_steady num idx t.steady (Fields.steady rest (idx + 1))
  | .repeated num cap t rest, idx =>
    FieldsClass.plain_steady num (repeatedClass_steady t.steady cap) (Fields.steady rest idx)
theorem Alts.steady : (a : Alts) → a.cls.Steady
  | .nil => fun _ _ _ _ _ _ _ _ _ => .refl _
  | .cons num t rest => AltsClass.cons_steady num t.steady (Alts.steady rest)
theorem Oneofs.steady : (os : Oneofs) → os.cls.Steady
  | .nil => fun _ _ _ _ _ _ _ _ _ => trivial
  | .cons a rest => OneofsClass.cons_steady (Alts.steady a) (Oneofs.steady rest)
end

end EP
