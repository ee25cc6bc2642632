import Verif.Proof.History

/-!
# The parts of an object a program can have are objects a program can have

`set_x(y.get_x())` passes a part of `y`.  What a program can have of that class includes it: every call on the
whole changes a part by calls on that part.
-/

namespace EP

/-- If it returns, then with `P`. -/
def Res.Then {α : Type} (P : α → Prop) (r : Res α) : Prop := ∀ a, r = .ok a → P a

namespace Res
variable {α β : Type}

theorem then_ok {P : α → Prop} {a : α} (h : P a) : Then P (.ok a) := fun b e => by
  injection e with e
  exact e ▸ h

theorem then_pure {P : α → Prop} {a : α} (h : P a) : Then P (pure a : Res α) := then_ok h

theorem Then.bind {P : β → Prop} {r : Res α} {f : α → Res β} (h : Then (fun a => Then P (f a)) r) : Then P (r >>= f) := by
  cases r with
  | ok a => exact h a rfl
  | ub => exact fun _ e => nomatch e
  | diverge => exact fun _ e => nomatch e

theorem Then.mono {P Q : α → Prop} {r : Res α} (h : Then P r) (hPQ : ∀ a, P a → Q a) : Then Q r := fun a e => hPQ a (h a e)

theorem then_true {r : Res α} : Then (fun _ => True) r := fun _ _ => trivial

theorem Then.any {P : α → Prop} {r : Res α} (h : ∀ a, P a) : Then P r := fun a _ => h a

theorem then_object {γ : Type} {P : γ → Prop} {r : Res (α × β × γ)} (h : Then P r.object) : Then (fun r => P r.2.2) r := by
  cases r with
  | ok a => exact then_ok (h _ rfl)
  | ub => exact fun _ e => nomatch e
  | diverge => exact fun _ e => nomatch e

theorem Then.object {γ : Type} {P : γ → Prop} {r : Res (α × β × γ)} (h : Then (fun r => P r.2.2) r) : Then P r.object := by
  cases r with
  | ok a => exact then_ok (h _ rfl)
  | ub => exact fun _ e => nomatch e
  | diverge => exact fun _ e => nomatch e

theorem then_if {P : α → Prop} {c : Prop} [Decidable c] {x y : Res α} (hx : c → Then P x) (hy : ¬ c → Then P y) :
    Then P (if c then x else y) := by
  split
  · exact hx ‹_›
  · exact hy ‹_›

theorem Safe.then {P : α → Prop} {T : Prop} {r : Res α} (h : r.Safe T P) : Then P r := fun a e => by
  rw [e] at h
  exact h

theorem Post.then {P : α → Prop} {r : Res α} (h : r.Post P) : Then P r := fun a e => by
  rw [e] at h
  exact h

end Res

theorem ElemTy.api_common (t : ElemTy) {R : t.cls.State → Prop} {f : t.cls.State → Res t.cls.State}
    (h : CommonApi t.cls R f) : t.Api R f := by
  cases t with
  | scalar s => exact .inl h
  | str cap => exact .inl h
  | msg fs os => exact .inl h

/-- What a program can have in the data member of a field. -/
def Card.Reach : (c : Card) → (t : ElemTy) → (c.cls t).State → Prop
  | .single, t => t.Reach
  | .opt, t => t.Reach
  | .rep cap, t => t.RepReach cap

namespace Card
variable (c : Card) (t : ElemTy)

theorem reach_init : c.Reach t (c.cls t).init := by cases c <;> exact .init

theorem reach_step {f : (c.cls t).State → Res (c.cls t).State} (hf : CommonApi (c.cls t) (c.Reach t) f) {x}
    (hx : c.Reach t x) : (f x).Then (c.Reach t) := by
  intro y hy
  cases c with
  | single => exact .step (R := t.Reach) (fun _ h => h) (t.api_common hf) hx hy
  | opt => exact .step (R := t.Reach) (fun _ h => h) (t.api_common hf) hx hy
  | rep cap => exact .step (R := t.RepReach cap) (fun _ h => h) (Or.inl hf) hx hy

theorem reach_api {g : (c.cls t).State → Res (c.cls t).State} (hg : c.Api t g) {x} (hx : c.Reach t x) :
    (g x).Then (c.Reach t) := by
  intro y hy
  cases c with
  | single =>
    rcases hg with rfl | ⟨R, hR, hg⟩
    · injection hy with hy
      exact hy ▸ hx
    · exact .step hR hg hx hy
  | opt =>
    rcases hg with rfl | ⟨R, hR, hg⟩
    · injection hy with hy
      exact hy ▸ hx
    · exact .step hR hg hx hy
  | rep cap =>
    rcases hg with rfl | ⟨R, hR, hg⟩
    · injection hy with hy
      exact hy ▸ hx
    · exact .step hR hg hx hy

variable {c t} {x : (c.cls t).State} (hx : c.Reach t x)
include hx

theorem reach_clear : ((c.cls t).clear x).Then (c.Reach t) := reach_step c t (.inl rfl) hx

theorem reach_set {y} (hy : c.Reach t y) : ((c.cls t).set x y).Then (c.Reach t) :=
  reach_step c t (f := fun x => (c.cls t).set x y) (.inr (.inr (.inl ⟨y, hy, rfl⟩))) hx

theorem reach_check {β : Type} [ReadBuffer β] (M : ReadModel β) (fuel : Nat) (b : β) (hb : M.Inv b) (wt : WireType) :
    ((c.cls t).deserializeCheckType fuel b wt x).Then fun r => c.Reach t r.2.2 :=
  Res.then_object (reach_step c t (f := fun x => ((c.cls t).deserializeCheckType fuel b wt x).object)
    (.inr (.inr (.inr (.inr ⟨⟨β, M, b, hb⟩, fuel, wt, rfl⟩)))) hx)

end Card

/-! ## Fields -/

/-- The parts of the fields. -/
def Fields.Parts : (fs : Fields) → (idx : Nat) → (fs.cls idx).State → Prop
  | .nil, _, _ => True
  | .plain _ t rest, idx, x => Card.Reach .single t x.1 ∧ rest.Parts idx x.2
  | .optional _ t rest, idx, x => Card.Reach .opt t x.1 ∧ rest.Parts (idx + 1) x.2
  | .repeated _ cap t rest, idx, x => Card.Reach (.rep cap) t x.1 ∧ rest.Parts idx x.2

theorem Fields.parts_init : (fs : Fields) → (idx : Nat) → fs.Parts idx (fs.cls idx).init
  | .nil, _ => trivial
  | .plain _ t rest, idx => ⟨Card.reach_init .single t, rest.parts_init idx⟩
  | .optional _ t rest, idx => ⟨Card.reach_init .opt t, rest.parts_init (idx + 1)⟩
  | .repeated _ cap t rest, idx => ⟨Card.reach_init (.rep cap) t, rest.parts_init idx⟩

theorem Fields.parts_clear : (fs : Fields) → (idx : Nat) → (p : Presence) → (x : (fs.cls idx).State) → fs.Parts idx x →
    ((fs.cls idx).clear p x).Then fun r => fs.Parts idx r.2
  | .nil, _, _, _, _ => Res.then_pure trivial
  | .plain _ t rest, idx, p, x, h => by
    refine Res.Then.bind ((Card.reach_clear (c := .single) h.1).mono fun z hz => ?_)
    refine Res.Then.bind ((rest.parts_clear idx p x.2 h.2).mono fun r hr => ?_)
    exact Res.then_pure ⟨hz, hr⟩
  | .optional _ t rest, idx, p, x, h => by
    refine Res.Then.bind (Res.Then.any fun p => ?_)
    refine Res.Then.bind ((Card.reach_clear (c := .opt) h.1).mono fun z hz => ?_)
    refine Res.Then.bind ((rest.parts_clear (idx + 1) p x.2 h.2).mono fun r hr => ?_)
    exact Res.then_pure ⟨hz, hr⟩
  | .repeated _ cap t rest, idx, p, x, h => by
    refine Res.Then.bind ((Card.reach_clear (c := .rep cap) h.1).mono fun z hz => ?_)
    refine Res.Then.bind ((rest.parts_clear idx p x.2 h.2).mono fun r hr => ?_)
    exact Res.then_pure ⟨hz, hr⟩

theorem Fields.parts_assign : (fs : Fields) → (idx : Nat) → (l r : Presence × (fs.cls idx).State) → fs.Parts idx l.2 →
    fs.Parts idx r.2 → ((fs.cls idx).assign l r).Then fun q => fs.Parts idx q.2
  | .nil, _, _, _, _, _ => Res.then_pure trivial
  | .plain _ t rest, idx, l, r, h, hr => by
    refine Res.Then.bind ((Card.reach_set (c := .single) h.1 hr.1).mono fun z hz => ?_)
    refine Res.Then.bind ((rest.parts_assign idx (l.1, l.2.2) (r.1, r.2.2) h.2 hr.2).mono fun q hq => ?_)
    exact Res.then_pure ⟨hz, hq⟩
  | .optional _ t rest, idx, l, r, h, hr => by
    refine Res.Then.bind (Res.Then.any fun has => ?_)
    have first : Res.Then (fun q : Presence × t.cls.State => Card.Reach .opt t q.2) (if has then do
        let p ← Presence.setBit l.1 idx
        let x ← t.cls.set l.2.1 r.2.1
        pure (p, x)
      else do
        let p ← Presence.clearBit l.1 idx
        let x ← t.cls.clear l.2.1
        pure (p, x) : Res (Presence × t.cls.State)) := by
      split
      · refine Res.Then.bind (Res.Then.any fun p => ?_)
        exact Res.Then.bind ((Card.reach_set (c := .opt) h.1 hr.1).mono fun z hz => Res.then_pure hz)
      · refine Res.Then.bind (Res.Then.any fun p => ?_)
        exact Res.Then.bind ((Card.reach_clear (c := .opt) h.1).mono fun z hz => Res.then_pure hz)
    refine Res.Then.bind (first.mono fun q hq => ?_)
    refine Res.Then.bind ((rest.parts_assign (idx + 1) (q.1, l.2.2) (r.1, r.2.2) h.2 hr.2).mono fun q' hq' => ?_)
    exact Res.then_pure ⟨hq, hq'⟩
  | .repeated _ cap t rest, idx, l, r, h, hr => by
    refine Res.Then.bind ((Card.reach_set (c := .rep cap) h.1 hr.1).mono fun z hz => ?_)
    refine Res.Then.bind ((rest.parts_assign idx (l.1, l.2.2) (r.1, r.2.2) h.2 hr.2).mono fun q hq => ?_)
    exact Res.then_pure ⟨hz, hq⟩

section
variable {β : Type} [ReadBuffer β] (M : ReadModel β) (fuel id : Nat) (wt : WireType) (b : β) (hb : M.Inv b)
include hb

theorem Fields.parts_dispatch : (fs : Fields) → (idx : Nat) → (p : Presence) → (x : (fs.cls idx).State) →
    fs.Parts idx x → ∀ r, (fs.cls idx).dispatch fuel id wt b p x = some r → r.Then fun q => fs.Parts idx q.2.2.2
  | .nil, _, _, _, _ => fun _ e => nomatch e
  | .plain num t rest, idx, p, x, h => by
    intro r e
    have e : (if id = num then some _ else _) = some r := e
    by_cases hn : id = num
    · replace e := (if_pos hn).symm.trans e
      injection e with e
      subst e
      exact Res.Then.bind ((Card.reach_check (c := .single) h.1 M fuel b hb wt).mono fun q hq => Res.then_pure ⟨hq, h.2⟩)
    · replace e := (if_neg hn).symm.trans e
      have ih := rest.parts_dispatch idx p x.2 h.2
      cases hr : (rest.cls idx).dispatch fuel id wt b p x.2 with
      | none => rw [hr] at e; exact nomatch e
      | some r' =>
        rw [hr] at e
        injection e with e
        subst e
        exact Res.Then.bind ((ih r' hr).mono fun q hq => Res.then_pure ⟨h.1, hq⟩)
  | .optional num t rest, idx, p, x, h => by
    intro r e
    have e : (if id = num then some _ else _) = some r := e
    by_cases hn : id = num
    · replace e := (if_pos hn).symm.trans e
      injection e with e
      subst e
      refine Res.Then.bind (Res.Then.any fun p => ?_)
      exact Res.Then.bind ((Card.reach_check (c := .opt) h.1 M fuel b hb wt).mono fun q hq => Res.then_pure ⟨hq, h.2⟩)
    · replace e := (if_neg hn).symm.trans e
      have ih := rest.parts_dispatch (idx + 1) p x.2 h.2
      cases hr : (rest.cls (idx + 1)).dispatch fuel id wt b p x.2 with
      | none => rw [hr] at e; exact nomatch e
      | some r' =>
        rw [hr] at e
        injection e with e
        subst e
        exact Res.Then.bind ((ih r' hr).mono fun q hq => Res.then_pure ⟨h.1, hq⟩)
  | .repeated num cap t rest, idx, p, x, h => by
    intro r e
    have e : (if id = num then some _ else _) = some r := e
    by_cases hn : id = num
    · replace e := (if_pos hn).symm.trans e
      injection e with e
      subst e
      exact Res.Then.bind ((Card.reach_check (c := .rep cap) h.1 M fuel b hb wt).mono fun q hq => Res.then_pure ⟨hq, h.2⟩)
    · replace e := (if_neg hn).symm.trans e
      have ih := rest.parts_dispatch idx p x.2 h.2
      cases hr : (rest.cls idx).dispatch fuel id wt b p x.2 with
      | none => rw [hr] at e; exact nomatch e
      | some r' =>
        rw [hr] at e
        injection e with e
        subst e
        exact Res.Then.bind ((ih r' hr).mono fun q hq => Res.then_pure ⟨h.1, hq⟩)

end

theorem Fields.parts_api : (fs : Fields) → (idx : Nat) → (g : _) → fs.Api idx g → (s : Presence × (fs.cls idx).State) →
    fs.Parts idx s.2 → (g s).Then fun r => fs.Parts idx r.2
  | .nil, _, _, hg, _, _ => hg.elim
  | .plain _ t rest, idx, f, hf, s, h => by
    rcases hf with ⟨g, hg, rfl⟩ | ⟨g, hg, rfl⟩
    · exact Res.Then.bind ((Card.reach_api .single t hg h.1).mono fun z hz => Res.then_pure ⟨hz, h.2⟩)
    · exact Res.Then.bind ((rest.parts_api idx g hg (s.1, s.2.2) h.2).mono fun z hz => Res.then_pure ⟨h.1, hz⟩)
  | .optional _ t rest, idx, f, hf, s, h => by
    rcases hf with ⟨g, hg, rfl⟩ | rfl | ⟨g, hg, rfl⟩
    · refine Res.Then.bind (Res.Then.any fun p => ?_)
      exact Res.Then.bind ((Card.reach_api .opt t hg h.1).mono fun z hz => Res.then_pure ⟨hz, h.2⟩)
    · refine Res.Then.bind (Res.Then.any fun p => ?_)
      exact Res.Then.bind ((Card.reach_clear (c := .opt) h.1).mono fun z hz => Res.then_pure ⟨hz, h.2⟩)
    · exact Res.Then.bind ((rest.parts_api (idx + 1) g hg (s.1, s.2.2) h.2).mono fun z hz => Res.then_pure ⟨h.1, hz⟩)
  | .repeated _ cap t rest, idx, f, hf, s, h => by
    rcases hf with ⟨g, hg, rfl⟩ | ⟨g, hg, rfl⟩
    · exact Res.Then.bind ((Card.reach_api (.rep cap) t hg h.1).mono fun z hz => Res.then_pure ⟨hz, h.2⟩)
    · exact Res.Then.bind ((rest.parts_api idx g hg (s.1, s.2.2) h.2).mono fun z hz => Res.then_pure ⟨h.1, hz⟩)

theorem Slot.parts {fs : Fields} {num : Nat} {c : Card} {t : ElemTy} (s : Slot fs num c t) (idx : Nat)
    (x : (fs.cls idx).State) (h : fs.Parts idx x) : c.Reach t (s.state idx x) := by
  induction s generalizing idx with
  | plain => exact h.1
  | optional => exact h.1
  | repeated => exact h.1
  | afterPlain _ _ s ih => exact ih idx x.2 h.2
  | afterOptional _ _ s ih => exact ih (idx + 1) x.2 h.2
  | afterRepeated _ _ _ s ih => exact ih idx x.2 h.2

/-! ## Oneofs -/

/-- The live member of a union. -/
def Alts.Part : (a : Alts) → a.cls.U → Prop
  | .nil, _ => True
  | .cons _ t _, .inl x => t.Reach x
  | .cons _ _ rest, .inr u => rest.Part u

/-- Whatever is live. -/
def Alts.Parts (a : Alts) (u : Option a.cls.U) : Prop := ∀ v, u = some v → a.Part v

theorem Alts.parts_none (a : Alts) : a.Parts none := fun _ e => nomatch e

theorem Alts.parts_some {a : Alts} {u : a.cls.U} (h : a.Part u) : a.Parts (some u) := fun _ e => by
  injection e with e
  exact e ▸ h

theorem Alts.parts_right {n : Nat} {t : ElemTy} {rest : Alts} {u : Option (Alts.cons n t rest).cls.U}
    (h : (Alts.cons n t rest).Parts u) : rest.Parts (AltsClass.right? u) := by
  intro v e
  match u, e with
  | some (.inr w), e =>
    have e : some w = some v := e
    injection e with e
    subst e
    exact h _ rfl

theorem Alts.parts_inr {n : Nat} {t : ElemTy} {rest : Alts} {u : Option rest.cls.U} (h : rest.Parts u) :
    (Alts.cons n t rest).Parts (AltsClass.inr? u) := by
  intro v e
  match u, e with
  | some w, e =>
    have e : some (Sum.inr w) = some v := e
    injection e with e
    subst e
    exact h w rfl

theorem Alts.parts_left {n : Nat} {t : ElemTy} {rest : Alts} {u : Option (Alts.cons n t rest).cls.U}
    (h : (Alts.cons n t rest).Parts u) : (AltsClass.access (AltsClass.left? u)).Then t.Reach := by
  match u with
  | some (.inl x) => exact Res.then_ok (h _ rfl)
  | some (.inr x) => exact fun _ e => nomatch e
  | none => exact fun _ e => nomatch e

theorem Alts.parts_construct : (a : Alts) → (id : Nat) → (u : Option a.cls.U) → a.Parts u → a.Parts (a.cls.construct id u)
  | .nil, _, _, h => h
  | .cons num t rest, id, u, h => by
    by_cases hn : id = num
    · refine Eq.subst (motive := (Alts.cons num t rest).Parts) (if_pos hn).symm ?_
      exact parts_some (a := .cons num t rest) (u := .inl t.cls.init) ReachGen.init
    · refine Eq.subst (motive := (Alts.cons num t rest).Parts) (if_neg hn).symm ?_
      exact parts_inr (rest.parts_construct id _ (parts_right h))

theorem Alts.parts_destroy : (a : Alts) → (id : Nat) → (u : Option a.cls.U) → a.Parts u → (a.cls.destroy id u).Then a.Parts
  | .nil, _, _, h => Res.then_pure h
  | .cons num t rest, id, u, h => by
    refine Res.then_if (c := id = num) (fun _ => ?_) fun _ => ?_
    · exact Res.Then.bind (Res.Then.any fun _ => Res.then_pure (parts_none _))
    · exact Res.Then.bind ((rest.parts_destroy id _ (parts_right h)).mono fun v hv => Res.then_pure (parts_inr hv))

theorem Alts.parts_setFrom : (a : Alts) → (id : Nat) → (u v : Option a.cls.U) → a.Parts u → a.Parts v →
    (a.cls.setFrom id u v).Then a.Parts
  | .nil, _, _, _, h, _ => Res.then_pure h
  | .cons num t rest, id, u, v, h, hv => by
    refine Res.then_if (c := id = num) (fun _ => ?_) fun _ => ?_
    · refine Res.Then.bind ((parts_left h).mono fun x hx => ?_)
      refine Res.Then.bind ((parts_left hv).mono fun y hy => ?_)
      exact Res.Then.bind ((Card.reach_set (c := .single) hx hy).mono fun z hz =>
        Res.then_pure (parts_some (a := .cons num t rest) (u := .inl z) hz))
    · exact Res.Then.bind ((rest.parts_setFrom id _ _ (parts_right h) (parts_right hv)).mono fun w hw =>
        Res.then_pure (parts_inr hw))

theorem Alts.parts_deserialize {β : Type} [ReadBuffer β] (M : ReadModel β) (fuel : Nat) (wt : WireType) (b : β)
    (hb : M.Inv b) : (a : Alts) → (id : Nat) → (u : Option a.cls.U) → a.Parts u →
    (a.cls.deserialize fuel id b wt u).Then fun r => a.Parts r.2.2
  | .nil, _, _, h => Res.then_pure h
  | .cons num t rest, id, u, h => by
    refine Res.then_if (c := id = num) (fun _ => ?_) fun _ => ?_
    · refine Res.Then.bind ((parts_left h).mono fun x hx => ?_)
      exact Res.Then.bind ((Card.reach_check (c := .single) hx M fuel b hb wt).mono fun q hq =>
        Res.then_pure (parts_some (a := .cons num t rest) (u := .inl q.2.2) hq))
    · exact Res.Then.bind ((parts_deserialize M fuel wt b hb rest id _ (parts_right h)).mono fun q hq =>
        Res.then_pure (parts_inr hq))

theorem Alts.parts_api : (a : Alts) → (id : Nat) → (g : _) → a.Api id g → (u : Option a.cls.U) → a.Parts u →
    (g u).Then a.Parts
  | .nil, _, _, hg, _, _ => hg.elim
  | .cons num t rest, id, f, hf, u, h => by
    rcases hf with ⟨rfl, g, hg, rfl⟩ | ⟨g, hg, rfl⟩
    · refine Res.Then.bind ((parts_left h).mono fun x hx => ?_)
      exact Res.Then.bind ((Card.reach_api .single t hg hx).mono fun z hz =>
        Res.then_pure (parts_some (a := .cons id t rest) (u := .inl z) hz))
    · exact Res.Then.bind ((rest.parts_api id g hg _ (parts_right h)).mono fun z hz => Res.then_pure (parts_inr hz))

section
variable (a : Alts) (o : OneofObj a.cls.U) (h : a.Parts o.live)
include h

theorem Alts.parts_clearObj : (a.cls.clearObj o).Then fun o => a.Parts o.live :=
  Res.Then.bind ((a.parts_destroy o.which o.live h).mono fun _ hu => Res.then_pure hu)

theorem Alts.parts_activate (id : Nat) : (a.cls.activate o id).Then fun o => a.Parts o.live := by
  unfold AltsClass.activate
  split
  · refine Res.Then.bind (P := fun o : OneofObj a.cls.U => a.Parts o.live)
      (Res.Then.mono (P := fun o : OneofObj a.cls.U => a.Parts o.live) ?_ fun o ho => Res.then_pure (a.parts_construct id _ ho))
    split
    · exact a.parts_clearObj o h
    · exact Res.then_pure h
  · exact Res.then_pure h

theorem Alts.parts_assignObj (r : OneofObj a.cls.U) (hr : a.Parts r.live) :
    (a.cls.assignObj o r).Then fun o => a.Parts o.live := by
  refine Res.Then.bind (P := fun o : OneofObj a.cls.U => a.Parts o.live)
    (Res.Then.mono (P := fun o : OneofObj a.cls.U => a.Parts o.live) ?_ fun o ho => ?_)
  · split
    · exact a.parts_clearObj o h
    · exact Res.then_pure h
  · split
    · refine Res.Then.bind ((a.parts_activate o ho r.which).mono fun o ho => ?_)
      exact Res.Then.bind ((a.parts_setFrom r.which o.live r.live ho hr).mono fun u hu => Res.then_pure hu)
    · exact Res.then_pure ho

theorem Alts.parts_deserializeObj {β : Type} [ReadBuffer β] (M : ReadModel β) (fuel id : Nat) (wt : WireType) (b : β)
    (hb : M.Inv b) : (a.cls.deserializeObj fuel id b wt o).Then fun r => a.Parts r.2.2.live := by
  refine Res.Then.bind ((a.parts_activate o h id).mono fun o ho => ?_)
  refine Res.Then.bind ((parts_deserialize M fuel wt b hb a o.which o.live ho).mono fun r hr => ?_)
  dsimp only
  split
  · exact Res.Then.bind ((a.parts_clearObj ⟨o.which, r.2.2⟩ hr).mono fun o ho => Res.then_pure ho)
  · exact Res.then_pure hr

theorem Alts.parts_touch {id : Nat} {g : Option a.cls.U → Res (Option a.cls.U)} (hg : a.Api id g) :
    (touchMember a.cls id g o).Then fun o => a.Parts o.live := by
  refine Res.Then.bind ((a.parts_activate o h id).mono fun o ho => ?_)
  exact Res.Then.bind ((a.parts_api id g hg o.live ho).mono fun u hu => Res.then_pure hu)

theorem Alts.parts_clearMember (id : Nat) : (clearMember a.cls id o).Then fun o => a.Parts o.live := by
  unfold clearMember
  split
  · exact a.parts_clearObj o h
  · exact Res.then_pure h

end

/-- The parts of the oneofs. -/
def Oneofs.Parts : (os : Oneofs) → os.cls.State → Prop
  | .nil, _ => True
  | .cons a rest, x => a.Parts x.1.live ∧ rest.Parts x.2

theorem Oneofs.parts_init : (os : Oneofs) → os.Parts os.cls.init
  | .nil => trivial
  | .cons a rest => ⟨a.parts_none, rest.parts_init⟩

theorem Oneofs.parts_clear : (os : Oneofs) → (x : os.cls.State) → os.Parts x → (os.cls.clear x).Then os.Parts
  | .nil, _, _ => Res.then_pure trivial
  | .cons a rest, x, h => by
    refine Res.Then.bind ((a.parts_clearObj x.1 h.1).mono fun o ho => ?_)
    exact Res.Then.bind ((rest.parts_clear x.2 h.2).mono fun t ht => Res.then_pure ⟨ho, ht⟩)

theorem Oneofs.parts_assign : (os : Oneofs) → (x y : os.cls.State) → os.Parts x → os.Parts y →
    (os.cls.assign x y).Then os.Parts
  | .nil, _, _, _, _ => Res.then_pure trivial
  | .cons a rest, x, y, h, hy => by
    refine Res.Then.bind ((a.parts_assignObj x.1 h.1 y.1 hy.1).mono fun o ho => ?_)
    exact Res.Then.bind ((rest.parts_assign x.2 y.2 h.2 hy.2).mono fun t ht => Res.then_pure ⟨ho, ht⟩)

theorem Oneofs.parts_dispatch {β : Type} [ReadBuffer β] (M : ReadModel β) (fuel id : Nat) (wt : WireType) (b : β)
    (hb : M.Inv b) : (os : Oneofs) → (x : os.cls.State) → os.Parts x →
    ∀ r, os.cls.dispatch fuel id wt b x = some r → r.Then fun q => os.Parts q.2.2
  | .nil, _, _ => fun _ e => nomatch e
  | .cons a rest, x, h => by
    intro r e
    have e : (if a.cls.hasCase id = true then some _ else _) = some r := e
    by_cases hn : a.cls.hasCase id = true
    · replace e := (if_pos hn).symm.trans e
      injection e with e
      subst e
      exact Res.Then.bind ((a.parts_deserializeObj x.1 h.1 M fuel id wt b hb).mono fun q hq => Res.then_pure ⟨hq, h.2⟩)
    · replace e := (if_neg hn).symm.trans e
      have ih := parts_dispatch M fuel id wt b hb rest x.2 h.2
      cases hr : rest.cls.dispatch fuel id wt b x.2 with
      | none => rw [hr] at e; exact nomatch e
      | some r' =>
        rw [hr] at e
        injection e with e
        subst e
        exact Res.Then.bind ((ih r' hr).mono fun q hq => Res.then_pure ⟨h.1, hq⟩)

theorem Oneofs.parts_api : (os : Oneofs) → (g : _) → os.Api g → (x : os.cls.State) → os.Parts x → (g x).Then os.Parts
  | .nil, _, hg, _, _ => hg.elim
  | .cons a rest, f, hf, x, h => by
    rcases hf with ⟨id, g, hg, rfl⟩ | ⟨id, _, rfl⟩ | ⟨g, hg, rfl⟩
    · exact Res.Then.bind ((a.parts_touch x.1 h.1 hg).mono fun o ho => Res.then_pure ⟨ho, h.2⟩)
    · exact Res.Then.bind ((a.parts_clearMember x.1 h.1 id).mono fun o ho => Res.then_pure ⟨ho, h.2⟩)
    · exact Res.Then.bind ((rest.parts_api g hg x.2 h.2).mono fun o ho => Res.then_pure ⟨h.1, ho⟩)

theorem Member.part {a : Alts} {num : Nat} {t : ElemTy} (m : Member a num t) (x : t.Obj) (h : a.Part (m.injState x)) :
    t.Reach x := by
  induction m with
  | here => exact h
  | after _ _ m ih => exact ih x h

theorem OneofSlot.parts {os : Oneofs} {a : Alts} (s : OneofSlot os a) (x : os.cls.State) (h : os.Parts x) :
    a.Parts (s.state x).live := by
  induction s with
  | here => exact h.1
  | after _ s ih => exact ih x.2 h.2

/-! ## Messages -/

theorem tagLoop_then {β σ : Type} [ReadBuffer β] (M : ReadModel β) {f : Nat → WireType → β → σ → Res (Error × β × σ)}
    {I : σ → Prop} (hf : ∀ n wt b s, M.Inv b → I s → (f n wt b s).Then fun r => M.Inv r.2.1 ∧ I r.2.2) :
    ∀ (k : Nat) (b : β) (s : σ), M.Inv b → I s → (tagLoop f k b s).Then fun r => I r.2.2
  | 0, _, _, _, _ => fun _ e => nomatch e
  | k + 1, b, s, hb, hs => by
    unfold tagLoop
    refine Res.Then.bind ((Res.Post.then (tag_class M b hb)).mono ?_)
    rintro ⟨t, b⟩ ⟨hb, -⟩
    dsimp only
    match t with
    | .error e => exact Res.then_pure hs
    | .ok (wt, id) =>
      refine Res.Then.bind ((hf id wt b s hb hs).mono ?_)
      rintro ⟨e, b, s⟩ ⟨hb, hs⟩
      dsimp only
      split
      · exact tagLoop_then M hf k b s hb hs
      · exact Res.then_pure hs

variable {fs : Fields} {os : Oneofs}

/-- The parts of a message. -/
def MsgParts (x : (ElemTy.msg fs os).Obj) : Prop := fs.Parts 0 x.fields ∧ os.Parts x.oneofs

theorem msg_parts_step {β : Type} [ReadBuffer β] (M : ReadModel β) (fuel id : Nat) (wt : WireType) (b : β) (hb : M.Inv b)
    (x : (ElemTy.msg fs os).Obj) (h : MsgParts x) :
    (MsgObj.step (fs.cls 0) os.cls fuel id wt b x).Then fun r => MsgParts (fs := fs) (os := os) r.2.2 := by
  unfold MsgObj.step
  cases hd : (fs.cls 0).dispatch fuel id wt b x.presence x.fields with
  | some r =>
    exact Res.Then.bind ((fs.parts_dispatch M fuel id wt b hb 0 _ _ h.1 r hd).mono fun q hq => Res.then_pure ⟨hq, h.2⟩)
  | none =>
    dsimp only
    cases hd : os.cls.dispatch fuel id wt b x.oneofs with
    | some r =>
      exact Res.Then.bind ((Oneofs.parts_dispatch M fuel id wt b hb os _ h.2 r hd).mono fun q hq => Res.then_pure ⟨h.1, hq⟩)
    | none =>
      dsimp only
      split
      · exact Res.then_pure h
      · exact Res.Then.bind (Res.Then.any fun q => Res.then_pure h)

theorem msg_parts_deserialize (hwf : (ElemTy.msg fs os).WF) {β : Type} [ReadBuffer β] (M : ReadModel β) (fuel : Nat) (b : β)
    (hb : M.Inv b) (x : (ElemTy.msg fs os).Obj) (hi : (ElemTy.msg fs os).Inv x) (h : MsgParts x) :
    ((ElemTy.msg fs os).cls.deserialize fuel b x).Then fun r => MsgParts (fs := fs) (os := os) r.2.2 := by
  refine (tagLoop_then M (I := fun x => (ElemTy.msg fs os).Inv x ∧ MsgParts (fs := fs) (os := os) x) ?_ fuel b x hb
    ⟨hi, h⟩).mono fun r hr => hr.2
  intro n wt b s hb hs r hr
  have h1 := (msg_step_safe (M := M) hwf fuel n wt b s hb hs.1).then r hr
  exact ⟨h1.1, h1.2, msg_parts_step M fuel n wt b hb s hs.2 r hr⟩

theorem msg_parts (hwf : (ElemTy.msg fs os).WF) {x : (ElemTy.msg fs os).cls.State} (hx : (ElemTy.msg fs os).Reach x) :
    MsgParts (fs := fs) (os := os) x := by
  induction hx with
  | init => exact ⟨fs.parts_init 0, os.parts_init⟩
  | @step R f x y hR hf hx he ihR ih =>
    have hi := ElemTy.reach_inv _ hwf hx
    refine (?_ : (f x).Then fun y => MsgParts (fs := fs) (os := os) y) y he
    simp only [ElemTy.Api] at hf
    rcases hf with (rfl | ⟨y, hy, rfl⟩ | ⟨y, hy, rfl⟩ | ⟨src, fuel, rfl⟩ | ⟨src, fuel, wt, rfl⟩) | ⟨g, hg, rfl⟩ | ⟨g, hg, rfl⟩
    · refine Res.Then.bind ((fs.parts_clear 0 x.presence x.fields ih.1).mono fun q hq => ?_)
      exact Res.Then.bind ((os.parts_clear x.oneofs ih.2).mono fun o ho => Res.then_pure ⟨hq, ho⟩)
    · refine Res.Then.bind ((fs.parts_assign 0 (x.presence, x.fields) (y.presence, y.fields) ih.1 (ihR y hy).1).mono fun q hq => ?_)
      exact Res.Then.bind ((os.parts_assign x.oneofs y.oneofs ih.2 (ihR y hy).2).mono fun o ho => Res.then_pure ⟨hq, ho⟩)
    · refine Res.Then.bind ((fs.parts_assign 0 (x.presence, x.fields) (y.presence, y.fields) ih.1 (ihR y hy).1).mono fun q hq => ?_)
      exact Res.Then.bind ((os.parts_assign x.oneofs y.oneofs ih.2 (ihR y hy).2).mono fun o ho => Res.then_pure ⟨hq, ho⟩)
    · exact (msg_parts_deserialize hwf src.M fuel src.buf src.inv x hi ih).object
    · refine Res.Then.object ?_
      show Res.Then _ (MsgObj.deserializeCheckType (fs.cls 0) os.cls fuel src.buf wt x)
      unfold MsgObj.deserializeCheckType
      split
      · refine Res.Then.bind ((Res.Post.then (varint_class src.M 32 (by omega) src.buf src.inv)).mono ?_)
        rintro ⟨r, b⟩ ⟨hb, -⟩
        dsimp only at hb ⊢
        match r with
        | .error e => exact Res.then_pure ih
        | .ok v =>
          exact Res.Then.bind ((msg_parts_deserialize hwf (Section.model src.M (src.M.view b)) fuel _
            (Section.new_inv src.M b v.toNat hb) x hi ih).mono fun r hr => Res.then_pure hr)
      · exact Res.then_pure ih
    · exact Res.Then.bind ((fs.parts_api 0 g hg (x.presence, x.fields) ih.1).mono fun q hq => Res.then_pure ⟨hq, ih.2⟩)
    · exact Res.Then.bind ((os.parts_api g hg x.oneofs ih.2).mono fun q hq => Res.then_pure ⟨ih.1, hq⟩)

end EP
