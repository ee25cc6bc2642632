import Verif.Props.Malformed
import Verif.Proof.History

/-!
# Objects: presence, oneofs, clearing and copying — C27–C30

`T` is any well formed declaration `message { fs os }`.  A `Call` is a call of the public interface of
the generated class together with the field it is for; `reach_iff_history` shows that the states reached
by these calls are all the states a program can reach.
-/

namespace EP
open Spec

section
variable {fs : Fields} {os : Oneofs}
local notation "T" => ElemTy.msg fs os

/-! ## Lemmas -/

/-- A field has one declaration. -/
theorem Slot.unique {fs : Fields} {num : Nat} {c c' : Card} {t t' : ElemTy} (s : Slot fs num c t)
    (s' : Slot fs num c' t') (h : fs.numbers.Nodup) :
    (⟨c, t, s⟩ : (c : Card) × (t : ElemTy) × Slot fs num c t) = ⟨c', t', s'⟩ := by
  induction s with
  | plain => cases s' with
    | plain => rfl
    | afterPlain _ _ s' => exact absurd s'.mem (List.nodup_cons.mp h).1
  | optional => cases s' with
    | optional => rfl
    | afterOptional _ _ s' => exact absurd s'.mem (List.nodup_cons.mp h).1
  | repeated => cases s' with
    | repeated => rfl
    | afterRepeated _ _ _ s' => exact absurd s'.mem (List.nodup_cons.mp h).1
  | afterPlain _ _ s ih => cases s' with
    | plain => exact absurd s.mem (List.nodup_cons.mp h).1
    | afterPlain _ _ s' => cases ih s' (List.nodup_cons.mp h).2; rfl
  | afterOptional _ _ s ih => cases s' with
    | optional => exact absurd s.mem (List.nodup_cons.mp h).1
    | afterOptional _ _ s' => cases ih s' (List.nodup_cons.mp h).2; rfl
  | afterRepeated _ _ _ s ih => cases s' with
    | repeated => exact absurd s.mem (List.nodup_cons.mp h).1
    | afterRepeated _ _ _ s' => cases ih s' (List.nodup_cons.mp h).2; rfl

/-- A number belongs to one oneof. -/
theorem OneofSlot.unique {os : Oneofs} {a a' : Alts} {num : Nat} (s : OneofSlot os a) (s' : OneofSlot os a')
    (h : os.numbers.Nodup) (ha : num ∈ a.numbers) (ha' : num ∈ a'.numbers) :
    (⟨a, s⟩ : (a : Alts) × OneofSlot os a) = ⟨a', s'⟩ := by
  induction s with
  | here => cases s' with
    | here => rfl
    | after _ s' => exact absurd rfl ((List.nodup_append.mp h).2.2 num ha num (s'.mem ha'))
  | after _ s ih => cases s' with
    | here => exact absurd rfl ((List.nodup_append.mp h).2.2 num ha' num (s.mem ha))
    | after _ s' => cases ih s' (List.nodup_append.mp h).2.1 ha; rfl

theorem Call.run_inv (c : Call fs os) (hc : c.Legal) (h : (T).WF) {x : (T).Obj} (hx : (T).Inv x) :
    c.run x ≠ .ub ∧ ∀ y, c.run x = .ok y → (T).Inv y := by
  have hs := ElemTy.api_law T h _ c.run (fun z hz => ElemTy.reach_inv T h hz) (c.sound hc) x hx
  refine ⟨fun hu => ?_, fun y hy => ?_⟩
  · rw [hu] at hs; exact hs
  · rw [hy] at hs; exact hs

theorem Res.object_ok {α β γ : Type} {r : Res (α × β × γ)} {y : γ} (h : r.object = .ok y) :
    ∃ e b, r = .ok (e, b, y) := by
  cases r with
  | ok r => injection h with h; subst h; exact ⟨_, _, rfl⟩
  | ub => exact nomatch h
  | diverge => exact nomatch h

theorem Member.api_keeps {t : ElemTy} {g : t.Obj → Res t.Obj} (h : t.WF)
    (hg : MemberApi t.cls.init t.Api g) : Keeps t.Inv g :=
  MemberApi.keeps (ElemTy.api_law t h) (ElemTy.base t h).init_inv hg

theorem Member.readUnion_eq {a : Alts} {num : Nat} {t : ElemTy} (m : Member a num t) (o : Option a.cls.U) :
    m.readUnion o = match o.bind m.projState with
      | some z => .ok z
      | none => .ub := by
  induction m with
  | here => rcases o with _ | u | u <;> rfl
  | after _ _ m ih => rcases o with _ | u | u <;> first | rfl | exact ih (some u)

theorem Member.readUnion_injState {a : Alts} {num : Nat} {t : ElemTy} (m : Member a num t) (z : t.Obj) :
    m.readUnion (some (m.injState z)) = .ok z := by
  rw [m.readUnion_eq, Option.bind_some, m.projState_injState]

/-! ## C27 -/

/-- What a call does to the optional field `s`: `some true` if it sets the field, `some false` if it clears
it, `none` if it does neither.  Setting is: any call on the field (`set_x`, `mutable_x`), decoding input in
which the field is met, and assigning a message that has it.  Clearing is: `clear_x`, `clear` and assigning
a message that does not have it. -/
def Call.effect {num : Nat} {t : ElemTy} (s : Slot fs num .opt t) (x : (T).Obj) : Call fs os → Option Bool
  | .clear => some false
  | .assign y => some (Option.isSome (α := t.Val) (s.get ((T).abs y).1))
  | .receive src fuel => if num ∈ met fs os fuel src.buf x then some true else none
  | .receiveAs src fuel wt => if num ∈ metNested fs os fuel src.buf wt x then some true else none
  | .field (num := k) _ _ => if k = num then some true else none
  | .clearField (num := k) _ => if k = num then some false else none
  | .member _ _ _ => none
  | .clearMember _ _ => none

theorem Decoded.has {num : Nat} {t : ElemTy} (s : Slot fs num .opt t) {e : Error} {ids : List Nat}
    {x y : (T).Obj} (h : Decoded (fs := fs) (os := os) e ids x y) :
    Option.isSome (α := t.Val) (s.get ((T).abs y).1) =
      ((if num ∈ ids then some true else none : Option Bool).getD
        (Option.isSome (α := t.Val) (s.get ((T).abs x).1))) := by
  by_cases hm : num ∈ ids
  · rw [if_pos hm]; exact h.flags num t s hm
  · rw [if_neg hm]; exact congrArg _ (h.fields num .opt t s hm).2

/-- **C27**, one call: it sets or clears the flag as described by `effect`, and otherwise leaves it as it
is, whatever else it does and however many optional fields there are. -/
theorem C27_call {num : Nat} {t : ElemTy} (s : Slot fs num .opt t) (c : Call fs os) (x y : (T).Obj)
    (h : (T).WF) (hx : (T).Reach x) (hc : c.Legal) (hy : c.run x = .ok y) :
    ∃ p q, s.has x = .ok p ∧ s.has y = .ok q ∧ q = (c.effect s x).getD p := by
  have ix := ElemTy.reach_inv T h hx
  have iy := (c.run_inv hc h ix).2 y hy
  refine ⟨_, _, s.has_eq ix, s.has_eq iy, ?_⟩
  have hw := h
  simp only [ElemTy.WF] at hw
  have hn := List.nodup_append.mp hw.2.2.1
  have hb := ElemTy.base T h
  cases c with
  | clear =>
    have hy : (T).cls.clear x = .ok y := hy
    rw [hb.clear x ix] at hy
    injection hy with hy
    subst hy
    exact congrArg (Option.isSome (α := t.Val))
      ((congrArg (fun v : (T).Val => s.get v.1) hb.init_abs).trans s.get_dflt)
  | assign z =>
    have hy : (T).cls.assign x z = .ok y := hy
    have := hb.assign x z ix (ElemTy.reach_inv T h hc)
    rw [hy] at this
    exact congrArg (fun v => Option.isSome (α := t.Val) (s.get v.1)) this.2.1
  | receive src fuel =>
    obtain ⟨e, b', hr⟩ := Res.object_ok hy
    exact (deserialize_decoded src.M h fuel src.buf b' e x y src.inv ix hr).has s
  | receiveAs src fuel wt =>
    obtain ⟨e, b', hr⟩ := Res.object_ok hy
    exact (check_decoded src.M h fuel src.buf b' wt e x y src.inv ix hr).has s
  | @field k c u s' g =>
    obtain ⟨f, f1, f2⟩ := s'.call_eq (os := os) h ix
    have hy : s'.call (os := os) g x = .ok y := hy
    rw [f1] at hy
    cases hg : g (s'.member (os := os) x) with
    | ub => rw [hg] at hy; exact nomatch hy
    | diverge => rw [hg] at hy; exact nomatch hy
    | ok z =>
      rw [hg] at hy
      injection hy with hy
      subst hy
      rw [(f2 z).abs]
      show _ = ((if k = num then some true else none : Option Bool)).getD _
      by_cases hk : k = num
      · subst hk
        cases s.unique s' hn.1
        rw [if_pos rfl]
        exact (congrArg (Option.isSome (α := t.Val)) (s.get_put _ _)).trans rfl
      · rw [if_neg hk]
        exact congrArg _ (s.get_put_ne s' (fun e => hk e.symm) _ _)
  | @clearField k u s' =>
    obtain ⟨z, f1, f2⟩ := s'.clearCall_eq (os := os) h ix
    have hy : s'.clearCall (os := os) x = .ok y := hy
    rw [f1] at hy
    injection hy with hy
    subst hy
    rw [f2.abs]
    show _ = ((if k = num then some false else none : Option Bool)).getD _
    by_cases hk : k = num
    · subst hk
      cases s.unique s' hn.1
      rw [if_pos rfl]
      exact (congrArg (Option.isSome (α := t.Val)) (s.get_put _ _)).trans rfl
    · rw [if_neg hk]
      exact congrArg _ (s.get_put_ne s' (fun e => hk e.symm) _ _)
  | @member a k u s' m g =>
    obtain ⟨_, f, f1, f2⟩ := m.call_eq (fs := fs) s' h ix
    have hy : m.call (fs := fs) s' g x = .ok y := hy
    rw [f1] at hy
    cases hg : g (m.current (s'.member (fs := fs) x)) with
    | ub => rw [hg] at hy; exact nomatch hy
    | diverge => rw [hg] at hy; exact nomatch hy
    | ok z =>
      rw [hg] at hy
      injection hy with hy
      subst hy
      rw [(f2 z).abs]
      rfl
  | @clearMember a k u s' m =>
    have hy : m.clearCall (fs := fs) s' x = .ok y := hy
    obtain ⟨f1, f2⟩ := m.clearCall_eq (fs := fs) s' h ix
    by_cases hk : s'.which (fs := fs) x = k
    · obtain ⟨z, f3, f4⟩ := f2 hk
      rw [f3] at hy
      injection hy with hy
      subst hy
      rw [f4.abs]
      rfl
    · rw [f1 hk] at hy
      injection hy with hy
      subst hy
      rfl

/-- What the calls of a history did to the optional field `s`, in order. -/
inductive Effects {num : Nat} {t : ElemTy} (s : Slot fs num .opt t) : List (Option Bool) → (T).Obj → Prop where
  | new : Effects s [] (T).cls.init
  | call {es : List (Option Bool)} {x y : (T).Obj} (c : Call fs os) : Effects s es x → c.Legal →
      c.run x = .ok y → Effects s (es ++ [c.effect s x]) y

/-- Every reachable object has such a history. -/
theorem C27_every_history {num : Nat} {t : ElemTy} (s : Slot fs num .opt t) (x : (T).Obj)
    (hx : (T).Reach x) : ∃ es, Effects (os := os) s es x := by
  obtain ⟨cs, hcs⟩ := (reach_iff_history x).mp hx
  induction hcs with
  | new => exact ⟨[], .new⟩
  | call c hh hl hr ih =>
    obtain ⟨es, he⟩ := ih ((reach_iff_history _).mpr ⟨_, hh⟩)
    exact ⟨_, .call c he hl hr⟩

/-- **C27**.  After any history `has_x()` is true exactly when the field was set at some point and not
cleared later. -/
theorem C27_has {num : Nat} {t : ElemTy} (s : Slot fs num .opt t) (es : List (Option Bool)) (x : (T).Obj)
    (h : (T).WF) (he : Effects (os := os) s es x) :
    ∃ p, s.has x = .ok p ∧ (p = true ↔ ∃ before after, es = before ++ some true :: after ∧
      some false ∉ after) := by
  have hreach : ∀ {es x}, Effects (os := os) s es x → (T).Reach x := by
    intro es x he
    induction he with
    | new => exact .init
    | call c _ hl hr ih => exact .step (fun _ h => h) (c.sound hl) ih hr
  induction he with
  | new =>
    refine ⟨_, s.has_eq (ElemTy.base T h).init_inv, ?_⟩
    have : Option.isSome (α := t.Val) (s.get ((T).abs (T).cls.init).1) = false :=
      congrArg (Option.isSome (α := t.Val))
        ((congrArg (fun v : (T).Val => s.get v.1) (ElemTy.base T h).init_abs).trans s.get_dflt)
    rw [this]
    refine ⟨fun e => absurd e (by decide), ?_⟩
    rintro ⟨b, a, e, _⟩
    cases b <;> exact nomatch e
  | @call es x y c he hl hr ih =>
    obtain ⟨p, hp, hpe⟩ := ih
    obtain ⟨p', q, hp', hq, hpq⟩ := C27_call s c x y h (hreach he) hl hr
    rw [hp] at hp'
    injection hp' with hp'
    subst hp'
    refine ⟨q, hq, ?_⟩
    rw [hpq]
    have key : ∀ e : Option Bool, (∃ before after, es ++ [e] = before ++ some true :: after ∧
        some false ∉ after) ↔ e = some true ∨ (e = none ∧ p = true) := by
      intro e
      rw [hpe]
      constructor
      · rintro ⟨b, a, e1, e2⟩
        rcases List.eq_nil_or_concat a with rfl | ⟨a', l, rfl⟩
        · have := List.append_inj' e1 rfl
          injection this.2 with h1
          exact Or.inl h1
        · rw [List.concat_eq_append] at e1 e2
          have e1 : es ++ [e] = (b ++ some true :: a') ++ [l] := by rw [e1]; simp
          have := List.append_inj' e1 rfl
          injection this.2 with h1
          rw [List.mem_append, not_or] at e2
          subst h1
          rcases e with _ | _ | _
          · exact Or.inr ⟨rfl, b, a', this.1, e2.1⟩
          · exact absurd (List.mem_singleton.mpr rfl) e2.2
          · exact Or.inl rfl
      · rintro (rfl | ⟨rfl, b, a, e1, e2⟩)
        · exact ⟨es, [], rfl, by simp⟩
        · refine ⟨b, a ++ [none], by rw [e1]; simp, ?_⟩
          simp [e2]
    rw [key]
    rcases c.effect s x with _ | _ | _ <;> simp

/-! ## C28 -/

/-- The selector and the storage of a oneof: either nothing is selected and nothing is live, or the live
member is the one selected. -/
theorem C28_live {a : Alts} (s : OneofSlot os a) (x : (T).Obj) (h : (T).WF) (hx : (T).Reach x) :
    (s.which (fs := fs) x = 0 ∧ (s.member (fs := fs) x).live = none) ∨
    ∃ num t, ∃ (m : Member a num t) (z : t.Obj), s.which (fs := fs) x = num ∧ num ≠ 0 ∧
      (s.member (fs := fs) x).live = some (m.injState z) ∧ t.Inv z := by
  have ix := ElemTy.reach_inv T h hx
  have hw := h
  simp only [ElemTy.WF] at hw
  have hn := List.nodup_append.mp hw.2.2.1
  have ha := s.wf hw.2.1 hn.2.1
  have ho := s.inv_state ix.2.2
  show ((s.state x.oneofs).which = 0 ∧ (s.state x.oneofs).live = none) ∨
    ∃ num t, ∃ (m : Member a num t) (z : t.Obj), (s.state x.oneofs).which = num ∧ num ≠ 0 ∧
      (s.state x.oneofs).live = some (m.injState z) ∧ t.Inv z
  generalize s.state x.oneofs = o at ho
  obtain ⟨w, l⟩ := o
  cases l with
  | none => exact Or.inl ⟨ho, rfl⟩
  | some u =>
    have hm := (Alts.base a ha.1 ha.2).num_mem u
    obtain ⟨t, ⟨m⟩⟩ := a.exists_member _ hm
    obtain ⟨z, hz⟩ := m.of_num ha.1 ha.2 u rfl
    have := hw.2.2.2 _ (List.mem_append_right _ (s.mem hm))
    refine Or.inr ⟨_, t, m, z, ho.1, by omega, congrArg some hz, ?_⟩
    have hi := ho.2
    rw [hz] at hi
    exact (m.inv_injState z).mp hi

/-- The selector is a function of the value. -/
theorem OneofSlot.which_congr {a : Alts} (s : OneofSlot os a) (h : (T).WF) {x y : (T).Obj} (hx : (T).Reach x)
    (iy : (T).Inv y) (e : s.get ((T).abs y).2 = s.get ((T).abs x).2) :
    s.which (fs := fs) y = s.which (fs := fs) x := by
  have ix := ElemTy.reach_inv T h hx
  rcases C28_live s x h hx with ⟨h0, _⟩ | ⟨num, t, m, z, h1, _⟩
  · rw [h0]
    exact (s.which_zero h iy).mpr (e.trans ((s.which_zero h ix).mp h0))
  · obtain ⟨v, hv⟩ := (s.which_eq h ix m).mp h1
    rw [h1]
    exact (s.which_eq h iy m).mpr ⟨v, e.trans hv⟩

/-- The member of the oneof `s` a call selects (`0`: it unsets the oneof; `none`: it leaves the oneof
alone).  Any call on a member selects it, `clear_x` of the selected member unsets, `operator=` takes over
the selection, and decoding selects the last member met. -/
def Call.selects {a : Alts} (s : OneofSlot os a) (x : (T).Obj) : Call fs os → Option Nat
  | .clear => some 0
  | .assign y => some (s.which (fs := fs) y)
  | .receive src fuel => ((met fs os fuel src.buf x).filter (· ∈ a.numbers)).getLast?
  | .receiveAs src fuel wt => ((metNested fs os fuel src.buf wt x).filter (· ∈ a.numbers)).getLast?
  | .field _ _ => none
  | .clearField _ => none
  | .member (num := k) _ _ _ => if k ∈ a.numbers then some k else none
  | .clearMember (num := k) _ _ => if s.which (fs := fs) x = k then some 0 else none

/-- The call decodes and reports an error. -/
def Call.Fails (x : (T).Obj) : Call fs os → Prop
  | .receive src fuel => ∃ e b y, (T).cls.deserialize fuel src.buf x = .ok (e, b, y) ∧ e ≠ .noErrors
  | .receiveAs src fuel wt =>
    ∃ e b y, (T).cls.deserializeCheckType fuel src.buf wt x = .ok (e, b, y) ∧ e ≠ .noErrors
  | _ => False

theorem Decoded.which {a : Alts} (s : OneofSlot os a) {e : Error} {ids : List Nat}
    {x y : (T).Obj} (h : Decoded (fs := fs) (os := os) e ids x y) :
    s.which (fs := fs) y = ((ids.filter (· ∈ a.numbers)).getLast?).getD (s.which (fs := fs) x) ∨
      (s.which (fs := fs) y = 0 ∧ e ≠ .noErrors) := by
  have := h.oneofs a s
  cases hl : (ids.filter (· ∈ a.numbers)).getLast? with
  | none =>
    rw [hl] at this
    have this : s.member (fs := fs) y = s.member (fs := fs) x := this
    exact Or.inl (congrArg OneofObj.which this)
  | some k =>
    rw [hl] at this
    exact this

/-- **C28**, one call: the selector becomes what the call selects and otherwise stays.  (If decoding
fails in a member of the oneof, the oneof is left unset.) -/
theorem C28_call {a : Alts} (s : OneofSlot os a) (c : Call fs os) (x y : (T).Obj)
    (h : (T).WF) (hx : (T).Reach x) (hc : c.Legal) (hy : c.run x = .ok y) :
    s.which (fs := fs) y = (c.selects s x).getD (s.which (fs := fs) x) ∨
      (s.which (fs := fs) y = 0 ∧ c.Fails x) := by
  have ix := ElemTy.reach_inv T h hx
  have iy := (c.run_inv hc h ix).2 y hy
  have hw := h
  simp only [ElemTy.WF] at hw
  have hn := List.nodup_append.mp hw.2.2.1
  have hb := ElemTy.base T h
  cases c with
  | clear =>
    have hy : (T).cls.clear x = .ok y := hy
    rw [hb.clear x ix] at hy
    injection hy with hy
    subst hy
    exact Or.inl ((s.which_zero h iy).mpr
      ((congrArg (fun v : (T).Val => s.get v.2) hb.init_abs).trans s.get_dflt))
  | assign z =>
    have hy : (T).cls.assign x z = .ok y := hy
    have := hb.assign x z ix (ElemTy.reach_inv T h hc)
    rw [hy] at this
    exact Or.inl (s.which_congr h hc iy (congrArg (fun v : (T).Val => s.get v.2) this.2.1))
  | receive src fuel =>
    obtain ⟨e, b', hr⟩ := Res.object_ok hy
    rcases (deserialize_decoded src.M h fuel src.buf b' e x y src.inv ix hr).which s with h1 | h1
    · exact Or.inl h1
    · exact Or.inr ⟨h1.1, e, b', y, hr, h1.2⟩
  | receiveAs src fuel wt =>
    obtain ⟨e, b', hr⟩ := Res.object_ok hy
    rcases (check_decoded src.M h fuel src.buf b' wt e x y src.inv ix hr).which s with h1 | h1
    · exact Or.inl h1
    · exact Or.inr ⟨h1.1, e, b', y, hr, h1.2⟩
  | @field k c u s' g =>
    obtain ⟨f, f1, f2⟩ := s'.call_eq (os := os) h ix
    have hy : s'.call (os := os) g x = .ok y := hy
    rw [f1] at hy
    cases hg : g (s'.member (os := os) x) with
    | ub => rw [hg] at hy; exact nomatch hy
    | diverge => rw [hg] at hy; exact nomatch hy
    | ok z =>
      rw [hg] at hy
      injection hy with hy
      subst hy
      exact Or.inl (congrArg (fun o => (s.state o).which) (f2 z).oneofs)
  | @clearField k u s' =>
    obtain ⟨z, f1, f2⟩ := s'.clearCall_eq (os := os) h ix
    have hy : s'.clearCall (os := os) x = .ok y := hy
    rw [f1] at hy
    injection hy with hy
    subst hy
    exact Or.inl (congrArg (fun o => (s.state o).which) f2.oneofs)
  | @member a' k u s' m g =>
    obtain ⟨_, f, f1, f2⟩ := m.call_eq (fs := fs) s' h ix
    have hy : m.call (fs := fs) s' g x = .ok y := hy
    rw [f1] at hy
    cases hg : g (m.current (s'.member (fs := fs) x)) with
    | ub => rw [hg] at hy; exact nomatch hy
    | diverge => rw [hg] at hy; exact nomatch hy
    | ok z =>
      rw [hg] at hy
      injection hy with hy
      subst hy
      left
      show _ = ((if k ∈ a.numbers then some k else none : Option Nat)).getD _
      by_cases hk : k ∈ a.numbers
      · cases s.unique s' hn.2.1 hk m.mem
        rw [if_pos hk]
        exact congrArg OneofObj.which (f2 z).member
      · rw [if_neg hk]
        have hne : a ≠ a' := fun e => hk (e ▸ m.mem)
        exact congrArg OneofObj.which ((f2 z).others a s hne)
  | @clearMember a' k u s' m =>
    have hy : m.clearCall (fs := fs) s' x = .ok y := hy
    obtain ⟨f1, f2⟩ := m.clearCall_eq (fs := fs) s' h ix
    have h0 : k ≠ 0 := fun e => by
      have := hw.2.2.2 k (List.mem_append_right _ (s'.mem m.mem))
      omega
    left
    show _ = ((if s.which (fs := fs) x = k then some 0 else none : Option Nat)).getD _
    by_cases hk : k ∈ a.numbers
    · cases s.unique s' hn.2.1 hk m.mem
      by_cases hk' : s.which (fs := fs) x = k
      · obtain ⟨z, f3, f4⟩ := f2 hk'
        rw [f3] at hy
        injection hy with hy
        subst hy
        rw [if_pos hk']
        exact congrArg OneofObj.which f4.member
      · rw [f1 hk'] at hy
        injection hy with hy
        subst hy
        rw [if_neg hk']
        rfl
    · have hk' : ¬ s.which (fs := fs) x = k := by
        intro e
        rcases C28_live s x h hx with ⟨h1, _⟩ | ⟨num, t, m', z, h1, _⟩
        · exact h0 (e.symm.trans h1)
        · exact hk (e ▸ h1 ▸ m'.mem)
      rw [if_neg hk']
      have hne : a ≠ a' := fun e => hk (e ▸ m.mem)
      by_cases hk2 : s'.which (fs := fs) x = k
      · obtain ⟨z, f3, f4⟩ := f2 hk2
        rw [f3] at hy
        injection hy with hy
        subst hy
        exact congrArg OneofObj.which (f4.others a s hne)
      · rw [f1 hk2] at hy
        injection hy with hy
        subst hy
        rfl

/-- What the calls of a history selected in the oneof `s`, in order. -/
inductive Selections {a : Alts} (s : OneofSlot os a) : List (Option Nat) → (T).Obj → Prop where
  | new : Selections s [] (T).cls.init
  | call {es : List (Option Nat)} {x y : (T).Obj} (c : Call fs os) : Selections s es x → c.Legal →
      c.run x = .ok y → ¬ c.Fails x → Selections s (es ++ [c.selects s x]) y
  | fail {es : List (Option Nat)} {x y : (T).Obj} (c : Call fs os) : Selections s es x → c.Legal →
      c.run x = .ok y → c.Fails x → Selections s (es ++ [some (s.which (fs := fs) y)]) y

/-- Every reachable object has such a history. -/
theorem C28_every_history {a : Alts} (s : OneofSlot os a) (x : (T).Obj) (hx : (T).Reach x) :
    ∃ es, Selections (fs := fs) s es x := by
  obtain ⟨cs, hcs⟩ := (reach_iff_history x).mp hx
  induction hcs with
  | new => exact ⟨[], .new⟩
  | call c hh hl hr ih =>
    obtain ⟨es, he⟩ := ih ((reach_iff_history _).mpr ⟨_, hh⟩)
    rcases Classical.em (c.Fails _) with hf | hf
    · exact ⟨_, .fail c he hl hr hf⟩
    · exact ⟨_, .call c he hl hr hf⟩

theorem Selections.reach {a : Alts} {s : OneofSlot os a} {es : List (Option Nat)} {x : (T).Obj}
    (he : Selections (fs := fs) s es x) : (T).Reach x := by
  induction he with
  | new => exact .init
  | call c _ hl hr _ ih => exact .step (fun _ h => h) (c.sound hl) ih hr
  | fail c _ hl hr _ ih => exact .step (fun _ h => h) (c.sound hl) ih hr

/-- **C28**.  After any history the selector is the last member selected (`0` if there was none or the
last call to touch the oneof unset it). -/
theorem C28_last {a : Alts} (s : OneofSlot os a) (es : List (Option Nat)) (x : (T).Obj)
    (h : (T).WF) (he : Selections (fs := fs) s es x) :
    s.which (fs := fs) x = ((es.filterMap id).getLast?).getD 0 := by
  induction he with
  | new =>
    exact (s.which_zero h (ElemTy.base T h).init_inv).mpr
      ((congrArg (fun v : (T).Val => s.get v.2) (ElemTy.base T h).init_abs).trans s.get_dflt)
  | @call es x y c he hl hr hf ih =>
    rcases C28_call s c x y h he.reach hl hr with h1 | h1
    · rw [h1, ih, List.filterMap_append]
      cases c.selects s x <;> simp
    · exact absurd h1.2 hf
  | fail c he hl hr hf ih =>
    rw [List.filterMap_append]
    simp

/-- **C28**: a call on member `m` leaves it set to what the call made of it, and every other member
unset. -/
theorem C28_set {a : Alts} {num : Nat} {t : ElemTy} (s : OneofSlot os a) (m : Member a num t)
    (g : t.cls.State → Res t.cls.State) (x y : (T).Obj) (h : (T).WF) (hx : (T).Reach x)
    (_ : MemberApi t.cls.init t.Api g) (hy : m.call (fs := fs) s g x = .ok y) :
    m.has (fs := fs) s y = true ∧
    (∀ num' t' (m' : Member a num' t'), num' ≠ num → m'.has (fs := fs) s y = false) ∧
    ∃ z, m.get (fs := fs) s y = .ok z ∧ g (m.current (s.member (fs := fs) x)) = .ok z ∧
      s.get ((T).abs y).2 = some (m.inj (t.abs z)) := by
  have ix := ElemTy.reach_inv T h hx
  obtain ⟨_, f, f1, f2⟩ := m.call_eq (fs := fs) s h ix
  rw [f1] at hy
  cases hgz : g (m.current (s.member (fs := fs) x)) with
  | ub => rw [hgz] at hy; exact nomatch hy
  | diverge => rw [hgz] at hy; exact nomatch hy
  | ok z =>
    rw [hgz] at hy
    injection hy with hy
    subst hy
    have hwh : s.which (fs := fs) (f z) = num := congrArg OneofObj.which (f2 z).member
    refine ⟨(m.has_eq s _).mpr hwh, fun num' t' m' hne => ?_, z, ?_, rfl, ?_⟩
    · refine Bool.eq_false_iff.mpr fun e => ?_
      exact hne (((m'.has_eq s _).mp e).symm.trans hwh)
    · unfold Member.get
      have : s.state (f z).oneofs = ⟨num, some (m.injState z)⟩ := (f2 z).member
      rw [this]
      exact m.readUnion_injState z
    · rw [(f2 z).abs]
      exact (s.get_put _ _).trans (congrArg some (m.abs_injState z))

/-- **C28**: no call of the interface — and so no constructor, destructor, assignment or decoding of a
member they make — uses a member that is not live; nor does serializing.  (In the model such a use is
undefined behaviour.) -/
theorem C28_no_inactive_access (c : Call fs os) (x : (T).Obj) (h : (T).WF) (hx : (T).Reach x) (hc : c.Legal) :
    c.run x ≠ .ub := (c.run_inv hc h (ElemTy.reach_inv T h hx)).1

/-- **C28**, for the reader: `get_x()` is defined exactly when `has_x()` holds, and it then gives the
value of the member. -/
theorem C28_get {a : Alts} {num : Nat} {t : ElemTy} (s : OneofSlot os a) (m : Member a num t) (x : (T).Obj)
    (h : (T).WF) (hx : (T).Reach x) :
    (m.has (fs := fs) s x = true → ∃ z, m.get (fs := fs) s x = .ok z ∧
      s.get ((T).abs x).2 = some (m.inj (t.abs z))) ∧
    (m.has (fs := fs) s x = false → m.get (fs := fs) s x = .ub) := by
  have ix := ElemTy.reach_inv T h hx
  have hw := h
  simp only [ElemTy.WF] at hw
  have hn := List.nodup_append.mp hw.2.2.1
  have ha := s.wf hw.2.1 hn.2.1
  have ho := s.inv_state ix.2.2
  have hg : s.get ((T).abs x).2 = (s.state x.oneofs).live.map a.spec.abs := s.get_abs x.oneofs
  unfold Member.get
  rw [m.readUnion_eq]
  constructor
  · intro hh
    have hh := (m.has_eq s x).mp hh
    rcases C28_live s x h hx with ⟨h0, _⟩ | ⟨num', t', m', z', h1, h0, h2, _⟩
    · have := hw.2.2.2 num (List.mem_append_right _ (s.mem m.mem))
      omega
    · have h2 : (s.state x.oneofs).live = some (m'.injState z') := h2
      obtain ⟨z, hz⟩ := m.of_num ha.1 ha.2 (m'.injState z') ((m'.num_injState z').trans (h1.symm.trans hh))
      rw [hg, h2, hz]
      exact ⟨z, by rw [Option.bind_some, m.projState_injState], congrArg some (m.abs_injState z)⟩
  · intro hh
    have hh : ¬ s.which (fs := fs) x = num := fun e => by
      rw [(m.has_eq s x).mpr e] at hh; exact nomatch hh
    cases hl : (s.state x.oneofs).live with
    | none => rfl
    | some u =>
      have : (s.state x.oneofs).which = a.spec.num u := by
        generalize s.state x.oneofs = o at ho hl
        obtain ⟨w, l⟩ := o
        cases hl
        exact ho.1
      rw [Option.bind_some, m.projState_of_num ha.1 ha.2 u (fun e => hh (this.trans e))]

/-! ## C52 -/

/-- Full statement of **C52**: reading a oneof member of a reachable object is never undefined. -/
def C52_Statement (fs : Fields) (os : Oneofs) : Prop :=
  ∀ (a : Alts) (num : Nat) (t : ElemTy) (s : OneofSlot os a) (m : Member a num t) (x : (ElemTy.msg fs os).Obj),
    (ElemTy.msg fs os).WF → (ElemTy.msg fs os).Reach x → m.get (fs := fs) s x ≠ .ub

/-- **C52** where it holds: the member read is the one the selector names.  Data members outside oneofs
always exist, so reading them cannot fail (their accessors are projections).  Missing: any other member of
a oneof, where the access is undefined (`C28_get`). -/
theorem C52_selected_partial {a : Alts} {num : Nat} {t : ElemTy} (s : OneofSlot os a) (m : Member a num t)
    (x : (T).Obj) (h : (T).WF) (hx : (T).Reach x) (hs : s.which (fs := fs) x = num) :
    ∃ z, m.get (fs := fs) s x = .ok z ∧ s.get ((T).abs x).2 = some (m.inj (t.abs z)) :=
  (C28_get s m x h hx).1 ((m.has_eq s x).mpr hs)

/-! ## C29 -/

/-- **C29**.  `clear()` of any reachable object makes it, in every bit, a newly constructed object: what
follows cannot tell the difference. -/
theorem C29_clear (x : (T).Obj) (h : (T).WF) (hx : (T).Reach x) : (T).cls.clear x = .ok (T).cls.init :=
  (ElemTy.base T h).clear x (ElemTy.reach_inv T h hx)

/-- **C29**, as seen through the accessors: every field reads as default, no flag and no oneof is set. -/
theorem C29_default (x y : (T).Obj) (h : (T).WF) (hx : (T).Reach x) (hy : (T).cls.clear x = .ok y) :
    (T).abs y = (T).dflt ∧
    (∀ num c t (s : Slot fs num c t), s.get ((T).abs y).1 = c.dflt t) ∧
    (∀ num t (s : Slot fs num .opt t), s.has (os := os) y = .ok false) ∧
    (∀ a (s : OneofSlot os a), s.which (fs := fs) y = 0 ∧ s.get ((T).abs y).2 = none) := by
  rw [C29_clear x h hx] at hy
  injection hy with hy
  subst hy
  have ha := (ElemTy.base T h).init_abs
  have ii := (ElemTy.base T h).init_inv
  have hs : ∀ num c t (s : Slot fs num c t), s.get ((T).abs (T).cls.init).1 = c.dflt t := fun num c t s =>
    (congrArg (fun v : (T).Val => s.get v.1) ha).trans s.get_dflt
  have ho : ∀ a (s : OneofSlot os a), s.get ((T).abs (T).cls.init).2 = none := fun a s =>
    (congrArg (fun v : (T).Val => s.get v.2) ha).trans s.get_dflt
  refine ⟨ha, hs, fun num t s => ?_, fun a s => ⟨(s.which_zero h ii).mpr (ho a s), ho a s⟩⟩
  rw [s.has_eq ii]
  exact congrArg (fun v => Res.ok (Option.isSome (α := t.Val) v)) (hs num .opt t s)

/-- Zero bytes are the encoding of the default value only (up to `-0.0` in fields without presence). -/
theorem C29_empty_encoding (x : (T).Obj) :
    (T).encode ((T).canon ((T).abs x)) = [] ↔ (T).canon ((T).abs x) = (T).dflt :=
  (ElemTy.msg_encodeWith_eq_nil fs os _).trans (ElemTy.isDflt_iff T _)

/-- **C29**: a cleared object serializes, successfully, to zero bytes, into any buffer. -/
theorem C29_zero_bytes {ω : Type} [WriteBuffer ω] (M : WriteModel ω) (x y : (T).Obj) (w : ω) (c : List Byte)
    (room : Nat) (h : (T).WF) (hx : (T).Reach x) (hw : M.Rep w c room) (hy : (T).cls.clear x = .ok y) :
    (T).cls.serializedSize y = .ok 0 ∧
    ∃ w', (T).cls.serialize y w = .ok (.noErrors, w') ∧ M.Rep w' c room := by
  rw [C29_clear x h hx] at hy
  injection hy with hy
  subst hy
  have he : (T).encode ((T).canon ((T).abs (T).cls.init)) = [] := by
    rw [C29_empty_encoding]
    exact (congrArg (T).canon (ElemTy.base T h).init_abs).trans (ElemTy.canon_dflt T)
  have hi : (T).Reach (T).cls.init := .init
  have hl : ((T).encode ((T).canon ((T).abs (T).cls.init))).length < 2 ^ 32 := by rw [he]; decide
  refine ⟨?_, ?_⟩
  · have := C14_size_of_encoding fs os (T).cls.init h hi hl
    rw [he] at this
    exact this
  · have := C13_serialize_partial M fs os (T).cls.init w c room h hi hw hl
    rw [he] at this
    obtain ⟨⟨e, w'⟩, h1, h2⟩ := this.exists
    rcases h2 with ⟨h2, h3⟩ | ⟨_, _, k, _, hk, _⟩
    · rw [List.append_nil] at h3
      cases h2
      exact ⟨w', h1, h3⟩
    · exact absurd hk (by simp)

/-! ## C30 -/

/-- **C30**.  After `a = b`, whatever `a` was, `a` has the value of `b`: every accessor gives the same, and
it serializes to the same bytes with the same result, into any buffer.  (`b` is passed by const
reference; in the model it is an argument that is not returned.) -/
theorem C30_assign (a b : (T).Obj) (h : (T).WF) (ha : (T).Reach a) (hb : (T).Reach b) :
    ∃ c, (T).cls.assign a b = .ok c ∧ (T).Reach c ∧ (T).abs c = (T).abs b ∧
    (∀ num t (s : Slot fs num .opt t), s.has (os := os) c = s.has (os := os) b) ∧
    (∀ al (s : OneofSlot os al), s.which (fs := fs) c = s.which (fs := fs) b) ∧
    (∀ {ω : Type} [WriteBuffer ω] (w : ω), (T).cls.serialize c w = (T).cls.serialize b w) ∧
    (T).cls.serializedSize c = (T).cls.serializedSize b := by
  have ia := ElemTy.reach_inv T h ha
  have ib := ElemTy.reach_inv T h hb
  obtain ⟨c, h1, ic, h2, _⟩ := ((ElemTy.base T h).assign a b ia ib).exists
  have hc : (T).Reach c :=
    (reach_iff_history c).mpr (by
      obtain ⟨cs, hcs⟩ := (reach_iff_history a).mp ha
      exact ⟨_, .call (.assign b) hcs hb h1⟩)
  refine ⟨c, h1, hc, h2, fun num t s => ?_, fun al s => ?_, fun w => ?_, ?_⟩
  · rw [s.has_eq ic, s.has_eq ib]
    exact congrArg (fun v : (T).Val => Res.ok (Option.isSome (α := t.Val) (s.get v.1))) h2
  · exact s.which_congr h hb ic (congrArg (fun v : (T).Val => s.get v.2) h2)
  · exact (C33_deterministic fs os c b w h hc hb h2).1
  · exact (C33_deterministic fs os c b (⟨0⟩ : SizeCalc) h hc hb h2).2

/-- **C30** for the copy and move constructors, which run the code of `operator=` on a new object. -/
theorem C30_construct (b : (T).Obj) (h : (T).WF) (hb : (T).Reach b) :
    ∃ c, (T).cls.assign (T).cls.init b = .ok c ∧ (T).abs c = (T).abs b ∧
    (∀ {ω : Type} [WriteBuffer ω] (w : ω), (T).cls.serialize c w = (T).cls.serialize b w) := by
  obtain ⟨c, h1, _, h2, _, _, h3, _⟩ := C30_assign (fs := fs) (os := os) (T).cls.init b h .init hb
  exact ⟨c, h1, h2, h3⟩

/-! ## C51 -/

/-- The fields a call may change. -/
def Call.touches (x : (T).Obj) : Call fs os → Nat → Prop
  | .clear, _ => True
  | .assign _, _ => True
  | .receive src fuel, n => n ∈ met fs os fuel src.buf x
  | .receiveAs src fuel wt, n => n ∈ metNested fs os fuel src.buf wt x
  | .field (num := k) _ _, n => n = k
  | .clearField (num := k) _, n => n = k
  | .member (num := k) _ _ _, n => n = k
  | .clearMember (num := k) _ _, n => n = k

/-- The storage and the value of every field not in `touched`, and of every oneof without a member in
`touched`, are the same in both objects. -/
def SameElsewhere (touched : Nat → Prop) (x y : (T).Obj) : Prop :=
  (∀ num c t (s : Slot fs num c t), ¬ touched num →
    s.member (os := os) y = s.member (os := os) x ∧ s.get ((T).abs y).1 = s.get ((T).abs x).1) ∧
  (∀ a (s : OneofSlot os a), (∀ num ∈ a.numbers, ¬ touched num) → a.numbers ≠ [] →
    s.member (fs := fs) y = s.member (fs := fs) x ∧ s.get ((T).abs y).2 = s.get ((T).abs x).2)

/-- **C51**.  A call changes only the fields it is for: the storage and the value of every other field,
and of every oneof none of whose members it is for, stay the same.  Decoding is for the fields whose tags
it meets. -/
theorem C51_frame (c : Call fs os) (x y : (T).Obj) (h : (T).WF) (hx : (T).Reach x) (hc : c.Legal)
    (hy : c.run x = .ok y) : SameElsewhere (fs := fs) (os := os) (c.touches x) x y := by
  have ix := ElemTy.reach_inv T h hx
  have og : ∀ a (s : OneofSlot os a), s.member (fs := fs) y = s.member (fs := fs) x →
      s.get ((T).abs y).2 = s.get ((T).abs x).2 := by
    intro a s e
    have e1 : s.get ((T).abs y).2 = (s.state y.oneofs).live.map a.spec.abs := s.get_abs y.oneofs
    have e2 : s.get ((T).abs x).2 = (s.state x.oneofs).live.map a.spec.abs := s.get_abs x.oneofs
    have e : s.state y.oneofs = s.state x.oneofs := e
    rw [e1, e2, e]
  have hdec : ∀ e ids, Decoded (fs := fs) (os := os) e ids x y → (∀ n, n ∈ ids ↔ c.touches x n) →
      SameElsewhere (fs := fs) (os := os) (c.touches x) x y := by
    intro e ids hd hi
    refine ⟨fun num d t s hn => hd.fields num d t s (fun hm => hn ((hi num).mp hm)), fun a s hn _ => ?_⟩
    have : ids.filter (· ∈ a.numbers) = [] := by
      rw [List.filter_eq_nil_iff]
      intro n hn' ha
      exact hn n (by simpa using ha) ((hi n).mp hn')
    have ho := hd.oneofs a s
    rw [this] at ho
    exact ⟨ho, og a s ho⟩
  have hw := h
  simp only [ElemTy.WF] at hw
  have hn := List.nodup_append.mp hw.2.2.1
  cases c with
  | clear =>
    refine ⟨fun num d t s hn => absurd trivial hn, fun a s hn ha => ?_⟩
    obtain ⟨k, hk⟩ := List.exists_mem_of_ne_nil _ ha
    exact absurd trivial (hn k hk)
  | assign z =>
    refine ⟨fun num d t s hn => absurd trivial hn, fun a s hn ha => ?_⟩
    obtain ⟨k, hk⟩ := List.exists_mem_of_ne_nil _ ha
    exact absurd trivial (hn k hk)
  | receive src fuel =>
    obtain ⟨e, b', hr⟩ := Res.object_ok hy
    exact hdec _ _ (deserialize_decoded src.M h fuel src.buf b' e x y src.inv ix hr) fun n => Iff.rfl
  | receiveAs src fuel wt =>
    obtain ⟨e, b', hr⟩ := Res.object_ok hy
    exact hdec _ _ (check_decoded src.M h fuel src.buf b' wt e x y src.inv ix hr) fun n => Iff.rfl
  | @field k c u s' g =>
    obtain ⟨f, f1, f2⟩ := s'.call_eq (os := os) h ix
    have hy : s'.call (os := os) g x = .ok y := hy
    rw [f1] at hy
    cases hg : g (s'.member (os := os) x) with
    | ub => rw [hg] at hy; exact nomatch hy
    | diverge => rw [hg] at hy; exact nomatch hy
    | ok z =>
      rw [hg] at hy
      injection hy with hy
      subst hy
      refine ⟨fun num d t s hk => ⟨(f2 z).others num d t s hk, ?_⟩, fun a s _ _ => ?_⟩
      · rw [(f2 z).abs]
        exact s.get_put_ne s' hk _ _
      · have := congrArg s.state (f2 z).oneofs
        exact ⟨this, og a s this⟩
  | @clearField k u s' =>
    obtain ⟨z, f1, f2⟩ := s'.clearCall_eq (os := os) h ix
    have hy : s'.clearCall (os := os) x = .ok y := hy
    rw [f1] at hy
    injection hy with hy
    subst hy
    refine ⟨fun num d t s hk => ⟨f2.others num d t s hk, ?_⟩, fun a s _ _ => ?_⟩
    · rw [f2.abs]
      exact s.get_put_ne s' hk _ _
    · have := congrArg s.state f2.oneofs
      exact ⟨this, og a s this⟩
  | @member a' k u s' m g =>
    obtain ⟨_, f, f1, f2⟩ := m.call_eq (fs := fs) s' h ix
    have hy : m.call (fs := fs) s' g x = .ok y := hy
    rw [f1] at hy
    cases hg : g (m.current (s'.member (fs := fs) x)) with
    | ub => rw [hg] at hy; exact nomatch hy
    | diverge => rw [hg] at hy; exact nomatch hy
    | ok z =>
      rw [hg] at hy
      injection hy with hy
      subst hy
      refine ⟨fun num d t s _ => ⟨congrArg (s.state 0) (f2 z).fields.2, ?_⟩, fun a s hk _ => ?_⟩
      · rw [(f2 z).abs]
      · have hne : a ≠ a' := fun e => hk k (e ▸ m.mem) rfl
        have := (f2 z).others a s hne
        exact ⟨this, og a s this⟩
  | @clearMember a' k u s' m =>
    have hy : m.clearCall (fs := fs) s' x = .ok y := hy
    obtain ⟨f1, f2⟩ := m.clearCall_eq (fs := fs) s' h ix
    by_cases hk2 : s'.which (fs := fs) x = k
    · obtain ⟨z, f3, f4⟩ := f2 hk2
      rw [f3] at hy
      injection hy with hy
      subst hy
      refine ⟨fun num d t s _ => ⟨congrArg (s.state 0) f4.fields.2, ?_⟩, fun a s hk _ => ?_⟩
      · rw [f4.abs]
      · have hne : a ≠ a' := fun e => hk k (e ▸ m.mem) rfl
        have := f4.others a s hne
        exact ⟨this, og a s this⟩
    · rw [f1 hk2] at hy
      injection hy with hy
      subst hy
      exact ⟨fun _ _ _ _ _ => ⟨rfl, rfl⟩, fun _ _ _ _ => ⟨rfl, rfl⟩⟩

end

/-! ### Case: 40 optional fields

`message { optional bool f1 = 1; … optional bool f40 = 40; }`: the flags take two words.  Setting field 35
and clearing field 3 are noticed by these fields only. -/

def manyOptional : Nat → Fields
  | 0 => .nil
  | n + 1 => .optional (n + 1) (.scalar .boolean) (manyOptional n)

def manySlot (n : Nat) : (j : Nat) → Slot (manyOptional (n + 1 + j)) (n + 1) .opt (.scalar .boolean)
  | 0 => .optional _ _ _
  | j + 1 => .afterOptional _ _ (manySlot n j)

abbrev many : ElemTy := .msg (manyOptional 40) .nil

theorem many_wf : many.WF := by
  simp [manyOptional, ElemTy.WF, Fields.WF, Oneofs.WF, Fields.numbers, Oneofs.numbers]

/-- Field 6 (the 35th declared). -/
def many6 : Slot (manyOptional 40) 6 .opt (.scalar .boolean) := manySlot 5 34

/-- Field 38 (the third declared). -/
def many38 : Slot (manyOptional 40) 38 .opt (.scalar .boolean) := manySlot 37 2

/-- Setting field 6, then field 38, then clearing field 38: the flags after each call. -/
example : (do
    let x ← many6.call (os := .nil) (fun _ => .ok true) many.cls.init
    let y ← many38.call (os := .nil) (fun _ => .ok true) x
    let z ← many38.clearCall (os := .nil) y
    let r ← many6.has (os := .nil) z
    pure (x.presence, y.presence, z.presence, r) : Res _) =
    .ok ([0, 4], [4, 4], [0, 4], true) := by decide +kernel

/-- The history of field 6 in it. -/
example : ∃ x, Effects (os := .nil) many6 [some true, none, none] x := by
  have h1 : (Call.field (os := .nil) many6 fun _ => .ok true).Legal :=
    Or.inr ⟨fun _ => False, fun _ h => h.elim, Or.inr ⟨true, rfl⟩⟩
  have h2 : (Call.field (os := .nil) many38 fun _ => .ok true).Legal :=
    Or.inr ⟨fun _ => False, fun _ h => h.elim, Or.inr ⟨true, rfl⟩⟩
  have i0 := (ElemTy.base many many_wf).init_inv
  obtain ⟨f, f1, f2⟩ := many6.call_eq (os := .nil) many_wf i0
  have i1 := (f2 true).inv trivial (fun _ e => nomatch e)
  obtain ⟨g, g1, g2⟩ := many38.call_eq (os := .nil) many_wf i1
  have i2 := (g2 true).inv trivial (fun _ e => nomatch e)
  obtain ⟨z, z1, _⟩ := many38.clearCall_eq (os := .nil) many_wf i2
  exact ⟨z, .call (.clearField many38) (.call _ (.call _ .new h1 (f1 fun _ => .ok true)) h2
    (g1 fun _ => .ok true)) trivial z1⟩

/-! ### Case: the sample message -/

section
open Sample

/-- The sample object holds member 100 of its oneof; then `set_h(true)`, `mutable_i()`, `clear_h()` (not the
live member: nothing happens), `clear_i()`. -/
example : ∃ x, outer.Reach x ∧ outer.abs x = value ∧ Sample.oneof.which (fs := fields) x = 100 := by
  obtain ⟨b, x, h, _, hv⟩ := decoded
  have hr := outer.reach_decoded (Source.holding 64 (by omega) bytes (by decide)) 64 .init h
  refine ⟨x, hr, hv, ?_⟩
  exact (Sample.oneof.which_eq outer_wf (ElemTy.reach_inv outer outer_wf hr)
    (.after _ _ (.after _ _ (.here _ _ _)))).mpr
    ⟨((2#32, [], ()), ()), congrArg (fun v : outer.Val => Sample.oneof.get v.2) hv⟩

def memberH : Member (.cons 8 (.scalar .boolean) (.cons 9 (.str 4) (.cons 100 inner .nil))) 8 (.scalar .boolean) :=
  .here _ _ _

example : (do
    let x ← memberH.call (fs := fields) Sample.oneof (fun _ => .ok true) outer.cls.init
    let y ← memberI.call (fs := fields) Sample.oneof pure x
    let z ← memberH.clearCall (fs := fields) Sample.oneof y
    let u ← memberI.clearCall (fs := fields) Sample.oneof z
    pure ([x, y, z, u].map (Sample.oneof.which (fs := fields))) : Res _) = .ok [8, 9, 9, 0] := by decide +kernel

/-- Reading `h` while `i` is set is undefined. -/
example : (do
    let y ← memberI.call (fs := fields) Sample.oneof pure outer.cls.init
    memberH.get (fs := fields) Sample.oneof y : Res _) = .ub := rfl

/-- **C52** is false: already on a new object `x()` of a member of a oneof reads storage that holds no
object. -/
theorem C52_false : ¬ ∀ fs os, C52_Statement fs os := fun h =>
  h fields oneofs _ _ _ Sample.oneof memberH outer.cls.init outer_wf .init rfl

/-- Decoding the sample bytes meets these fields. -/
example : met fields oneofs 64 (ReadFixed.holding 64 bytes) outer.cls.init = [1, 2, 3, 4, 5, 6, 6, 7, 100] := by
  decide +kernel

/-- The sample object is not the default, its cleared version is. -/
example : ∃ x y, outer.Reach x ∧ outer.abs x = value ∧ outer.cls.clear x = .ok y ∧ outer.abs y = outer.dflt := by
  obtain ⟨x, hx, hv⟩ := reachable
  exact ⟨x, _, hx, hv, C29_clear x outer_wf hx, (C29_default x _ outer_wf hx (C29_clear x outer_wf hx)).1⟩

/-- Copying it onto a new object. -/
example : ∃ b c, outer.Reach b ∧ outer.cls.assign outer.cls.init b = .ok c ∧ outer.abs c = value := by
  obtain ⟨x, hx, hv⟩ := reachable
  obtain ⟨c, h1, h2, _⟩ := C30_construct x outer_wf hx
  exact ⟨x, c, hx, h1, h2.trans hv⟩

end

end EP
