import Verif.Spec.Made
import Verif.Proof.Accessors
import Verif.Proof.Bounded
import Verif.Proof.History
import Verif.Proof.Fits

/-! # The values of objects made with the setters -/

namespace EP
open Spec

variable {fs : Fields} {os : Oneofs} {num cap : Nat} {t : ElemTy} {a : Alts}

/-! ## They are objects a program can have -/

theorem ElemTy.api_common (t : ElemTy) {R : t.cls.State → Prop} {f : t.cls.State → Res t.cls.State}
    (h : CommonApi t.cls R f) : t.Api R f := by
  cases t <;> (simp only [ElemTy.Api]; exact Or.inl h)

theorem setter_api {z : t.cls.State} (hz : t.Reach z) : MemberApi t.cls.init t.Api fun w => t.cls.set w z :=
  Or.inr ⟨t.Reach, fun _ h => h, t.api_common (Or.inr (Or.inr (Or.inl ⟨z, hz, rfl⟩)))⟩

theorem Made.reach {x : t.cls.State} (h : Made t x) : t.Reach x := by
  induction h with
  | scalar s v =>
    refine ReachGen.step (fun _ h => h) (x := (ElemTy.scalar s).cls.init) (f := fun _ => .ok v) ?_ .init rfl
    simp only [ElemTy.Api]
    exact Or.inr ⟨v, rfl⟩
  | str cap bs e =>
    refine ReachGen.step (fun _ h => h) (x := (ElemTy.str cap).cls.init)
      (f := fun x : StrObj => (x.setData cap bs) >>= fun r => pure r.2) ?_ .init ?_
    · simp only [ElemTy.Api]
      exact Or.inr (Or.inl ⟨bs, rfl⟩)
    · show ((StrObj.init cap).setData cap bs >>= fun r => pure r.2) = _
      rw [e]
      rfl
  | new => exact .init
  | @field fs os num t s x y z _ _ e hx hz =>
    exact .step (fun _ h => h) ((Call.field s fun w => t.cls.set w z).sound (setter_api hz)) hx e
  | @optional fs os num t s x y z _ _ e hx hz =>
    exact .step (fun _ h => h) ((Call.field s fun w => t.cls.set w z).sound (setter_api hz)) hx e
  | @add fs os num cap t s x y z _ _ e hx hz =>
    exact .step (fun _ h => h) ((Call.field s fun w => RepObj.add cap w z >>= fun r => pure r.2).sound
      (Or.inr ⟨fun _ => False, fun _ h => h.elim, Or.inr (Or.inl ⟨z, hz, rfl⟩)⟩)) hx e
  | @member fs os a num t s m x y z _ _ e hx hz =>
    exact .step (fun _ h => h) ((Call.member s m fun w => t.cls.set w z).sound (setter_api hz)) hx e

/-! ## What one setter makes -/

theorem elems_added {α β : Type} (g : α → β) {x : RepObj α} {w z : α} (e : g w = g z) (hl : x.len < x.data.length) :
    ((RepObj.mk (x.len + 1) (x.data.set x.len w)).elems).map g = x.elems.map g ++ [g z] := by
  rw [← e]
  simp only [RepObj.elems]
  rw [List.take_add_one, List.getElem?_set_self hl, List.take_set_of_le (Nat.le_refl _), List.map_append]
  rfl

section
variable (h : (ElemTy.msg fs os).WF) {x : (ElemTy.msg fs os).Obj} (hx : Made (.msg fs os) x) {z : t.Obj} (hz : Made t z)
include h hx hz

theorem Made.put_field (s : Slot fs num .single t) : ∃ y, Made (.msg fs os) y ∧
    (ElemTy.msg fs os).abs y = (s.put ((ElemTy.msg fs os).abs x).1 (t.abs z), ((ElemTy.msg fs os).abs x).2) := by
  have ix := ElemTy.reach_inv _ h hx.reach
  have hw := h
  simp only [ElemTy.WF] at hw
  have ht := (s.wf hw.1).1
  obtain ⟨f, f1, f2⟩ := s.call_eq h ix
  obtain ⟨w, w1, _, w3, _⟩ := ((ElemTy.base t ht).set _ z (s.inv_member ix) (ElemTy.reach_inv t ht hz.reach)).exists
  refine ⟨f w, .field s hx hz ?_, ?_⟩
  · rw [f1, w1]; rfl
  · rw [(f2 w).abs]
    exact congrArg (fun q => (s.put ((ElemTy.msg fs os).abs x).1 q, ((ElemTy.msg fs os).abs x).2)) w3

theorem Made.put_optional (s : Slot fs num .opt t) : ∃ y, Made (.msg fs os) y ∧
    (ElemTy.msg fs os).abs y = (s.put ((ElemTy.msg fs os).abs x).1 (some (t.abs z)), ((ElemTy.msg fs os).abs x).2) := by
  have ix := ElemTy.reach_inv _ h hx.reach
  have hw := h
  simp only [ElemTy.WF] at hw
  have ht := (s.wf hw.1).1
  obtain ⟨f, f1, f2⟩ := s.call_eq h ix
  obtain ⟨w, w1, _, w3, _⟩ := ((ElemTy.base t ht).set _ z (s.inv_member ix) (ElemTy.reach_inv t ht hz.reach)).exists
  refine ⟨f w, .optional s hx hz ?_, ?_⟩
  · rw [f1, w1]; rfl
  · rw [(f2 w).abs]
    exact congrArg (fun q => (s.put ((ElemTy.msg fs os).abs x).1 (some q), ((ElemTy.msg fs os).abs x).2)) w3

theorem Made.put_added (s : Slot fs num (.rep cap) t)
    (hl : List.length (α := t.Val) (s.get ((ElemTy.msg fs os).abs x).1) < cap) : ∃ y, Made (.msg fs os) y ∧
    (ElemTy.msg fs os).abs y = (s.put ((ElemTy.msg fs os).abs x).1
      (List.append (α := t.Val) (s.get ((ElemTy.msg fs os).abs x).1) [t.abs z]), ((ElemTy.msg fs os).abs x).2) := by
  have ix := ElemTy.reach_inv _ h hx.reach
  have hw := h
  simp only [ElemTy.WF] at hw
  have ht := s.wf hw.1
  obtain ⟨f, f1, f2⟩ := s.call_eq h ix
  have im := s.inv_member ix
  have hg : s.get ((ElemTy.msg fs os).abs x).1 = (repSpec t.spec cap).abs (s.member (os := os) x) := s.get_abs 0 _ _
  have hlen : List.length (α := t.Val) ((repSpec t.spec cap).abs (s.member (os := os) x)) =
      RepObj.len (s.member (os := os) x) := by
    obtain ⟨i1, i2, _⟩ := im
    show ((RepObj.elems _).map t.abs).length = _
    simp only [RepObj.elems, List.length_map, List.length_take]
    omega
  rw [hg, hlen] at hl
  obtain ⟨w, w1, w2, w3⟩ := (rep_add_eq (ElemTy.base t ht.1) (ht.2 cap rfl) im (ElemTy.reach_inv t ht.1 hz.reach)).1 hl
  refine ⟨f (RepObj.mk (RepObj.len (s.member (os := os) x) + 1)
    ((RepObj.data (s.member (os := os) x)).set (RepObj.len (s.member (os := os) x)) w)), .add s hx hz ?_, ?_⟩
  · rw [f1, w1]; rfl
  · refine ((f2 _).abs).trans ?_
    rw [hg]
    refine congrArg (fun q => (s.put ((ElemTy.msg fs os).abs x).1 q, ((ElemTy.msg fs os).abs x).2)) ?_
    exact elems_added t.abs w3 (by rw [im.1]; exact hl)

theorem Made.put_member (s : OneofSlot os a) (m : Member a num t) : ∃ y, Made (.msg fs os) y ∧
    (ElemTy.msg fs os).abs y = (((ElemTy.msg fs os).abs x).1, s.put ((ElemTy.msg fs os).abs x).2 (some (m.inj (t.abs z)))) := by
  have ix := ElemTy.reach_inv _ h hx.reach
  have hw := h
  simp only [ElemTy.WF] at hw
  have ha := s.wf hw.2.1 (List.nodup_append.mp hw.2.2.1).2.1
  have ht := m.wf ha.1
  obtain ⟨hc, f, f1, f2⟩ := m.call_eq s h ix
  obtain ⟨w, w1, _, w3, _⟩ := ((ElemTy.base t ht).set _ z hc (ElemTy.reach_inv t ht hz.reach)).exists
  refine ⟨f w, .member s m hx hz ?_, ?_⟩
  · rw [f1, w1]; rfl
  · rw [(f2 w).abs]
    show (_, s.put _ (some (a.spec.abs (m.injState w)))) = _
    rw [m.abs_injState]
    exact congrArg (fun q => (((ElemTy.msg fs os).abs x).1, s.put ((ElemTy.msg fs os).abs x).2 (some (m.inj q)))) w3

end

/-! ## Setting one field after the other -/

/-- `Q` is kept by the setters of the fields. -/
structure Fields.Closed (fs : Fields) (Q : fs.Val → Prop) : Prop where
  field : ∀ {num t} (s : Slot fs num .single t) {u z}, Made t z → Q u → Q (s.put u (t.abs z))
  optional : ∀ {num t} (s : Slot fs num .opt t) {u z}, Made t z → Q u → Q (s.put u (some (t.abs z)))
  add : ∀ {num cap t} (s : Slot fs num (.rep cap) t) {u z}, List.length (α := t.Val) (s.get u) < cap → Made t z → Q u →
    Q (s.put u (List.append (α := t.Val) (s.get u) [t.abs z]))

/-- `Q` is kept by the setters of the members of the oneofs. -/
def Oneofs.Closed (os : Oneofs) (Q : os.Val → Prop) : Prop :=
  ∀ {a num t} (s : OneofSlot os a) (m : Member a num t) {u z}, Made t z → Q u → Q (s.put u (some (m.inj (t.abs z))))

theorem snoc_induction {α : Type} {P : List α → Prop} (h0 : P []) (h1 : ∀ l x, P l → P (l ++ [x])) (l : List α) : P l := by
  rw [← l.reverse_reverse]
  induction l.reverse with
  | nil => exact h0
  | cons x l ih => rw [List.reverse_cons]; exact h1 _ _ ih

mutual
theorem ElemTy.made : (t : ElemTy) → t.WF → (v : t.Val) → t.Fits v → ∃ x, Made t x ∧ t.abs x = v
  | .scalar s, _, v, _ => ⟨v, .scalar s v, rfl⟩
  | .str cap, _, v, hv => by
    have e := StrObj.setData_eq cap (StrObj.init cap) v (str_base cap).init_inv hv
    refine ⟨_, .str cap v e, ?_⟩
    show List.take _ _ = _
    exact List.take_left' rfl
  | .msg fs os, h, v, hv => by
    have hw := h
    simp only [ElemTy.WF] at hw
    have h0 : ∃ x, Made (.msg fs os) x ∧ (ElemTy.msg fs os).abs x = (fs.dflt, os.dflt) :=
      ⟨_, .new fs os, (ElemTy.base _ h).init_abs⟩
    have h1 : ∃ x, Made (.msg fs os) x ∧ (ElemTy.msg fs os).abs x = (v.1, os.dflt) := by
      refine Fields.made fs hw.1 v.1 hv.1 (fun u => ∃ x, Made (.msg fs os) x ∧ (ElemTy.msg fs os).abs x = (u, os.dflt))
        ⟨?_, ?_, ?_⟩ h0
      · rintro num t s u z hz ⟨x, hx, e⟩
        obtain ⟨y, hy, ey⟩ := hx.put_field h hz s
        exact ⟨y, hy, by rw [ey, e]⟩
      · rintro num t s u z hz ⟨x, hx, e⟩
        obtain ⟨y, hy, ey⟩ := hx.put_optional h hz s
        exact ⟨y, hy, by rw [ey, e]⟩
      · rintro num cap t s u z hl hz ⟨x, hx, e⟩
        obtain ⟨y, hy, ey⟩ := hx.put_added h hz s (by rw [e]; exact hl)
        exact ⟨y, hy, by rw [ey, e]⟩
    refine Oneofs.made os hw.2.1 v.2 hv.2 (fun u => ∃ x, Made (.msg fs os) x ∧ (ElemTy.msg fs os).abs x = (v.1, u)) ?_ h1
    rintro a num t s m u z hz ⟨x, hx, e⟩
    obtain ⟨y, hy, ey⟩ := hx.put_member h hz s m
    exact ⟨y, hy, by rw [ey, e]⟩
theorem Fields.made : (fs : Fields) → fs.WF → (v : fs.Val) → fs.Fits v → (Q : fs.Val → Prop) → fs.Closed Q → Q fs.dflt → Q v
  | .nil, _, _, _, _, _, h0 => h0
  | .plain num t rest, h, v, hv, Q, hQ, h0 => by
    simp only [Fields.WF] at h
    obtain ⟨z, hz, e⟩ := ElemTy.made t h.1 v.1 hv.1
    have h1 : Q (t.dflt, v.2) := Fields.made rest h.2 v.2 hv.2 (fun u => Q (t.dflt, u))
      ⟨fun {_ _} s {u _} => hQ.field (.afterPlain num t s) (u := (t.dflt, u)),
        fun {_ _} s {u _} => hQ.optional (.afterPlain num t s) (u := (t.dflt, u)),
        fun {_ _ _} s {u _} => hQ.add (.afterPlain num t s) (u := (t.dflt, u))⟩ h0
    have h2 : Q (t.abs z, v.2) := hQ.field (.plain num t rest) (u := (t.dflt, v.2)) hz h1
    rwa [e] at h2
  | .optional num t rest, h, v, hv, Q, hQ, h0 => by
    simp only [Fields.WF] at h
    have h1 : Q (none, v.2) := Fields.made rest h.2 v.2 hv.2 (fun u => Q (none, u))
      ⟨fun {_ _} s {u _} => hQ.field (.afterOptional num t s) (u := (none, u)),
        fun {_ _} s {u _} => hQ.optional (.afterOptional num t s) (u := (none, u)),
        fun {_ _ _} s {u _} => hQ.add (.afterOptional num t s) (u := (none, u))⟩ h0
    have ht := ElemTy.made t h.1
    obtain ⟨o, r⟩ := v
    cases o with
    | none => exact h1
    | some w =>
      obtain ⟨z, hz, e⟩ := ht w (hv.1 w rfl)
      have h2 : Q (some (t.abs z), r) := hQ.optional (.optional num t rest) (u := (none, r)) hz h1
      rwa [e] at h2
  | .repeated num cap t rest, h, v, hv, Q, hQ, h0 => by
    simp only [Fields.WF] at h
    have h1 : Q (([] : List t.Val), v.2) := Fields.made rest h.2.2 v.2 hv.2 (fun u => Q (([] : List t.Val), u))
      ⟨fun {_ _} s {u _} => hQ.field (.afterRepeated num cap t s) (u := (([] : List t.Val), u)),
        fun {_ _} s {u _} => hQ.optional (.afterRepeated num cap t s) (u := (([] : List t.Val), u)),
        fun {_ _ _} s {u _} => hQ.add (.afterRepeated num cap t s) (u := (([] : List t.Val), u))⟩ h0
    have ht := ElemTy.made t h.2.1
    obtain ⟨l, r⟩ := v
    obtain ⟨⟨hl, hf⟩, _⟩ := hv
    have key : ∀ l : List t.Val, l.length ≤ cap → (∀ x ∈ l, t.Fits x) → Q (l, r) := by
      refine snoc_induction (fun _ _ => h1) fun l w ih hl hf => ?_
      rw [List.length_append] at hl
      obtain ⟨z, hz, e⟩ := ht w (hf w (List.mem_append_right _ (List.mem_singleton.mpr rfl)))
      have h2 : Q ((l ++ [t.abs z] : List t.Val), r) := hQ.add (.repeated num cap t rest) (u := (l, r))
        (Nat.lt_of_succ_le hl) hz (ih (Nat.le_of_succ_le hl) fun x hx => hf x (List.mem_append_left _ hx))
      rwa [e] at h2
    exact key l hl hf
theorem Alts.made : (a : Alts) → a.WF → (v : a.Val) → a.Fits v →
    ∃ (num : Nat) (t : ElemTy) (m : Member a num t) (z : t.Obj), Made t z ∧ m.inj (t.abs z) = v
  | .nil, _, v, _ => nomatch v
  | .cons num t rest, h, .inl v, hv => by
    simp only [Alts.WF] at h
    obtain ⟨z, hz, e⟩ := ElemTy.made t h.1 v hv
    exact ⟨num, t, .here num t rest, z, hz, congrArg Sum.inl e⟩
  | .cons num t rest, h, .inr v, hv => by
    simp only [Alts.WF] at h
    obtain ⟨n, u, m, z, hz, e⟩ := Alts.made rest h.2 v hv
    exact ⟨n, u, .after num t m, z, hz, congrArg Sum.inr e⟩
theorem Oneofs.made : (os : Oneofs) → os.WF → (v : os.Val) → os.Fits v → (Q : os.Val → Prop) → os.Closed Q → Q os.dflt → Q v
  | .nil, _, _, _, _, _, h0 => h0
  | .cons a rest, h, v, hv, Q, hQ, h0 => by
    simp only [Oneofs.WF] at h
    have h1 : Q (none, v.2) := Oneofs.made rest h.2 v.2 hv.2 (fun u => Q (none, u))
      (fun {_ _ _} s m {u _} => hQ (.after a s) m (u := (none, u))) h0
    have ha := Alts.made a h.1
    obtain ⟨o, r⟩ := v
    cases o with
    | none => exact h1
    | some w =>
      obtain ⟨n, u, m, z, hz, e⟩ := ha w (hv.1 w rfl)
      have h2 : Q (some (m.inj (u.abs z)), r) := hQ (.here a rest) m (u := (none, r)) hz h1
      rwa [e] at h2
end

end EP
