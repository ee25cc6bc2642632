import Verif.Proof.Kept
import Verif.Props.Objects

/-!
# References that are kept (C82)

A program calls `Inner& p = m.mutable_a().get(3).mutable_b()` and uses `p` after other calls on `m`.  `Ref T c t` says where
in an object of class `T` such a reference points; `through` uses the reference that was kept, `again` calls the functions
again and uses their result.
-/

namespace EP
open Spec

variable {fs : Fields} {os : Oneofs}

local notation "T" => ElemTy.msg fs os

/-- What a reference points at, in the value of the message: nothing for optional fields and oneof members that are not
set and elements the array does not have. -/
def Ref.value : {U t : ElemTy} → {c : Card} → Ref U c t → U.Val → Option (c.MVal t)
  | _, _, _, .here _, v => some v
  | _, _, _, .single s r, v => r.value (s.get v.1)
  | _, _, _, .optional s r, v => Option.bind (s.get v.1) r.value
  | _, _, _, .repeated s, v => some (s.get v.1)
  | _, _, _, .element (u := u) s i r, v => Option.bind ((show List u.Val from s.get v.1)[i.val]?) r.value
  | _, _, _, .member s m r, v => Option.bind (Option.bind (s.get v.2) m.proj) r.value

/-- What is observed of an object after a call. -/
def Res.value (U : ElemTy) (r : Res U.Obj) : Res U.Val := r >>= fun y => .ok (U.abs y)

/-- **C82** in full: whatever was done to the object since, using the reference that was kept is the same as using the one
the calls return now. -/
def C82_Statement (U : ElemTy) : Prop :=
  ∀ (t : ElemTy) (c : Card) (r : Ref U c t) (g : (c.cls t).State → Res (c.cls t).State) (x : U.Obj), U.WF → U.Reach x →
    c.Api t g → (r.through g x).value U = (r.again g x).value U

/-- **C82**, for references that are alive.  Missing: the others, see `C82_iff_partial`. -/
theorem C82_alive_partial {U t : ElemTy} {c : Card} (r : Ref U c t) (g : (c.cls t).State → Res (c.cls t).State) (x : U.Obj)
    (h : U.WF) (hx : U.Reach x) (hr : r.status x = .alive) : r.through g x = r.again g x :=
  (r.classified h g x (ElemTy.reach_inv U h hx)).1 hr

/-- **C82**, and only for these: if the calls would succeed now, using the reference that was kept gives the same exactly
if it is alive. -/
theorem C82_iff_partial {U t : ElemTy} {c : Card} (r : Ref U c t) (g : (c.cls t).State → Res (c.cls t).State) (x y : U.Obj)
    (h : U.WF) (hx : U.Reach x) (hy : r.again g x = .ok y) :
    (r.through g x).value U = (r.again g x).value U ↔ r.status x = .alive := by
  obtain ⟨i1, i2, i3, _⟩ := r.classified h g x (ElemTy.reach_inv U h hx)
  constructor
  · intro e
    cases hs : r.status x with
    | alive => rfl
    | gone =>
      rw [i3 hs, hy] at e
      exact nomatch e
    | hidden =>
      exfalso
      rw [hy] at e
      cases ht : r.through g x with
      | ub => rw [ht] at e; exact nomatch e
      | diverge => rw [ht] at e; exact nomatch e
      | ok z =>
        rw [ht] at e
        injection e with e
        exact (i2 hs).2 y hy (e.symm.trans ((i2 hs).1 z ht))
  · intro hs
    rw [i1 hs]

/-- A write through a reference to what holds no value is lost: the value of the message stays what it was.  The calls made
again would have changed it. -/
theorem C82_lost {U t : ElemTy} {c : Card} (r : Ref U c t) (g : (c.cls t).State → Res (c.cls t).State) (x : U.Obj)
    (h : U.WF) (hx : U.Reach x) (hr : r.status x = .hidden) :
    (∀ y, r.through g x = .ok y → U.abs y = U.abs x) ∧ ∀ y, r.again g x = .ok y → U.abs y ≠ U.abs x :=
  (r.classified h g x (ElemTy.reach_inv U h hx)).2.1 hr

/-- Using a reference is undefined exactly if the oneof member it points into does not exist any more. -/
theorem C82_undefined {U t : ElemTy} {c : Card} (r : Ref U c t) (g : (c.cls t).State → Res (c.cls t).State) (x : U.Obj)
    (h : U.WF) (hx : U.Reach x) (hg : ∀ z, (c.spec t).Inv z → g z ≠ .ub) :
    r.through g x = .ub ↔ r.status x = .gone := by
  obtain ⟨_, _, i3, i4⟩ := r.classified h g x (ElemTy.reach_inv U h hx)
  exact ⟨fun hu => Classical.byContradiction fun hs => i4 hg hs hu, i3⟩

/-- What was written through a reference is read through it. -/
theorem C82_read {U t : ElemTy} {c : Card} (r : Ref U c t) (g : (c.cls t).State → Res (c.cls t).State) (x y : U.Obj)
    (h : U.WF) (hx : U.Reach x) (hy : r.through g x = .ok y) :
    ∃ z w, r.read x = .ok z ∧ g z = .ok w ∧ r.read y = .ok w :=
  r.read_through h g x (ElemTy.reach_inv U h hx) y hy

theorem Ref.value_eq : {U t : ElemTy} → {c : Card} → (r : Ref U c t) → U.WF → (x : U.Obj) → U.Inv x →
    (r.status x = .alive → ∃ z, r.read x = .ok z ∧ r.value (U.abs x) = some ((c.spec t).abs z)) ∧
    (r.status x ≠ .alive → r.value (U.abs x) = none)
  | _, _, _, .here _, _, x, _ => ⟨fun _ => ⟨x, rfl, rfl⟩, fun h => absurd rfl h⟩
  | _, _, _, .single (os := os) s r, h, x, hx => by
    have hw := h
    simp only [ElemTy.WF] at hw
    have IH := Ref.value_eq r (s.wf hw.1).1 (s.place x) (s.inv_member hx)
    have e : (Ref.single (os := os) s r).value ((ElemTy.msg _ os).abs x) = r.value (ElemTy.abs _ (s.place x)) :=
      congrArg r.value (s.get_place x)
    rw [e]
    exact IH
  | _, _, _, .optional (os := os) s r, h, x, hx => by
    have hw := h
    simp only [ElemTy.WF] at hw
    have IH := Ref.value_eq r (s.wf hw.1).1 (s.place x) (s.inv_member hx)
    have e : (Ref.optional (os := os) s r).value ((ElemTy.msg _ os).abs x) =
        Option.bind (Card.observe .opt _ (x.presence.bit (s.bit 0)) (ElemTy.abs _ (s.place x))) r.value :=
      congrArg (fun o => Option.bind o r.value) (s.get_place x)
    have hst : (Ref.optional (os := os) s r).status x =
        if x.presence.bit (s.bit 0) = true then r.status (s.place x) else (r.status (s.place x)).hide := by
      show (match s.has x with
        | .ok true => r.status (s.place x)
        | _ => (r.status (s.place x)).hide) = _
      rw [s.has_bit hx]
      cases x.presence.bit (s.bit 0) <;> rfl
    rw [e, hst]
    cases x.presence.bit (s.bit 0) with
    | true => exact IH
    | false =>
      refine ⟨fun hs => ?_, fun _ => rfl⟩
      rw [if_neg (by decide)] at hs
      cases e : r.status (s.place x) <;> rw [e] at hs <;> exact nomatch hs
  | _, _, _, .repeated (os := os) s, _, x, _ =>
    ⟨fun _ => ⟨_, rfl, congrArg some (s.get_place (os := os) x)⟩, fun h => absurd rfl h⟩
  | _, _, _, .element (os := os) (cap := cap) (u := u) s i r, h, x, hx => by
    have hw := h
    simp only [ElemTy.WF] at hw
    have hwf := s.wf hw.1
    have hi : (repSpec u.spec cap).Inv (s.place x) := s.inv_member hx
    have hl : i < (RepObj.data (s.place x)).length := by
      have : (RepObj.data (s.place x)).length = cap := hi.1
      have := i.isLt
      omega
    have IH := Ref.value_eq r hwf.1 _ (hi.2.2 _ (List.getElem_mem hl))
    have e : (Ref.element (os := os) s i r).value ((ElemTy.msg _ os).abs x) =
        Option.bind ((show List u.Val from (repSpec u.spec cap).abs (s.place x))[i.val]?) r.value :=
      congrArg (fun l : List u.Val => Option.bind l[i.val]? r.value) (s.get_place x)
    have hst : (Ref.element (os := os) s i r).status x =
        if i < (RepObj.len (s.place x)) then r.status (RepObj.data (s.place x))[i.val]
        else (r.status (RepObj.data (s.place x))[i.val]).hide := by
      show (match arrayGet (RepObj.data (s.place x)) i with
        | .ok z => if i < RepObj.len (s.place x) then r.status z else (r.status z).hide
        | _ => .gone) = _
      rw [arrayGet_of_lt hl]
    have hrd : (Ref.element (os := os) s i r).read x = r.read (RepObj.data (s.place x))[i.val] := by
      show (arrayGet (RepObj.data (s.place x)) i >>= r.read : Res _) = _
      rw [arrayGet_of_lt hl]
      rfl
    have e2 : (show List u.Val from (repSpec u.spec cap).abs (s.place x)) =
        (List.take (RepObj.len (s.place x)) (RepObj.data (s.place x))).map u.spec.abs := rfl
    rw [e, hst, hrd, e2, List.getElem?_map, List.getElem?_take]
    by_cases hp : i < RepObj.len (s.place x)
    · rw [if_pos hp, if_pos hp, List.getElem?_eq_getElem hl]
      exact IH
    · rw [if_neg hp, if_neg hp]
      refine ⟨fun hs => ?_, fun _ => rfl⟩
      cases e : r.status (RepObj.data (s.place x))[i.val] <;> rw [e] at hs <;> exact nomatch hs
  | _, _, _, .member (fs := fs) (os := os) (a := a) s m r, h, x, hx => by
    have hw := h
    simp only [ElemTy.WF] at hw
    have hn := List.nodup_append.mp hw.2.2.1
    have ha := s.wf hw.2.1 hn.2.1
    have e : (Ref.member (fs := fs) s m r).value ((ElemTy.msg fs os).abs x) =
        Option.bind (Option.bind ((s.state x.oneofs).live.map a.spec.abs) m.proj) r.value :=
      congrArg (fun o => Option.bind (Option.bind o m.proj) r.value) (s.get_abs x.oneofs)
    have hget : m.get (fs := fs) s x = _ := m.readUnion_eq (s.state x.oneofs).live
    have hst : (Ref.member (fs := fs) s m r).status x = (match m.get (fs := fs) s x with
      | .ok z => r.status z
      | _ => .gone) := rfl
    have hrd : (Ref.member (fs := fs) s m r).read x = (m.get (fs := fs) s x >>= r.read : Res _) := rfl
    cases hz : m.get (fs := fs) s x with
    | ok z =>
      have IH := Ref.value_eq r (m.wf ha.1) z (m.get_live s hx hz).2.2.1
      rw [e, hst, hrd, hz, (m.get_live s hx hz).1, Option.map_some, m.abs_injState, Option.bind_some, m.proj_inj,
        Option.bind_some]
      exact IH
    | diverge => exact (m.union_defined hz).elim
    | ub =>
      rw [hst, hz, e]
      refine ⟨fun h => (nomatch h), fun _ => ?_⟩
      cases hl : (s.state x.oneofs).live with
      | none => rfl
      | some u =>
        rw [hz, hl] at hget
        rw [Option.map_some, Option.bind_some, m.proj_abs]
        rw [Option.bind_some] at hget
        cases hp : m.projState u with
        | none => rfl
        | some w => rw [hp] at hget; exact nomatch hget

/-- A reference is alive exactly if the value of the message has something in that place, which is then what the reference
points at. -/
theorem C82_alive_iff {U t : ElemTy} {c : Card} (r : Ref U c t) (x : U.Obj) (h : U.WF) (hx : U.Reach x) :
    (r.status x = .alive ↔ (r.value (U.abs x)).isSome) ∧
    ∀ v, r.value (U.abs x) = some v → ∃ z, r.read x = .ok z ∧ v = (c.spec t).abs z := by
  obtain ⟨h1, h2⟩ := r.value_eq h x (ElemTy.reach_inv U h hx)
  by_cases hs : r.status x = .alive
  · obtain ⟨z, k1, k2⟩ := h1 hs
    rw [k2]
    exact ⟨⟨fun _ => rfl, fun _ => hs⟩, fun v hv => ⟨z, k1, (Option.some.inj hv).symm⟩⟩
  · rw [h2 hs]
    exact ⟨⟨fun h => absurd h hs, fun h => nomatch h⟩, fun v hv => nomatch hv⟩

/-- A reference is alive when the calls return it, and then points at what they made. -/
theorem C82_obtained {U t : ElemTy} {c : Card} (r : Ref U c t) (x y : U.Obj) (h : U.WF) (hx : U.Reach x)
    (hy : r.again pure x = .ok y) : r.status y = .alive ∧ U.Reach y := by
  refine ⟨(r.obtained h pure (fun z w hz e => by injection e with e; rw [← e]; exact hz) x (ElemTy.reach_inv U h hx) y
    hy).2.1, ?_⟩
  have ha : MemberApi U.cls.init U.Api (r.again pure) := r.api pure (by cases c <;> exact .inl rfl)
  rcases ha with e | ⟨R, hR, hA⟩
  · rw [e] at hy
    injection hy with hy
    rw [← hy]
    exact hx
  · exact .step hR hA hx hy

/-- Keeping references gives no new objects: every state that is reached by also using references while they are alive is
reached without keeping any. -/
theorem C82_history (U : ElemTy) (h : U.WF) (x : U.Obj) : U.KeptReach x ↔ U.Reach x := by
  constructor
  · intro hx
    induction hx with
    | new => exact .init
    | call _ hR hA he ih => exact .step hR hA ih he
    | through r g _ hg hs he ih =>
      rw [C82_alive_partial r g _ h ih hs] at he
      rcases r.api g hg with e | ⟨R, hR, hA⟩
      · rw [e] at he
        injection he with he
        rw [← he]
        exact ih
      · exact .step hR hA ih he
  · intro hx
    induction hx with
    | init => exact .new
    | step hR hA _ he _ ih => exact .call ih hR hA he

/-- The fields or the oneof a reference points into. -/
def Ref.under : {t : ElemTy} → {c : Card} → Ref T c t → List Nat
  | _, _, .here _ => []
  | _, _, .single (num := n) _ _ => [n]
  | _, _, .optional (num := n) _ _ => [n]
  | _, _, .repeated (num := n) _ => [n]
  | _, _, .element (num := n) _ _ _ => [n]
  | _, _, .member (a := a) _ _ _ => a.numbers

/-- Calls for other fields do nothing to a reference nor to what it points at. -/
theorem C82_elsewhere {t : ElemTy} {d : Card} (r : Ref T d t) (c : Call fs os) (x y : (T).Obj) (h : (T).WF)
    (hx : (T).Reach x) (hc : c.Legal) (hy : c.run x = .ok y) (hr : r.under ≠ []) (hn : ∀ n ∈ r.under, ¬ c.touches x n) :
    r.status y = r.status x ∧ r.read y = r.read x := by
  obtain ⟨hf, ho⟩ := C51_frame c x y h hx hc hy
  have iy := (c.run_inv hc h (ElemTy.reach_inv T h hx)).2 y hy
  have ix := ElemTy.reach_inv T h hx
  cases r with
  | here => exact absurd rfl hr
  | single s r =>
    have e : s.place y = s.place x := (hf _ _ _ s (hn _ (List.mem_singleton.mpr rfl))).1
    exact ⟨congrArg r.status e, congrArg r.read e⟩
  | optional s r =>
    obtain ⟨e, e2⟩ := hf _ _ _ s (hn _ (List.mem_singleton.mpr rfl))
    have e : s.place y = s.place x := e
    refine ⟨?_, congrArg r.read e⟩
    have hb : y.presence.bit (s.bit 0) = x.presence.bit (s.bit 0) := by
      rw [s.get_place, s.get_place, e] at e2
      cases hb : y.presence.bit (s.bit 0) <;> cases hb' : x.presence.bit (s.bit 0) <;> rw [hb, hb'] at e2 <;>
        first | rfl | exact nomatch e2
    show (match s.has y with
      | .ok true => r.status (s.place y)
      | _ => (r.status (s.place y)).hide) = (match s.has x with
      | .ok true => r.status (s.place x)
      | _ => (r.status (s.place x)).hide)
    rw [s.has_bit ix, s.has_bit iy, hb, e]
  | repeated s => exact ⟨rfl, congrArg Res.ok (hf _ _ _ s (hn _ (List.mem_singleton.mpr rfl))).1⟩
  | @element _ _ num cap u _ _ s i r =>
    have e : (s.place y : RepObj u.cls.State) = s.place x := (hf _ _ _ s (hn _ (List.mem_singleton.mpr rfl))).1
    refine ⟨?_, congrArg (fun z : RepObj u.cls.State => (arrayGet z.data i >>= r.read : Res _)) e⟩
    exact congrArg (fun z : RepObj u.cls.State => match arrayGet z.data i with
      | .ok w => if i < z.len then r.status w else (r.status w).hide
      | _ => .gone) e
  | member s m r =>
    have e : s.state y.oneofs = s.state x.oneofs := (ho _ s hn hr).1
    have e : m.get s y = m.get s x := congrArg (fun o : OneofObj _ => m.readUnion o.live) e
    refine ⟨?_, congrArg (fun z : Res _ => (z >>= r.read : Res _)) e⟩
    exact congrArg (fun z : Res _ => match z with
      | .ok w => r.status w
      | _ => .gone) e

/-! ## References that were kept too long -/

namespace KeptExample

/-- `message Inner { uint32 a = 1; }` -/
def inner : ElemTy := .msg (.plain 1 (.scalar .uint32) .nil) .nil

def fields : Fields := .optional 1 inner (.repeated 2 2 inner .nil)
def alts : Alts := .cons 3 inner (.cons 4 (.scalar .uint32) .nil)
def oneofs : Oneofs := .cons alts .nil

/-- `message Box { optional Inner o = 1; repeated Inner r = 2; oneof k { Inner m = 3; uint32 n = 4; } }` -/
def box : ElemTy := .msg fields oneofs

theorem box_wf : box.WF := by
  simp only [box, fields, oneofs, alts, inner, ElemTy.WF, Fields.WF, Oneofs.WF, Alts.WF, Fields.numbers, Oneofs.numbers,
    Alts.numbers]
  decide

def slotA : Slot (.plain 1 (.scalar .uint32) .nil) 1 .single (.scalar .uint32) := .plain _ _ _
def slotO : Slot fields 1 .opt inner := .optional _ _ _
def slotR : Slot fields 2 (.rep 2) inner := .afterOptional _ _ (.repeated _ _ _ _)
def slotK : OneofSlot oneofs alts := .here _ _
def memberM : Member alts 3 inner := .here _ _ _
def memberN : Member alts 4 (.scalar .uint32) := .after _ _ (.here _ _ _)

/-- `mutable_o().mutable_a()` -/
def refO : Ref box .single (.scalar .uint32) := .optional slotO (.single slotA (.here _))
/-- `mutable_r().get(0).mutable_a()` -/
def refR : Ref box .single (.scalar .uint32) := .element slotR 0 (.single slotA (.here _))
/-- `mutable_m().mutable_a()` -/
def refM : Ref box .single (.scalar .uint32) := .member slotK memberM (.single slotA (.here _))

/-- `= 7` -/
def seven : (ElemTy.scalar .uint32).cls.State → Res (ElemTy.scalar .uint32).cls.State := fun _ => .ok 7#32

def number (r : Ref box .single (.scalar .uint32)) (x : box.Obj) : Res (BitVec 32) := r.read x

theorem seven_api : Card.Api .single (.scalar .uint32) seven :=
  .inr ⟨fun _ => False, fun _ h => h.elim, .inr ⟨7#32, rfl⟩⟩

/-- Alive: the field is set, and what is written through the reference is in the message. -/
example : (do
    let x ← refO.again pure box.cls.init
    let y ← refO.through seven x
    let h ← slotO.has y
    let v ← number refO y
    pure (refO.status x, refR.status x, refM.status x, h, v) : Res (Ref.Status × Ref.Status × Ref.Status × Bool × BitVec 32)) =
      .ok (.alive, .hidden, .gone, true, 7#32) := by decide +kernel

/-- Kept over `clear()`: what is written is not in the message, but the next message received contains it, although the
sender wrote an empty `Inner` (bytes 0A 00). -/
example : (do
    let x ← refO.again pure box.cls.init
    let y ← box.cls.clear x
    let z ← refO.through seven y
    let h ← slotO.has z
    let (e, _, w) ← box.cls.deserialize 64 (ReadFixed.holding 64 [0x0A#8, 0x00#8]) z
    let h' ← slotO.has w
    let v ← number refO w
    pure (refO.status y, h, e, h', v) : Res (Ref.Status × Bool × Error × Bool × BitVec 32)) = .ok (.hidden, false, .noErrors, true, 7#32) := by decide +kernel

/-- The same with an element of an array (bytes 12 00). -/
example : (do
    let x ← refR.again pure box.cls.init
    let y ← box.cls.clear x
    let z ← refR.through seven y
    let (e, _, w) ← box.cls.deserialize 64 (ReadFixed.holding 64 [0x12#8, 0x00#8]) z
    let v ← number refR w
    pure (refR.status y, RepObj.len (slotR.place z), e, RepObj.len (slotR.place w), v) : Res (Ref.Status × Nat × Error × Nat × BitVec 32)) =
      .ok (.hidden, 0, .noErrors, 1, 7#32) := by decide +kernel

/-- Kept over `set_n(7)`: undefined.  Kept over `set_n(7)` and `mutable_m()`: it points at the new member. -/
example : (do
    let x ← refM.again pure box.cls.init
    let y ← memberN.call (fs := fields) slotK seven x
    let z ← memberM.call (fs := fields) slotK pure y
    let w ← refM.through seven z
    let v ← number refM w
    pure (refM.status x, refM.status y, refM.status z, v) : Res (Ref.Status × Ref.Status × Ref.Status × BitVec 32)) = .ok (.alive, .gone, .alive, 7#32) := by
  decide +kernel

example : (do
    let x ← refM.again pure box.cls.init
    let y ← memberN.call (fs := fields) slotK seven x
    refM.through seven y : Res _) = .ub := rfl

end KeptExample

open KeptExample in
/-- **C82** in full is false: on a new object a reference to a member of a oneof, kept from before `clear()`, points at
nothing. -/
theorem C82_false : ¬ ∀ U, C82_Statement U := by
  intro h
  have h := h box _ _ refM seven box.cls.init box_wf .init seven_api
  have h1 : refM.through seven box.cls.init = .ub := rfl
  rw [h1] at h
  have h2 : ∃ y, refM.again seven box.cls.init = .ok y := ⟨_, rfl⟩
  obtain ⟨y, h2⟩ := h2
  rw [h2] at h
  exact nomatch h

open KeptExample in
/-- The two sides of C82 can differ in both ways, for references that were alive and objects a program can reach. -/
theorem C82_kept_false :
    (∃ x y y' z : box.Obj, box.Reach x ∧ refO.status x = .alive ∧ box.cls.clear x = .ok y ∧ refO.through seven y = .ok y' ∧
      refO.again seven y = .ok z ∧ box.abs y' ≠ box.abs z) ∧
    (∃ x y : box.Obj, box.Reach x ∧ refM.status x = .alive ∧ box.cls.clear x = .ok y ∧ refM.through seven y = .ub) := by
  have i0 := (ElemTy.base box box_wf).init_inv
  constructor
  · have hx : ∃ x, refO.again pure box.cls.init = .ok x := ⟨_, rfl⟩
    obtain ⟨x, hx⟩ := hx
    obtain ⟨hs, hr⟩ := C82_obtained refO _ x box_wf .init hx
    have hy := C29_clear x box_wf hr
    have hh : refO.status box.cls.init = .hidden := rfl
    have hz : ∃ z, refO.again seven box.cls.init = .ok z := ⟨_, rfl⟩
    have ht : ∃ z, refO.through seven box.cls.init = .ok z := ⟨_, rfl⟩
    obtain ⟨z, hz⟩ := hz
    obtain ⟨y', ht⟩ := ht
    obtain ⟨l1, l2⟩ := C82_lost refO seven box.cls.init box_wf .init hh
    exact ⟨x, _, y', z, hr, hs, hy, ht, hz, fun e => l2 z hz (e.symm.trans (l1 y' ht))⟩
  · have hx : ∃ x, refM.again pure box.cls.init = .ok x := ⟨_, rfl⟩
    obtain ⟨x, hx⟩ := hx
    obtain ⟨hs, hr⟩ := C82_obtained refM _ x box_wf .init hx
    exact ⟨x, _, hr, hs, C29_clear x box_wf hr, rfl⟩

open KeptExample in
/-- A call for another field, and a history with references that are kept. -/
example : ∃ x y : box.Obj, box.KeptReach y ∧ refO.status y = .alive ∧ refR.status y = .alive ∧ refO.read y = .ok 7#32 ∧
    refR.again pure x = .ok y := by
  have h1 : ∃ x, refO.again seven box.cls.init = .ok x := ⟨_, rfl⟩
  obtain ⟨x, h1⟩ := h1
  obtain ⟨i1, s1, z, w, k1, k2, k3⟩ := refO.obtained box_wf seven (fun _ _ _ _ => trivial) _
    (ElemTy.base box box_wf).init_inv x h1
  have hr : box.Reach x := by
    rcases refO.api seven seven_api with e | ⟨R, hR, hA⟩
    · rw [e] at h1
      injection h1 with h1
      rw [← h1]
      exact .init
    · exact .step hR hA .init h1
  have h2 : ∃ y, refR.again pure x = .ok y := by
    have e : (refO.again seven box.cls.init >>= refR.again pure : Res _) = refR.again pure x := by rw [h1]; rfl
    rw [← e]
    exact ⟨_, rfl⟩
  obtain ⟨y, h2⟩ := h2
  obtain ⟨s2, r2⟩ := C82_obtained refR x y box_wf hr h2
  have he := C82_elsewhere refO (.field slotR fun y => RepObj.modifyAt 2 y 0 ((Ref.single slotA (.here _)).again pure)) x y box_wf
    hr (.inr ⟨inner.RepReach 2, fun _ h => h, .inr (.inr (.inr (.inr (.inr ?_))))⟩) h2 (fun h => nomatch h) ?_
  · injection k2 with k2
    refine ⟨x, y, (C82_history box box_wf y).mpr r2, he.1.trans s1, s2, ?_, h2⟩
    exact (he.2.trans k3).trans (congrArg Res.ok k2.symm)
  · exact ⟨0, _, _, by decide, fun _ h => h, Call.sound (.field (os := .nil) slotA pure) (.inl rfl), rfl⟩
  · intro n hn
    rw [List.mem_singleton.mp hn]
    exact fun h => nomatch h

end EP
