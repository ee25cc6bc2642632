import Verif.Proof.AnyOrder
import Verif.Props.FieldOrder

/-!
# Two versions of `.proto` files, in any order: C92

As `C92_receives_partial`, but what was kept in the newer version may be in another order.
-/

namespace EP
open Gen Spec

section
variable {fs fs' : Fields} {os os' : Oneofs}
local notation "S" => ElemTy.msg fs os
local notation "T" => ElemTy.msg fs' os'

theorem moved_older_receiver {β : Type} [ReadBuffer β] (M : ReadModel β) {gs : Fields} {ps : Oneofs} (f : gs.Moved fs)
    (p : ps.Moved os) (o : (T).Older) (e : o.old = .msg gs ps) (h : (T).WF) (h' : (S).WF) (v : (T).Val) (b : β) (fuel : Nat)
    (hb : M.Inv b) (hv : M.view b = (T).encode v) (hf : (M.view b).length < fuel) :
    ((S).Fits ((ElemTy.Moved.msg f p).val (o.shownAs e v)) ∧
      ∃ b' z, (S).cls.deserialize fuel b (S).cls.init = .ok (.noErrors, b', z) ∧
        M.view b' = [] ∧ (S).abs z = (ElemTy.Moved.msg f p).val (o.shownAs e v)) ∨
    (¬ (S).Fits ((ElemTy.Moved.msg f p).val (o.shownAs e v)) ∧
      ∃ b' z, (S).cls.deserialize fuel b (S).cls.init = .ok (.arrayFull, b', z)) := by
  have hw : (ElemTy.msg gs ps).WF := (ElemTy.Moved.msg f p).back.wf h'
  have hl := M.view_lt b hb
  rw [hv] at hl
  have hq : parseMessage gs ps false (M.view b) ((ElemTy.msg gs ps).held (ElemTy.msg gs ps).cls.init) ≠ .overrun := by
    cases o with
    | msg f' o' =>
      have e : ElemTy.msg f'.old o'.old = ElemTy.msg gs ps := e
      cases e
      rw [hv]
      rcases wellFormed_exact hw (encode_wellFormed_older readable_enc h f' o' v hl)
        ((ElemTy.msg f'.old o'.old).held (ElemTy.msg f'.old o'.old).cls.init) with ⟨u, hu⟩ | hfull
      · rw [hu.parse hw.distinct]
        nofun
      · obtain ⟨w, hw⟩ := hfull false
        rw [hw]
        nofun
  obtain ⟨c, b1, b2, x', y', g1, g2, _, g3, g4⟩ := C93_receive f p M M (ElemTy.msg gs ps).cls.init (S).cls.init b b fuel fuel hw
    .init .init (moved_init f p hw) hb hb rfl hq hf hf
  rcases older_receiver M o e h hw v b fuel hb hv hf with ⟨k1, b3, z, k2, k3, k4⟩ | ⟨k1, b3, z, k2⟩
  · have k2 := k2.symm.trans g1
    cases k2
    exact Or.inl ⟨(ElemTy.Moved.msg f p).fits _ k1, b2, y', g2, (g4 rfl).2, g3.trans (congrArg _ k4)⟩
  · have k2 := k2.symm.trans g1
    cases k2
    refine Or.inr ⟨fun hfit => k1 ?_, b2, y', g2⟩
    have := (ElemTy.Moved.msg f p).back.fits _ hfit
    rwa [(ElemTy.Moved.msg f p).back_val] at this

theorem moved_newer_receiver {β : Type} [ReadBuffer β] (M : ReadModel β) {gs : Fields} {ps : Oneofs} (f : gs.Moved fs')
    (p : ps.Moved os') (o : (ElemTy.msg gs ps).Older) (e : o.old = S) (h : (T).WF) (v : (S).Val) (b : β) (fuel : Nat)
    (hb : M.Inv b) (hv : M.view b = (S).encode v) (hf : (M.view b).length < fuel) :
    ((T).Fits ((ElemTy.Moved.msg f p).val (o.liftedAs e v)) ∧
      ∃ b' z, (T).cls.deserialize fuel b (T).cls.init = .ok (.noErrors, b', z) ∧
        M.view b' = [] ∧ (T).abs z = (ElemTy.Moved.msg f p).val (o.liftedAs e v)) ∨
    (¬ (T).Fits ((ElemTy.Moved.msg f p).val (o.liftedAs e v)) ∧
      ∃ b' z, (T).cls.deserialize fuel b (T).cls.init = .ok (.arrayFull, b', z)) := by
  have hw : (ElemTy.msg gs ps).WF := (ElemTy.Moved.msg f p).back.wf h
  have he : (ElemTy.msg gs ps).encode (o.liftedAs e v) = (S).encode v := by
    cases o with
    | msg f' o' =>
      have e : ElemTy.msg f'.old o'.old = ElemTy.msg fs os := e
      cases e
      exact (ElemTy.Older.msg f' o').encode_lifted v
  exact C93_encodings f p M readable_enc hw _ _ b fuel (Or.inl rfl) hb (hv.trans he.symm) hf

end

section
variable {old new : List (Str × List MsgDesc)} {P P' : Str → List Str} {own : Str} {l m : MsgDesc} {args args' : List Nat}
  {E E' : Types} {K K' : Class}
local notation "S" => ElemTy.msg (Class.fs K) (Class.os K)
local notation "T" => ElemTy.msg (Class.fs K') (Class.os K')

theorem moved_msg {s t : ElemTy} (q : s.Moved t) {fs : Fields} {os : Oneofs} (e : t = .msg fs os) :
    ∃ gs ps, s = .msg gs ps ∧ Nonempty (gs.Moved fs) ∧ Nonempty (ps.Moved os) := by
  cases q with
  | same => exact ⟨fs, os, e, ⟨.same _⟩, ⟨.same _⟩⟩
  | msg f p =>
    cases e
    exact ⟨_, _, rfl, ⟨f⟩, ⟨p⟩⟩

/-- **C92**, if what was kept may be in another order: the older class with the members in another order, `S'`, has
members that are among those of the newer class, and the members of the older class are among those of the newer class
with the members in another order, `T'`, such that what is sent with either is received with the other accordingly. -/
theorem C92_any_order_partial (hN : ChangedFiles old new) (hU : Usable old P own l args) (hU' : Usable new P' own m args')
    (hK : IsClass old P own l args E K) (hK' : IsClass new P' own m args' E' K') :
    (∃ (S' : ElemTy) (q : S'.Moved S) (o : (T).Older) (e : o.old = S'),
      Receives K K' (Made K' m.fields m.oneofs) fun v => q.val (o.shownAs e v)) ∧
    ∃ (T' : ElemTy) (q : T'.Moved T) (o : T'.Older) (e : o.old = S),
      Receives K' K (Made K l.fields l.oneofs) fun v => q.val (o.liftedAs e v) := by
  constructor
  · obtain ⟨S', T', ⟨q⟩, hT, o, e⟩ := instantiate_near (p := true) (q := false) (Or.inl rfl) hN hU.ordered.fields
      hU'.ordered.fields _ _ hK.type hK'.type
    have hT : T' = T := hT
    subst hT
    suffices H : ∀ (gs : Fields) (ps : Oneofs) (f : gs.Moved K.fs) (p : ps.Moved K.os) (e : o.old = .msg gs ps),
        Receives K K' (Made K' m.fields m.oneofs) fun v => (ElemTy.Moved.msg f p).val (o.shownAs e v) by
      obtain ⟨gs, ps, e1, ⟨f⟩, ⟨p⟩⟩ := moved_msg q rfl
      exact ⟨_, .msg f p, o, e.trans e1, H _ _ f p (e.trans e1)⟩
    intro gs ps f p e
    intro ω _ W x w w' c room hx hw hl hr
    have hx := hK'.implements.reach hx
    rw [hK'.implements.serialize x w hx] at hr
    have ha := C13_serialize_partial W _ _ x w c room hK'.implements.wf hx hw hl
    rw [hr] at ha
    rcases ha with ⟨_, ha⟩ | ⟨ha, _⟩
    · refine ⟨_, _, ha, fun β _ M b fuel hb hv hf => ?_⟩
      have hn : (S).Reach (Class.new K) := by
        rw [hK.implements.new]
        exact .init
      rw [hK.implements.deserialize ⟨β, M, b, hb⟩ fuel _ hn, hK.implements.new]
      exact moved_older_receiver M f p o e hK'.implements.wf hK.implements.wf _ b fuel hb hv (hv ▸ hf)
    · exact nomatch ha
  · obtain ⟨S', T', hS, ⟨q⟩, o, e⟩ := instantiate_near (p := false) (q := true) (Or.inr rfl) hN hU.ordered.fields
      hU'.ordered.fields _ _ hK.type hK'.type
    have hS : S' = S := hS
    subst hS
    suffices H : ∀ (gs : Fields) (ps : Oneofs) (f : gs.Moved K'.fs) (p : ps.Moved K'.os) (o : (ElemTy.msg gs ps).Older)
        (e : o.old = S), Receives K' K (Made K l.fields l.oneofs) fun v => (ElemTy.Moved.msg f p).val (o.liftedAs e v) by
      obtain ⟨gs, ps, e1, ⟨f⟩, ⟨p⟩⟩ := moved_msg q rfl
      subst e1
      exact ⟨_, .msg f p, o, e, H _ _ f p o e⟩
    intro gs ps f p o e
    intro ω _ W x w w' c room hx hw hl hr
    have hx := hK.implements.reach hx
    rw [hK.implements.serialize x w hx] at hr
    have ha := C13_serialize_partial W _ _ x w c room hK.implements.wf hx hw hl
    rw [hr] at ha
    rcases ha with ⟨_, ha⟩ | ⟨ha, _⟩
    · refine ⟨_, _, ha, fun β _ M b fuel hb hv hf => ?_⟩
      have hn : (T).Reach (Class.new K') := by
        rw [hK'.implements.new]
        exact .init
      rw [hK'.implements.deserialize ⟨β, M, b, hb⟩ fuel _ hn, hK'.implements.new]
      exact moved_newer_receiver M f p o e hK'.implements.wf _ b fuel hb hv (hv ▸ hf)
    · exact nomatch ha

end

section
variable {fs fs' : Fields} {os os' : Oneofs}
local notation "S" => ElemTy.msg fs os
local notation "T" => ElemTy.msg fs' os'

/-- **C92**: there is one way in which the members of the older class are among those of the newer, as far as values that
can be received are concerned. -/
theorem C92_unique {gs gs' : Fields} {ps ps' : Oneofs} (f : gs.Moved fs) (f' : gs'.Moved fs) (p : ps.Moved os)
    (p' : ps'.Moved os) (o o' : (T).Older) (e : o.old = .msg gs ps) (e' : o'.old = .msg gs' ps') (h : (T).WF) (h' : (S).WF)
    (v : (T).Val) (hl : ((T).encode v).length < 2 ^ 32) (hfit : (S).Fits ((ElemTy.Moved.msg f p).val (o.shownAs e v))) :
    (ElemTy.Moved.msg f p).val (o.shownAs e v) = (ElemTy.Moved.msg f' p').val (o'.shownAs e' v) := by
  generalize hbs : (T).encode v = bs at hl
  have hv : (ReadFixed.model bs.length hl).view (ReadFixed.holding bs.length bs) = bs := ReadFixed.holding_view ..
  have hB := ReadFixed.holding_inv bs.length hl bs (Nat.le_refl _)
  rcases moved_older_receiver (ReadFixed.model bs.length hl) f p o e h h' v _ (bs.length + 1) hB (hv.trans hbs.symm)
    (by rw [hv]; omega) with ⟨_, b1, z1, k1, _, k2⟩ | ⟨k, _⟩
  · rcases moved_older_receiver (ReadFixed.model bs.length hl) f' p' o' e' h h' v _ (bs.length + 1) hB (hv.trans hbs.symm)
      (by rw [hv]; omega) with ⟨_, b2, z2, l1, _, l2⟩ | ⟨_, b2, z2, l1⟩
    · have e := k1.symm.trans l1
      cases e
      exact k2.symm.trans l2
    · exact nomatch k1.symm.trans l1
  · exact absurd hfit k

/-- **C92**, the same for the newer receiver. -/
theorem C92_unique_newer {gs gs' : Fields} {ps ps' : Oneofs} (f : gs.Moved fs') (f' : gs'.Moved fs') (p : ps.Moved os')
    (p' : ps'.Moved os') (o : (ElemTy.msg gs ps).Older) (o' : (ElemTy.msg gs' ps').Older) (e : o.old = S) (e' : o'.old = S)
    (h : (T).WF) (v : (S).Val) (hl : ((S).encode v).length < 2 ^ 32)
    (hfit : (T).Fits ((ElemTy.Moved.msg f p).val (o.liftedAs e v))) :
    (ElemTy.Moved.msg f p).val (o.liftedAs e v) = (ElemTy.Moved.msg f' p').val (o'.liftedAs e' v) := by
  generalize hbs : (S).encode v = bs at hl
  have hv : (ReadFixed.model bs.length hl).view (ReadFixed.holding bs.length bs) = bs := ReadFixed.holding_view ..
  have hB := ReadFixed.holding_inv bs.length hl bs (Nat.le_refl _)
  rcases moved_newer_receiver (ReadFixed.model bs.length hl) f p o e h v _ (bs.length + 1) hB (hv.trans hbs.symm)
    (by rw [hv]; omega) with ⟨_, b1, z1, k1, _, k2⟩ | ⟨k, _⟩
  · rcases moved_newer_receiver (ReadFixed.model bs.length hl) f' p' o' e' h v _ (bs.length + 1) hB (hv.trans hbs.symm)
      (by rw [hv]; omega) with ⟨_, b2, z2, l1, _, l2⟩ | ⟨_, b2, z2, l1⟩
    · have e := k1.symm.trans l1
      cases e
      exact k2.symm.trans l2
    · exact nomatch k1.symm.trans l1
  · exact absurd hfit k

end

namespace C92Example
open C49Example C77Example C93Example

/-- `Includes`, computed. -/
def includes {α β : Type} (r : α → β → Bool) (l : List α) (m : List β) : Bool := (orders l).any fun k => grown r k m

theorem includes_sound {α β : Type} {r : α → β → Bool} {R : α → β → Prop} (h : ∀ a b, r a b = true → R a b) (l : List α)
    (m : List β) (e : includes r l m = true) : Includes R l m := by
  obtain ⟨k, h1, h2⟩ := List.any_eq_true.mp e
  exact ⟨k, orders_sound h1, grown_sound h k m h2⟩

theorem changedFiles_of {old new : List (Str × List MsgDesc)}
    (h : ∀ d ∈ allDefs old, ∀ e ∈ allDefs new, d.1 = e.1 →
      includes keptField (loose d.2) (loose e.2) = true ∧ includes (includes sameField) (groups d.2) (groups e.2) = true) :
    ChangedFiles old new := fun own l m hl hm =>
  have ⟨h1, h2⟩ := h (own, l) (mem_allDefs.mpr hl) (own, m) (mem_allDefs.mpr hm) rfl
  ⟨includes_sound keptField_sound _ _ h1, includes_sound (includes_sound sameField_sound) _ _ h2⟩

/-- `message Part { string label = 2; int32 x = 1; }  message Extra { bytes data = 1 [maxLength 4]; }
message M { oneof other { Extra e = 7; } repeated Part part = 3; Extra extra = 2; optional int32 first = 1;
oneof choice { string s = 5; int32 b = 4; } }`: the newer version of `C92Example.older` in another order. -/
def mixedM : MsgDesc := .mk "M".toList
  [inOneof 0 (field "e" 7 .message ".Extra"), field "part" 3 .message ".Part" true,
    field "extra" 2 .message ".Extra", optional 2 (field "first" 1 (.scalar .int32)),
    inOneof 1 (field "s" 5 .string), inOneof 1 (field "b" 4 (.scalar .int32))]
  ["other".toList, "choice".toList, "_first".toList] [] []
def mixed : List (Str × List MsgDesc) :=
  [([], [msg "Part" [field "label" 2 .string, field "x" 1 (.scalar .int32)],
    msg "Extra" [field "data" 1 .bytes (maxLength := 4)], mixedM])]

theorem mixedOrdered : Ordered mixed := ordered_files (by decide +kernel) (by decide +kernel) (by decide +kernel)

theorem mixedUsable : Usable mixed (params mixed) ".M".toList mixedM [3, 8, 10] :=
  usable_of mixedOrdered (params_ok (by decide +kernel)) (by decide +kernel) (by decide +kernel)
    (unshadowed_of mixedOrdered (by decide +kernel) (by decide +kernel)) (by decide +kernel) (by decide +kernel)
    (List.mem_of_getElem? (i := 2) rfl) (by decide +kernel) (by decide +kernel) (by simp [GoodLength]) (by decide +kernel)

/-- The order differs: this is no newer version as in `C92_receives_partial`. -/
example : ¬ grown keptField (loose oldM) (loose mixedM) := by decide +kernel

/-- The conditions of `C92_any_order_partial` are met. -/
example : ∃ E K E' K', ∃ S' : ElemTy, ∃ q : S'.Moved (.msg (Class.fs K) (Class.os K)),
    ∃ (o : (ElemTy.msg (Class.fs K') (Class.os K')).Older) (e : o.old = S'),
    IsClass older (params older) ".M".toList oldM [2] E K ∧ IsClass mixed (params mixed) ".M".toList mixedM [3, 8, 10] E' K' ∧
    Receives K K' (Made K' mixedM.fields mixedM.oneofs) fun v => q.val (o.shownAs e v) := by
  obtain ⟨E, K, hK⟩ := olderUsable.isClass
  obtain ⟨E', K', hK'⟩ := mixedUsable.isClass
  obtain ⟨⟨S', q, o, e, h⟩, _⟩ := C92_any_order_partial (changedFiles_of (by decide +kernel)) olderUsable mixedUsable hK hK'
  exact ⟨E, K, E', K', S', q, o, e, hK, hK', h⟩

end C92Example
end EP
