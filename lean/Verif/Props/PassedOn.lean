import Verif.Proof.PassedOn
import Verif.Props.ProtoVersions

/-!
# A message passed on by a program with an older version: C94

A program that does not know all of a message receives it and sends it on to one that does.  `SendsThen` and `ReceivesThen` say
what holds after `serialize` and `deserialize` have returned.
-/

namespace EP
open Gen Spec

/-- The object `x` can be sent, and `P` holds of the bytes that `serialize()` adds to any buffer, if it reports no error. -/
def ElemTy.SendsThen (t : ElemTy) (x : t.Obj) (P : List Byte → Prop) : Prop :=
  ∀ (ω : Type) [WriteBuffer ω] (W : WriteModel ω) (w w' : ω) (c : List Byte) (room : Nat), W.Rep w c room →
    t.cls.serialize x w = .ok (.noErrors, w') → ∃ bs room', W.Rep w' (c ++ bs) room' ∧ P bs

/-- `deserialize()` of a new object reports no error and reads the whole of any buffer that holds `bs`, and `P` holds of
the object. -/
def ElemTy.ReceivesThen (t : ElemTy) (bs : List Byte) (P : t.Obj → Prop) : Prop :=
  ∀ (β : Type) [ReadBuffer β] (M : ReadModel β) (b : β) (fuel : Nat), M.Inv b → M.view b = bs → bs.length < fuel →
    ∃ b' z, t.cls.deserialize fuel b t.cls.init = .ok (.noErrors, b', z) ∧ M.view b' = [] ∧ P z

/-- `n` programs receive the message and send it on, after which `P` holds of the object of the last. -/
def ElemTy.Hops (t : ElemTy) : Nat → (t.Obj → Prop) → t.Obj → Prop
  | 0, P => P
  | n + 1, P => fun x => t.SendsThen x fun bs => t.ReceivesThen bs (t.Hops n P)

theorem ElemTy.ReceivesThen.mono {t : ElemTy} {bs : List Byte} {P Q : t.Obj → Prop} (h : t.ReceivesThen bs P) (f : ∀ z, P z → Q z) :
    t.ReceivesThen bs Q := fun β _ M b fuel hb hv hf =>
  have ⟨b', z, h1, h2, h3⟩ := h β M b fuel hb hv hf
  ⟨b', z, h1, h2, f z h3⟩

section
variable {fs : Fields} {os : Oneofs}
local notation "T" => ElemTy.msg fs os

/-- What is received was made by a call. -/
theorem received_reach {bs : List Byte} {P : (T).Obj → Prop} (h : (T).ReceivesThen bs P) :
    (T).ReceivesThen bs fun z => (T).Reach z ∧ P z := fun β _ M b fuel hb hv hf =>
  have ⟨b', z, h1, h2, h3⟩ := h β M b fuel hb hv hf
  ⟨b', z, h1, h2, .step (R := fun _ => False) (fun _ e => nomatch e)
    (Or.inl (Or.inr (Or.inr (Or.inr (Or.inl ⟨⟨β, M, b, hb⟩, fuel, rfl⟩))))) .init (by
      show Res.object ((T).cls.deserialize fuel b (T).cls.init) = _
      rw [h1]
      rfl), h3⟩

theorem sent_encode (h : (T).WF) {x : (T).Obj} (hx : (T).Reach x) (hl : ((T).encode ((T).canon ((T).abs x))).length < 2 ^ 32)
    {P : List Byte → Prop} (hP : P ((T).encode ((T).canon ((T).abs x)))) : (T).SendsThen x P := by
  intro ω _ W w w' c room hw hs
  have ha := C13_serialize_partial W fs os x w c room h hx hw hl
  rw [hs] at ha
  rcases ha with ⟨_, ha⟩ | ⟨ha, _⟩
  · exact ⟨_, _, ha, hP⟩
  · exact nomatch ha

theorem received_own (h : (T).WF) (v : (T).Val) (hv : (T).Fits v) : (T).ReceivesThen ((T).encode v) fun z => (T).abs z = v := by
  intro β _ M b fuel hb he hf
  rcases C90_encodings M fs os readable_enc h v _ b fuel (Or.inl rfl) hb he (he ▸ hf) with ⟨_, h⟩ | ⟨hn, _⟩
  · exact h
  · exact absurd hv hn

/-- **C94**: sent through any number of programs with the same version, a message does not change (but for `-0.0`: C17). -/
theorem C94_hops (h : (T).WF) (n : Nat) {P : (T).Obj → Prop} : ∀ {x : (T).Obj}, (T).Reach x →
    ((T).encode ((T).canon ((T).abs x))).length < 2 ^ 32 →
    (∀ z, (T).Reach z → (T).canon ((T).abs z) = (T).canon ((T).abs x) → P z) → (T).Hops n P x := by
  induction n with
  | zero => exact fun hx _ hP => hP _ hx rfl
  | succ n ih =>
    intro x hx hl hP
    refine sent_encode h hx hl ?_
    refine (received_reach (received_own h _
      (ElemTy.fits_canon T _ (ElemTy.fits_abs T x (ElemTy.reach_inv T h hx))))).mono fun z ⟨hz, ha⟩ => ?_
    have e : (T).canon ((T).abs z) = (T).canon ((T).abs x) := by rw [ha, ElemTy.canon_idem]
    exact ih hz (e ▸ hl) fun y hy he => hP y hy (he.trans e)

end

section
variable {fs fs' fs'' : Fields} {os os' os'' : Oneofs}
local notation "S" => ElemTy.msg fs os
local notation "T" => ElemTy.msg fs' os'
local notation "U" => ElemTy.msg fs'' os''

theorem shownAs_length (o : (T).Older) (e : o.old = S) (v : (T).Val) :
    ((S).encode ((S).canon (o.shownAs e v))).length ≤ ((T).encode v).length := by
  cases o with
  | msg f o =>
    have e : ElemTy.msg f.old o.old = ElemTy.msg fs os := e
    cases e
    exact Nat.le_trans (ElemTy.canon_shorter _ _).1 ((ElemTy.Older.msg f o).shown_shorter v).1

theorem passedAs_fits (o : (T).Older) (e : o.old = S) (v : (T).Val) (h : (T).Fits v) :
    (T).Fits (o.liftedAs e ((S).canon (o.shownAs e v))) := by
  cases o with
  | msg f o =>
    have e : ElemTy.msg f.old o.old = ElemTy.msg fs os := e
    cases e
    exact (ElemTy.Older.msg f o).fits_passed v h

theorem shownAs_liftedAs (o : (T).Older) (e : o.old = S) (v : (S).Val) : o.shownAs e (o.liftedAs e v) = v := by
  cases o with
  | msg f o =>
    have e : ElemTy.msg f.old o.old = ElemTy.msg fs os := e
    cases e
    exact (ElemTy.Older.msg f o).shown_lifted v

/-- **C94**.  A program with a newer version of the declaration sends a message to one with an older version, which sends
it through any number of programs with that version to one with another newer version: this receives all that the older
version knows of the message, and nothing else.  What is sent on is not longer than what was received. -/
theorem C94_passed_on (o : (T).Older) (e : o.old = S) (o' : (U).Older) (e' : o'.old = S) (h : (T).WF) (h' : (S).WF)
    (h'' : (U).WF) (n : Nat) {x : (T).Obj} (hx : (T).Reach x) (hl : ((T).encode ((T).canon ((T).abs x))).length < 2 ^ 32)
    (hfit : (S).Fits (o.shownAs e ((T).canon ((T).abs x))))
    (hfit' : (U).Fits (o'.liftedAs e' ((S).canon (o.shownAs e ((T).canon ((T).abs x)))))) :
    (T).SendsThen x fun bs => (S).ReceivesThen bs <| (S).Hops n fun z => (S).SendsThen z fun cs => cs.length ≤ bs.length ∧
      (U).ReceivesThen cs fun y => (U).abs y = o'.liftedAs e' ((S).canon (o.shownAs e ((T).canon ((T).abs x)))) := by
  refine sent_encode h hx hl ?_
  refine (received_reach (P := fun z => (S).abs z = o.shownAs e ((T).canon ((T).abs x))) ?_).mono fun z ⟨hz, ha⟩ => ?_
  · intro β _ M b fuel hb hv hf
    rcases older_receiver M o e h h' _ b fuel hb hv (hv ▸ hf) with ⟨_, h⟩ | ⟨hn, _⟩
    · exact h
    · exact absurd hfit hn
  · have hlen := shownAs_length o e ((T).canon ((T).abs x))
    refine C94_hops h' n hz (by rw [ha]; omega) fun y hy he => ?_
    rw [ha] at he
    refine sent_encode h' hy (by rw [he]; omega) ?_
    rw [he]
    refine ⟨hlen, fun β _ M b fuel hb hv hf => ?_⟩
    rcases newer_receiver M o' e' h'' _ b fuel hb hv (hv ▸ hf) with ⟨_, h⟩ | ⟨hn, _⟩
    · exact h
    · exact absurd hfit' hn

/-- **C94**, the first and the last program have the same version: the last has room for the message. -/
theorem C94_back (o : (T).Older) (e : o.old = S) (h : (T).WF) (h' : (S).WF) (n : Nat) {x : (T).Obj} (hx : (T).Reach x)
    (hl : ((T).encode ((T).canon ((T).abs x))).length < 2 ^ 32) (hfit : (S).Fits (o.shownAs e ((T).canon ((T).abs x)))) :
    (T).SendsThen x fun bs => (S).ReceivesThen bs <| (S).Hops n fun z => (S).SendsThen z fun cs => cs.length ≤ bs.length ∧
      (T).ReceivesThen cs fun y => (T).abs y = o.liftedAs e ((S).canon (o.shownAs e ((T).canon ((T).abs x)))) ∧
        o.shownAs e ((T).abs y) = (S).canon (o.shownAs e ((T).canon ((T).abs x))) := by
  have := C94_passed_on o e o e h h' h n hx hl hfit
    (passedAs_fits o e _ (ElemTy.fits_canon T _ (ElemTy.fits_abs T x (ElemTy.reach_inv T h hx))))
  have key : ∀ y : (T).Obj, (T).abs y = o.liftedAs e ((S).canon (o.shownAs e ((T).canon ((T).abs x)))) →
      (T).abs y = o.liftedAs e ((S).canon (o.shownAs e ((T).canon ((T).abs x)))) ∧
        o.shownAs e ((T).abs y) = (S).canon (o.shownAs e ((T).canon ((T).abs x))) :=
    fun y hy => ⟨hy, by rw [hy, shownAs_liftedAs]⟩
  have e : (fun y : (T).Obj => (T).abs y = o.liftedAs e ((S).canon (o.shownAs e ((T).canon ((T).abs x)))) ∧
        o.shownAs e ((T).abs y) = (S).canon (o.shownAs e ((T).canon ((T).abs x)))) =
      fun y => (T).abs y = o.liftedAs e ((S).canon (o.shownAs e ((T).canon ((T).abs x)))) :=
    funext fun y => propext ⟨And.left, key y⟩
  rw [e]
  exact this

end

section
variable (K : Class)

/-- As `ElemTy.SendsThen`, with the `serialize()` of a class. -/
def _root_.EP.Gen.Class.SendsThen (x : K.Obj) (P : List Byte → Prop) : Prop :=
  ∀ (ω : Type) [WriteBuffer ω] (W : WriteModel ω) (w w' : ω) (c : List Byte) (room : Nat), W.Rep w c room →
    K.runSerialize x w = .ok (.noErrors, w') → ∃ bs room', W.Rep w' (c ++ bs) room' ∧ P bs

/-- As `ElemTy.ReceivesThen`, with the `deserialize()` of a class. -/
def _root_.EP.Gen.Class.ReceivesThen (bs : List Byte) (P : K.Obj → Prop) : Prop :=
  ∀ (β : Type) [ReadBuffer β] (M : ReadModel β) (b : β) (fuel : Nat), M.Inv b → M.view b = bs → bs.length < fuel →
    ∃ b' z, K.runDeserialize fuel b K.new = .ok (.noErrors, b', z) ∧ M.view b' = [] ∧ P z

def _root_.EP.Gen.Class.Hops : Nat → (K.Obj → Prop) → K.Obj → Prop
  | 0, P => P
  | n + 1, P => fun x => K.SendsThen x fun bs => K.ReceivesThen bs (Class.Hops n P)

variable {K} {E : Types} {fields : List FieldDesc} {oneofs : List Str}
local notation "T" => ElemTy.msg (Class.fs K) (Class.os K)

theorem class_sends (h : Implements E K fields oneofs) {x : K.Obj} (hx : (T).Reach x) {P Q : List Byte → Prop}
    (hs : (T).SendsThen x P) (hPQ : ∀ bs, P bs → Q bs) : K.SendsThen x Q := by
  intro ω _ W w w' c room hw hr
  rw [h.serialize x w hx] at hr
  obtain ⟨bs, room', h1, h2⟩ := hs ω W w w' c room hw hr
  exact ⟨bs, room', h1, hPQ bs h2⟩

theorem class_receives (h : Implements E K fields oneofs) {bs : List Byte} {P Q : K.Obj → Prop}
    (hs : (T).ReceivesThen bs P) (hPQ : ∀ z, (T).Reach z → P z → Q z) : K.ReceivesThen bs Q := by
  intro β _ M b fuel hb hv hf
  obtain ⟨b', z, h1, h2, h3, h4⟩ := received_reach hs β M b fuel hb hv hf
  have hn : (T).Reach (Class.new K) := by
    rw [h.new]
    exact .init
  refine ⟨b', z, ?_, h2, hPQ z h3 h4⟩
  rw [h.deserialize ⟨β, M, b, hb⟩ fuel _ hn, h.new]
  exact h1

theorem class_hops (h : Implements E K fields oneofs) (n : Nat) {P Q : K.Obj → Prop} (hPQ : ∀ z, (T).Reach z → P z → Q z) :
    ∀ {x : K.Obj}, (T).Reach x → (T).Hops n P x → K.Hops n Q x := by
  induction n with
  | zero => exact fun hx hp => hPQ _ hx hp
  | succ n ih => exact fun hx hp => class_sends h hx hp fun bs hr => class_receives h hr fun z hz hq => ih hz hq

end

section
variable {old new new' : List (Str × List MsgDesc)} {P P' P'' : Str → List Str} {own : Str} {l m m' : MsgDesc}
  {args args' args'' : List Nat} {E E' E'' : Types} {K K' K'' : Class}
local notation "S" => ElemTy.msg (Class.fs K) (Class.os K)
local notation "T" => ElemTy.msg (Class.fs K') (Class.os K')
local notation "U" => ElemTy.msg (Class.fs K'') (Class.os K'')

/-- **C94** for classes generated from three versions of `.proto` files, two of which are newer than the third. -/
theorem C94_generated_partial (hN : NewerFiles old new) (hN' : NewerFiles old new') (hU : Usable old P own l args)
    (hU' : Usable new P' own m args') (hU'' : Usable new' P'' own m' args'') (hK : IsClass old P own l args E K)
    (hK' : IsClass new P' own m args' E' K') (hK'' : IsClass new' P'' own m' args'' E'' K'') :
    ∃ (o : (T).Older) (e : o.old = S) (o' : (U).Older) (e' : o'.old = S),
      ∀ (n : Nat) (x : K'.Obj), Made K' m.fields m.oneofs x → ((T).encode ((T).canon ((T).abs x))).length < 2 ^ 32 →
        (S).Fits (o.shownAs e ((T).canon ((T).abs x))) →
        (U).Fits (o'.liftedAs e' ((S).canon (o.shownAs e ((T).canon ((T).abs x))))) →
        K'.SendsThen x fun bs => K.ReceivesThen bs <| K.Hops n fun z => K.SendsThen z fun cs => cs.length ≤ bs.length ∧
          K''.ReceivesThen cs fun y => (U).abs y = o'.liftedAs e' ((S).canon (o.shownAs e ((T).canon ((T).abs x)))) := by
  obtain ⟨o, e⟩ := C92_types hN hU.ordered.fields hU'.ordered.fields hK.type hK'.type
  obtain ⟨o', e'⟩ := C92_types hN' hU.ordered.fields hU''.ordered.fields hK.type hK''.type
  refine ⟨o, e, o', e', fun n x hx hl hfit hfit' => ?_⟩
  have hx := hK'.implements.reach hx
  refine class_sends hK'.implements hx (C94_passed_on o e o' e' hK'.implements.wf hK.implements.wf hK''.implements.wf n hx
    hl hfit hfit') fun bs hr => ?_
  refine class_receives hK.implements hr fun z hz hh => ?_
  refine class_hops hK.implements n (fun z hz hh => ?_) hz hh
  refine class_sends hK.implements hz hh fun cs ⟨h1, h2⟩ => ⟨h1, ?_⟩
  exact class_receives hK''.implements h2 fun y _ hy => hy

end

/-! ## Examples -/

namespace Sample

/-- The conditions of `C94_back` hold of the sample, with the older version of C56. -/
example : ∃ x, outer.Reach x ∧ outer.abs x = value ∧ ((outer).encode (outer.canon (outer.abs x))).length < 2 ^ 32 ∧
    (ElemTy.msg olderFields.old olderOneofs.old).Fits
      (ElemTy.Older.shownAs (.msg olderFields olderOneofs) rfl (outer.canon (outer.abs x))) := by
  obtain ⟨x, h1, h2⟩ := reachable
  refine ⟨x, h1, h2, ?_, ?_⟩
  · rw [h2]; decide +kernel
  · rw [h2]
    show (ElemTy.msg olderFields.old olderOneofs.old).Fits
      ((150#32, 0#32, [1#32, 300#32], (((-1 : BitVec 32), ()), ()), [((0#32, ()), ()), ((0#32, ()), ())],
        0x3FC00000#32, ()), (none, ()))
    simp [olderFields, olderOneofs, olderInner, Fields.Older.old, Oneofs.Older.old, Alts.Older.old,
      ElemTy.Older.old, ElemTy.Fits, Fields.Fits, Oneofs.Fits]
    exact ⟨by decide, by decide⟩

/-- What comes back of the sample: `b`, `d`, the `b`s of the inner messages, `i` and `j` are lost. -/
example : (ElemTy.Older.msg olderFields olderOneofs).lifted ((ElemTy.msg olderFields.old olderOneofs.old).canon
      ((ElemTy.Older.msg olderFields olderOneofs).shown value)) =
    ((150#32, none, [1#32, 300#32], [], (((-1 : BitVec 32), [], ()), ()),
      [((0#32, [], ()), ()), ((0#32, [], ()), ())], 0x3FC00000#32, ()), (none, ())) := rfl

end Sample

namespace C92Example

/-- The conditions of `C94_generated_partial` are met: from `M<3, 8, 10>` over `M<2>` to `M<4, 8, 10>`. -/
example : ∃ E K E' K' E'' K'', IsClass older (params older) ".M".toList oldM [2] E K ∧
    IsClass newer (params newer) ".M".toList newM [3, 8, 10] E' K' ∧
    IsClass newer (params newer) ".M".toList newM [4, 8, 10] E'' K'' ∧ NewerFiles older newer := by
  obtain ⟨E, K, hK⟩ := olderUsable.isClass
  obtain ⟨E', K', hK'⟩ := newerUsable.isClass
  have : Usable newer (params newer) ".M".toList newM [4, 8, 10] :=
    { newerUsable with count := newerUsable.count, good := by simp [GoodLength] }
  obtain ⟨E'', K'', hK''⟩ := this.isClass
  exact ⟨E, K, E', K', E'', K'', hK, hK', hK'', newerFiles_of (by decide +kernel)⟩

end C92Example

end EP
