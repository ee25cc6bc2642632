import Verif.Proof.Moved
import Verif.Proof.Reordered
import Verif.Spec.Framed
import Verif.Props.ProtoVersions
import Verif.Props.Encode

/-!
# The order of the declarations: C93

`T` and `S` are declarations with the same fields, oneofs and members of oneofs, in another order, at any depth
(`Spec/Moved.lean`).
-/

namespace EP
open Gen Spec

section
variable {fs gs : Fields} {os ps : Oneofs} (f : fs.Moved gs) (o : os.Moved ps)
local notation "T" => ElemTy.msg fs os
local notation "S" => ElemTy.msg gs ps
local notation "O" => ElemTy.Moved.msg f o

/-- **C93**, any bytes, objects with the same contents: the same error, and afterwards the same contents; also after an
error. -/
theorem C93_receive {β γ : Type} [ReadBuffer β] [ReadBuffer γ] (M : ReadModel β) (N : ReadModel γ) (x : (T).Obj)
    (y : (S).Obj) (b : β) (c : γ) (fuel fuel' : Nat) (h : (T).WF) (hx : (T).Reach x) (hy : (S).Reach y)
    (he : (S).held y = (O).held ((T).held x)) (hb : M.Inv b) (hc : N.Inv c) (hv : N.view c = M.view b)
    (hp : parseMessage fs os false (M.view b) ((T).held x) ≠ .overrun)
    (hf : (M.view b).length < fuel) (hf' : (M.view b).length < fuel') :
    ∃ e b' c' x' y', (T).cls.deserialize fuel b x = .ok (e, b', x') ∧ (S).cls.deserialize fuel' c y = .ok (e, c', y') ∧
      (S).held y' = (O).held ((T).held x') ∧ (S).abs y' = (O).val ((T).abs x') ∧
      (e = .noErrors → M.view b' = [] ∧ N.view c' = []) := by
  have a1 := C64_reference M fs os x b fuel h hx hb hf
  have a2 := C64_reference N gs ps y c fuel' ((O).wf h) hy hc (hv ▸ hf')
  rw [hv, he, parseMessage_moved f o h.distinct] at a2
  unfold Agrees at a1 a2
  cases hq : parseMessage fs os false (M.view b) ((T).held x) with
  | ok v rest =>
    rw [hq] at a1 a2
    obtain ⟨c1, y1, p1, p2, p3, p4⟩ := a1
    obtain ⟨c2, y2, q1, q2, q3, q4⟩ := a2
    exact ⟨_, c1, c2, y1, y2, p1, q1, q3.trans (congrArg (O).held p3.symm),
      (q4.trans ((O).seen v)).trans (congrArg (O).val p4.symm), fun _ => ⟨p2, q2⟩⟩
  | fail e v =>
    rw [hq] at a1 a2
    obtain ⟨pe, c1, y1, p1, p3, p4⟩ := a1
    obtain ⟨_, c2, y2, q1, q3, q4⟩ := a2
    exact ⟨_, c1, c2, y1, y2, p1, q1, q3.trans (congrArg (O).held p3.symm),
      (q4.trans ((O).seen v)).trans (congrArg (O).val p4.symm), fun he => absurd he pe⟩
  | overrun => exact absurd hq hp

/-- New objects have the same contents. -/
theorem moved_init (h : (T).WF) : (S).held (S).cls.init = (O).held ((T).held (T).cls.init) := by
  have h1 : (T).held (T).cls.init = (T).fresh := (ElemTy.init_held T h).init_abs
  have h2 : (S).held (S).cls.init = (S).fresh := (ElemTy.init_held S ((O).wf h)).init_abs
  rw [h1, h2]
  exact (O).fresh.symm

/-- **C93**, any bytes as a message that is preceded by its size: the same error and the same values. -/
theorem C93_alone (h : (T).WF) (p : List Byte) : alone gs ps p = ((alone fs os p).1, (O).val (alone fs os p).2) := by
  unfold alone
  have hd := parseMessage_moved f o h.distinct true p (T).fresh
  rw [(O).fresh] at hd
  have ht := parseMessage_total fs os p (T).fresh
  rw [hd]
  cases hq : parseMessage fs os true p (T).fresh with
  | ok v rest => exact congrArg _ ((O).seen v)
  | fail e v => exact congrArg _ ((O).seen v)
  | overrun => rw [hq] at ht; exact ht.elim

/-- **C93**: objects with the same values have the same size. -/
theorem C93_size (x : (T).Obj) (y : (S).Obj) (h : (T).WF) (hx : (T).Reach x) (hy : (S).Reach y)
    (he : (S).abs y = (O).val ((T).abs x)) (hl : ((T).encode ((T).canon ((T).abs x))).length < 2 ^ 32) :
    ∃ n, (T).cls.serializedSize x = .ok n ∧ (S).cls.serializedSize y = .ok n := by
  have e : ((S).encode ((S).canon ((S).abs y))).length = ((T).encode ((T).canon ((T).abs x))).length := by
    rw [he, (O).canon]
    exact (O).size ScalarTy.enc _
  refine ⟨_, C14_size_of_encoding fs os x h hx hl, ?_⟩
  rw [← e]
  exact C14_size_of_encoding gs ps y ((O).wf h) hy (e.symm ▸ hl)

/-- **C93**: an encoding of any value by a program with the fields in one order, received by one with the other: if the
value fits, it is received, otherwise the result is `ARRAY_FULL`. -/
theorem C93_encodings {β : Type} [ReadBuffer β] (M : ReadModel β) {sc : (s : ScalarTy) → s.Val → List Byte}
    (hsc : Readable sc) (h : (T).WF) (v : (T).Val) (y : (S).Obj) (b : β) (fuel : Nat) (hy : NewOrCleared gs ps y)
    (hb : M.Inv b) (hv : M.view b = (T).encodeWith sc v) (hf : (M.view b).length < fuel) :
    ((S).Fits ((O).val v) ∧
      ∃ b' z, (S).cls.deserialize fuel b y = .ok (.noErrors, b', z) ∧ M.view b' = [] ∧ (S).abs z = (O).val v) ∨
    (¬ (S).Fits ((O).val v) ∧ ∃ b' z, (S).cls.deserialize fuel b y = .ok (.arrayFull, b', z)) := by
  have h' := (O).wf h
  rw [hy.eq_init _ _ h']
  have hl := M.view_lt b hb
  rw [hv] at hl
  have hp : parseMessage fs os false (M.view b) ((T).held (T).cls.init) ≠ .overrun := by
    rw [hv]
    rcases wellFormed_exact h (encode_wellFormed hsc fs os h v hl) ((T).held (T).cls.init) with ⟨u, hu⟩ | hfull
    · rw [hu.parse h.distinct]
      nofun
    · obtain ⟨w, hw⟩ := hfull false
      rw [hw]
      nofun
  obtain ⟨e, b1, b2, x', y', g1, g2, _, g3, g4⟩ := C93_receive f o M M (T).cls.init (S).cls.init b b fuel fuel h .init .init
    (moved_init f o h) hb hb rfl hp hf hf
  rcases C90_encodings M fs os hsc h v (T).cls.init b fuel (Or.inl rfl) hb hv hf with ⟨k1, b3, z, k2, k3, k4⟩ | ⟨k1, b3, z, k2⟩
  · have k2 := k2.symm.trans g1
    cases k2
    exact Or.inl ⟨(O).fits v k1, b2, y', g2, (g4 rfl).2, g3.trans (congrArg _ k4)⟩
  · have k2 := k2.symm.trans g1
    cases k2
    refine Or.inr ⟨fun hfit => k1 ?_, b2, y', g2⟩
    have := (O).back.fits _ hfit
    rwa [(O).back_val] at this

end

section
variable {fs gs : Fields} {os ps : Oneofs}
local notation "T" => ElemTy.msg fs os
local notation "S" => ElemTy.msg gs ps

/-- **C93**: there is one way in which the members of one declaration are those of the other, as far as values that can be
sent are concerned. -/
theorem C93_unique (f f' : fs.Moved gs) (o o' : os.Moved ps) (h : (T).WF) (v : (T).Val) (hfit : (T).Fits v)
    (hl : ((T).encode v).length < 2 ^ 32) : (ElemTy.Moved.msg f o).val v = (ElemTy.Moved.msg f' o').val v := by
  generalize hbs : (T).encode v = bs at hl
  have hv : (ReadFixed.model bs.length hl).view (ReadFixed.holding bs.length bs) = bs := ReadFixed.holding_view ..
  have hB := ReadFixed.holding_inv bs.length hl bs (Nat.le_refl _)
  have key := fun (f : fs.Moved gs) (o : os.Moved ps) => C93_encodings f o (ReadFixed.model bs.length hl) readable_enc h v
    (S).cls.init _ (bs.length + 1) (Or.inl rfl) hB (hv.trans hbs.symm) (by rw [hv]; omega)
  rcases key f o with ⟨_, b1, z1, k1, _, k2⟩ | ⟨k, _⟩
  · rcases key f' o' with ⟨_, b2, z2, l1, _, l2⟩ | ⟨k, _⟩
    · have e := k1.symm.trans l1
      cases e
      exact k2.symm.trans l2
    · exact absurd ((ElemTy.Moved.msg f' o').fits v hfit) k
  · exact absurd ((ElemTy.Moved.msg f o).fits v hfit) k

end

section
variable {ω : Type} [WriteBuffer ω] (W : WriteModel ω) {fs gs : Fields} {os ps : Oneofs} (f : fs.Moved gs) (o : os.Moved ps)
local notation "T" => ElemTy.msg fs os
local notation "S" => ElemTy.msg gs ps
local notation "O" => ElemTy.Moved.msg f o

/-- **C93**: what is sent with the fields in one order is received with the other. -/
theorem C93_round_trip (x : (T).Obj) (y : (S).Obj) (w w' : ω) (c : List Byte) (room : Nat) (h : (T).WF) (hx : (T).Reach x)
    (hy : NewOrCleared gs ps y) (hw : W.Rep w c room) (hl : ((T).encode ((T).canon ((T).abs x))).length < 2 ^ 32)
    (hs : (T).cls.serialize x w = .ok (.noErrors, w')) :
    ∃ bs room', W.Rep w' (c ++ bs) room' ∧
      ∀ (β : Type) [ReadBuffer β] (M : ReadModel β) (b : β) (fuel : Nat), M.Inv b → M.view b = bs → bs.length < fuel →
        ∃ b' z, (S).cls.deserialize fuel b y = .ok (.noErrors, b', z) ∧ M.view b' = [] ∧
          (S).abs z = (O).val ((T).canon ((T).abs x)) := by
  have ha := C13_serialize_partial W fs os x w c room h hx hw hl
  rw [hs] at ha
  rcases ha with ⟨_, ha⟩ | ⟨ha, _⟩
  · refine ⟨_, _, ha, fun β _ M b fuel hb hv hf => ?_⟩
    rcases C93_encodings f o M readable_enc h _ y b fuel hy hb hv (hv ▸ hf) with ⟨_, k⟩ | ⟨k, _⟩
    · exact k
    · exact absurd ((O).fits _ (ElemTy.fits_canon T _ (ElemTy.fits_abs T x (ElemTy.reach_inv T h hx)))) k
  · exact nomatch ha

end

/-! ## Generated classes -/

section
variable (K K' : Class)
local notation "R" => ElemTy.msg (Class.fs K) (Class.os K)
local notation "Q" => ElemTy.msg (Class.fs K') (Class.os K')

/-- A program with the class `K` receives what one with the class `K'` sends, as `seen v`. -/
def Delivers (made : K'.Obj → Prop) (seen : (ElemTy.msg K'.fs K'.os).Val → (ElemTy.msg K.fs K.os).Val) : Prop :=
  ∀ (ω : Type) [WriteBuffer ω] (W : WriteModel ω) (x : K'.Obj) (w w' : ω) (c : List Byte) (room : Nat), made x →
    W.Rep w c room → ((Q).encode ((Q).canon ((Q).abs x))).length < 2 ^ 32 → Class.runSerialize K' x w = .ok (.noErrors, w') →
    ∃ bs room', W.Rep w' (c ++ bs) room' ∧
      ∀ (β : Type) [ReadBuffer β] (M : ReadModel β) (b : β) (fuel : Nat), M.Inv b → M.view b = bs → bs.length < fuel →
        ∃ b' z, Class.runDeserialize K fuel b (Class.new K) = .ok (.noErrors, b', z) ∧
          M.view b' = [] ∧ (R).abs z = seen ((Q).canon ((Q).abs x))

/-- From the same bytes, programs with the two classes receive the same; also in the case of an error.  (Not if the bytes
say that more is to be skipped than there is.) -/
def SameReceived (seen : (ElemTy.msg K.fs K.os).Val → (ElemTy.msg K'.fs K'.os).Val) : Prop :=
  ∀ (β γ : Type) [ReadBuffer β] [ReadBuffer γ] (M : ReadModel β) (N : ReadModel γ) (b : β) (c : γ) (fuel : Nat),
    M.Inv b → N.Inv c → N.view c = M.view b → (M.view b).length < fuel →
    parseMessage (Class.fs K) (Class.os K) false (M.view b) (R).fresh ≠ .overrun →
    ∃ e b' c' x y, Class.runDeserialize K fuel b (Class.new K) = .ok (e, b', x) ∧
      Class.runDeserialize K' fuel c (Class.new K') = .ok (e, c', y) ∧ (Q).abs y = seen ((R).abs x)

/-- Objects with the same value need the same number of bytes. -/
def SameSize (made : K.Obj → Prop) (made' : K'.Obj → Prop)
    (seen : (ElemTy.msg K.fs K.os).Val → (ElemTy.msg K'.fs K'.os).Val) : Prop :=
  ∀ x y, made x → made' y → (Q).abs y = seen ((R).abs x) → ((R).encode ((R).canon ((R).abs x))).length < 2 ^ 32 →
    ∃ n, (R).cls.serializedSize x = .ok n ∧ (Q).cls.serializedSize y = .ok n

end

section
variable {files files' : List (Str × List MsgDesc)} {P P' : Str → List Str} {own : Str} {l m : MsgDesc}
  {args args' : List Nat} {E E' : Types} {K K' : Class}
local notation "R" => ElemTy.msg (Class.fs K) (Class.os K)
local notation "Q" => ElemTy.msg (Class.fs K') (Class.os K')

theorem moved_delivers (hK : IsClass files P own l args E K) (hK' : IsClass files' P' own m args' E' K')
    (f : K.fs.Moved K'.fs) (o : K.os.Moved K'.os) :
    Delivers K' K (Made K l.fields l.oneofs) (ElemTy.Moved.msg f o).val := by
  intro ω _ W x w w' c room hx hw hl hr
  have hx := hK.implements.reach hx
  rw [hK.implements.serialize x w hx] at hr
  obtain ⟨bs, room', h1, h2⟩ := C93_round_trip W f o x (Class.new K') w w' c room hK.implements.wf hx
    (Or.inl hK'.implements.new) hw hl hr
  refine ⟨bs, room', h1, fun β _ M b fuel hb hv hf => ?_⟩
  have hn : (Q).Reach (Class.new K') := by
    rw [hK'.implements.new]
    exact .init
  rw [hK'.implements.deserialize ⟨β, M, b, hb⟩ fuel _ hn]
  exact h2 β M b fuel hb hv hf

/-- **C93**: the types of classes generated from files in different orders, with the same lengths. -/
theorem C93_types (hR : ReorderedFiles files files') (hU : Usable files P own l args) (hU' : Usable files' P' own m args')
    (ha : SameArguments (P own) (P' own) args args') (hK : IsClass files P own l args E K)
    (hK' : IsClass files' P' own m args' E' K') : ∃ (f : K.fs.Moved K'.fs) (o : K.os.Moved K'.os), True := by
  obtain ⟨M⟩ := instantiate_moved hR hU.ordered hU'.ordered hU.counted hU'.counted hU.templates hU'.templates _ _ ha
    hK.type hK'.type
  generalize eS : R = S at M
  generalize eT : Q = T at M
  cases M with
  | same =>
    have e := eS.trans eT.symm
    injection e with e1 e2
    exact ⟨e1 ▸ .same _, e2 ▸ .same _, trivial⟩
  | msg f o =>
    injection eS with e1 e2
    injection eT with e3 e4
    subst e1 e2 e3 e4
    exact ⟨f, o, trivial⟩

/-- **C93**.  `.proto` files and the same in another order, with classes generated from both, given the same lengths: there
is a way in which the members of one class are those of the other such that what is sent with either is received with the
other, from the same bytes the same is received, and the sizes are the same. -/
theorem C93_generated_partial (hR : ReorderedFiles files files') (hU : Usable files P own l args) (hU' : Usable files' P' own m args')
    (ha : SameArguments (P own) (P' own) args args') (hK : IsClass files P own l args E K)
    (hK' : IsClass files' P' own m args' E' K') :
    ∃ O : (R).Moved (Q), (∀ v, O.back.val (O.val v) = v) ∧
      Delivers K' K (Made K l.fields l.oneofs) O.val ∧ Delivers K K' (Made K' m.fields m.oneofs) O.back.val ∧
      SameReceived K K' O.val ∧ SameSize K K' (Made K l.fields l.oneofs) (Made K' m.fields m.oneofs) O.val := by
  obtain ⟨f, o, _⟩ := C93_types hR hU hU' ha hK hK'
  refine ⟨.msg f o, ElemTy.Moved.back_val _, moved_delivers hK hK' f o, moved_delivers hK' hK f.back o.back, ?_, ?_⟩
  · intro β γ _ _ M N b c fuel hb hc hv hf hp
    have hn : (R).Reach (Class.new K) := by
      rw [hK.implements.new]
      exact .init
    have hn' : (Q).Reach (Class.new K') := by
      rw [hK'.implements.new]
      exact .init
    rw [hK.implements.deserialize ⟨β, M, b, hb⟩ fuel _ hn, hK.implements.new,
      hK'.implements.deserialize ⟨γ, N, c, hc⟩ fuel _ hn', hK'.implements.new]
    have h1 : (R).held (R).cls.init = (R).fresh := (ElemTy.init_held R hK.implements.wf).init_abs
    obtain ⟨e, b', c', x', y', g1, g2, _, g3, _⟩ := C93_receive f o M N (R).cls.init (Q).cls.init b c fuel fuel
      hK.implements.wf .init .init (moved_init f o hK.implements.wf) hb hc hv (h1.symm ▸ hp) hf hf
    exact ⟨e, b', c', x', y', g1, g2, g3⟩
  · intro x y hx hy he hl
    exact C93_size f o x y hK.implements.wf (hK.implements.reach hx) (hK'.implements.reach hy) he hl

end

namespace C93Example
open C49Example C77Example C92Example

/-- Two fields, a oneof in front of another. -/
abbrev F1 : Fields := .plain 1 (.scalar .int32) (.repeated 2 3 (.msg (.plain 1 (.scalar .boolean) (.optional 2 (.str 4) .nil)) .nil) .nil)
abbrev G1 : Fields := .repeated 2 3 (.msg (.optional 2 (.str 4) (.plain 1 (.scalar .boolean) .nil)) .nil) (.plain 1 (.scalar .int32) .nil)
abbrev O1 : Oneofs := .cons (.cons 3 (.scalar .uint32) (.cons 4 (.str 5) .nil)) (.cons (.cons 5 (.scalar .boolean) .nil) .nil)
abbrev P1 : Oneofs := .cons (.cons 5 (.scalar .boolean) .nil) (.cons (.cons 4 (.str 5) (.cons 3 (.scalar .uint32) .nil)) .nil)

def f1 : F1.Moved G1 := .trans (.swap (.plain 1 (.scalar .int32)) (.repeated 2 3 _) .nil)
  (.repeated 2 3 (.msg (.swap (.plain 1 (.scalar .boolean)) (.optional 2 (.str 4)) .nil) (.same _)) (.same _))
def o1 : O1.Moved P1 := .trans (.swap _ _ _) (.cons (.same _) (.cons (.swap _ _ _ _ _) (.same _)))

theorem wf1 : (ElemTy.msg F1 O1).WF := by
  simp [F1, O1, ElemTy.WF, Fields.WF, Oneofs.WF, Alts.WF, Fields.numbers, Oneofs.numbers, Alts.numbers]

/-- `1: 7, 2: {1: true, 2: "a"}, 4: "b"`: the value in the two orders, and the bytes, which differ. -/
def v1 : (ElemTy.msg F1 O1).Val := ((7#32, [((true, some [97], ()), ())], ()), some (.inr (.inl [98])), none, ())

def w1 : (ElemTy.msg G1 P1).Val := (([((some [97], true, ()), ())], 7#32, ()), none, some (.inl [98]), ())

example : (ElemTy.Moved.msg f1 o1).val v1 = w1 := rfl

example : (ElemTy.msg F1 O1).encode v1 = [8, 7, 18, 5, 8, 1, 18, 1, 97, 34, 1, 98] ∧
    (ElemTy.msg G1 P1).encode w1 = [18, 5, 18, 1, 97, 8, 1, 8, 7, 34, 1, 98] := by
  decide +kernel

/-- The conditions of `C93_alone`, and of `C93_receive` and `C93_encodings` for these bytes, are met. -/
example (p : List Byte) : alone G1 P1 p = ((alone F1 O1 p).1, (ElemTy.Moved.msg f1 o1).val (alone F1 O1 p).2) :=
  C93_alone f1 o1 wf1 p

/-- ... and with an error: the tag of field 2 with a wrong wire type. -/
example : (alone F1 O1 [8, 7, 16, 1]).1 = (alone G1 P1 [8, 7, 16, 1]).1 ∧ (alone F1 O1 [8, 7, 16, 1]).1 ≠ .noErrors := by
  decide +kernel

example (b : ReadFixed) (hb : (ReadFixed.model 20 (by decide)).Inv b)
    (hv : (ReadFixed.model 20 (by decide)).view b = [8, 7, 18, 5, 8, 1, 18, 1, 97, 34, 1, 98]) :
    ∃ b' z, (ElemTy.msg G1 P1).cls.deserialize 30 b (ElemTy.msg G1 P1).cls.init = .ok (.noErrors, b', z) ∧
      (ElemTy.msg G1 P1).abs z = w1 := by
  rcases C93_encodings f1 o1 (ReadFixed.model 20 (by decide)) readable_enc wf1 v1 (ElemTy.msg G1 P1).cls.init b 30 (Or.inl rfl) hb
    (hv.trans (by decide +kernel)) (by rw [hv]; decide) with ⟨_, b', z, h1, _, h2⟩ | ⟨h, _⟩
  · exact ⟨b', z, h1, h2⟩
  · refine absurd ((ElemTy.Moved.msg f1 o1).fits v1 ⟨?_, ?_⟩) h
    · simp only [v1, ElemTy.Fits, Fields.Fits]
      refine ⟨trivial, ⟨by decide, fun x hx => ?_⟩, trivial⟩
      cases List.mem_singleton.mp hx
      refine ⟨⟨trivial, fun s hs => ?_, trivial⟩, trivial⟩
      cases hs
      decide
    refine ⟨fun x hx => ?_, nofun, trivial⟩
    cases hx
    simp [Alts.Fits, ElemTy.Fits]

/-! Files. -/

/-- `Pairs` and `Shuffled`, computed. -/
def pairs {α β : Type} (r : α → β → Bool) : List α → List β → Bool
  | [], [] => true
  | a :: l, b :: m => r a b && pairs r l m
  | _, _ => false

theorem pairs_sound {α β : Type} {r : α → β → Bool} {R : α → β → Prop} (h : ∀ a b, r a b = true → R a b) :
    ∀ (l : List α) (m : List β), pairs r l m = true → Pairs R l m
  | [], [], _ => .nil
  | a :: l, b :: m, e => by
    rw [pairs, Bool.and_eq_true] at e
    exact .cons (h a b e.1) (pairs_sound h l m e.2)
  | [], _ :: _, e => nomatch e
  | _ :: _, [], e => nomatch e

/-- All lists with `a` put in somewhere, and all orders. -/
def insertions {α : Type} (a : α) : List α → List (List α)
  | [] => [[a]]
  | b :: l => (a :: b :: l) :: (insertions a l).map (b :: ·)
def orders {α : Type} : List α → List (List α)
  | [] => [[]]
  | a :: l => (orders l).flatMap (insertions a)

theorem insertions_sound {α : Type} {a : α} : ∀ {l k : List α}, k ∈ insertions a l → (a :: l).Perm k
  | [], k, h => by
    rw [insertions, List.mem_singleton] at h
    rw [h]
  | b :: l, k, h => by
    rw [insertions, List.mem_cons] at h
    rcases h with rfl | h
    · exact .refl _
    · obtain ⟨k', h1, rfl⟩ := List.mem_map.mp h
      exact (List.Perm.swap b a l).trans ((insertions_sound h1).cons b)

theorem orders_sound {α : Type} : ∀ {l k : List α}, k ∈ orders l → l.Perm k
  | [], k, h => by
    rw [orders, List.mem_singleton] at h
    rw [h]
  | a :: l, k, h => by
    obtain ⟨k', h1, h2⟩ := List.mem_flatMap.mp h
    exact ((orders_sound h1).cons a).trans (insertions_sound h2)

def shuffled {α β : Type} (r : α → β → Bool) (l : List α) (m : List β) : Bool := (orders l).any fun k => pairs r k m

theorem shuffled_sound {α β : Type} {r : α → β → Bool} {R : α → β → Prop} (h : ∀ a b, r a b = true → R a b) (l : List α)
    (m : List β) (e : shuffled r l m = true) : Shuffled R l m := by
  obtain ⟨k, h1, h2⟩ := List.any_eq_true.mp e
  exact ⟨k, orders_sound h1, pairs_sound h k m h2⟩

def alikeField (f g : FieldDesc) : Bool :=
  sameField f g && decide (f.name = g.name ∧ f.proto3Optional = g.proto3Optional ∧ f.maxLength = g.maxLength)

theorem alikeField_sound (f g : FieldDesc) (h : alikeField f g = true) : AlikeField f g := by
  rw [alikeField, Bool.and_eq_true] at h
  obtain ⟨h1, h2, h3⟩ := of_decide_eq_true h.2
  exact ⟨sameField_sound f g h.1, h1, h2, h3⟩

theorem reordered_of {files files' : List (Str × List MsgDesc)}
    (hc : ∀ own, own ∈ allClasses files ↔ own ∈ allClasses files')
    (h : ∀ d ∈ allDefs files, ∀ e ∈ allDefs files', d.1 = e.1 →
      shuffled alikeField (loose d.2) (loose e.2) = true ∧ shuffled (shuffled alikeField) (groups d.2) (groups e.2) = true) :
    ReorderedFiles files files' where
  defined own := ⟨fun ⟨_, h⟩ => inst_defined ((hc own).mp h.mem), fun ⟨_, h⟩ => inst_defined ((hc own).mpr h.mem)⟩
  message own l m hl hm :=
    have ⟨h1, h2⟩ := h (own, l) (mem_allDefs.mpr hl) (own, m) (mem_allDefs.mpr hm) rfl
    ⟨shuffled_sound alikeField_sound _ _ h1, shuffled_sound (shuffled_sound alikeField_sound) _ _ h2⟩

/-- `message Part { int32 x = 1; string label = 2; }
message M { string a = 1; repeated Part part = 3; optional bool flag = 6; oneof pick { int32 b = 4; string s = 5; } }` -/
def oneM : MsgDesc := .mk "M".toList
  [field "a" 1 .string, field "part" 3 .message ".Part" true, optional 1 (field "flag" 6 (.scalar .boolean)),
    inOneof 0 (field "b" 4 (.scalar .int32)), inOneof 0 (field "s" 5 .string)]
  ["pick".toList, "_flag".toList] [] []
def one : List (Str × List MsgDesc) :=
  [([], [msg "Part" [field "x" 1 (.scalar .int32), field "label" 2 .string], oneM])]

/-- `message Part { string label = 2; int32 x = 1; }
message M { oneof pick { string s = 5; int32 b = 4; } optional bool flag = 6; repeated Part part = 3; string a = 1; }` -/
def otherM : MsgDesc := .mk "M".toList
  [inOneof 0 (field "s" 5 .string), inOneof 0 (field "b" 4 (.scalar .int32)), optional 1 (field "flag" 6 (.scalar .boolean)),
    field "part" 3 .message ".Part" true, field "a" 1 .string]
  ["pick".toList, "_flag".toList] [] []
def other : List (Str × List MsgDesc) :=
  [([], [msg "Part" [field "label" 2 .string, field "x" 1 (.scalar .int32)], otherM])]

theorem reordered : ReorderedFiles one other := reordered_of (fun own => by
  have e : allClasses one = allClasses other := by decide +kernel
  rw [e]) (by decide +kernel)

theorem oneOrdered : Ordered one := ordered_files (by decide +kernel) (by decide +kernel) (by decide +kernel)
theorem otherOrdered : Ordered other := ordered_files (by decide +kernel) (by decide +kernel) (by decide +kernel)

/-- The template parameters are in different orders: `M<20, 2, 8, 10>` and `M<2, 8, 20, 10>`. -/
theorem sameArguments : SameArguments (params one ".M".toList) (params other ".M".toList) [20, 2, 8, 10] [2, 8, 20, 10] := by
  have e1 : params one ".M".toList = ["M_a_LENGTH".toList, "M_part_REP_LENGTH".toList, "M_part_Part_label_LENGTH".toList,
    "M_s_LENGTH".toList] := by decide +kernel
  have e2 : params other ".M".toList = ["M_part_REP_LENGTH".toList, "M_part_Part_label_LENGTH".toList, "M_a_LENGTH".toList,
    "M_s_LENGTH".toList] := by decide +kernel
  intro s
  rw [e1, e2]
  by_cases h1 : s = "M_a_LENGTH".toList
  · subst h1; decide +kernel
  by_cases h2 : s = "M_part_REP_LENGTH".toList
  · subst h2; decide +kernel
  by_cases h3 : s = "M_part_Part_label_LENGTH".toList
  · subst h3; decide +kernel
  by_cases h4 : s = "M_s_LENGTH".toList
  · subst h4; decide +kernel
  rw [List.idxOf_eq_length (by simp only [List.mem_cons, List.not_mem_nil, or_false, not_or]; exact ⟨h1, h2, h3, h4⟩),
    List.idxOf_eq_length (by simp only [List.mem_cons, List.not_mem_nil, or_false, not_or]; exact ⟨h2, h3, h1, h4⟩)]
  rfl

theorem oneUsable : Usable one (params one) ".M".toList oneM [20, 2, 8, 10] :=
  usable_of oneOrdered (params_ok (by decide +kernel)) (by decide +kernel) (by decide +kernel)
    (unshadowed_of oneOrdered (by decide +kernel) (by decide +kernel)) (by decide +kernel) (by decide +kernel)
    (List.mem_of_getElem? (i := 1) rfl) (by decide +kernel) (by decide +kernel) (by simp [GoodLength]) (by decide +kernel)

theorem otherUsable : Usable other (params other) ".M".toList otherM [2, 8, 20, 10] :=
  usable_of otherOrdered (params_ok (by decide +kernel)) (by decide +kernel) (by decide +kernel)
    (unshadowed_of otherOrdered (by decide +kernel) (by decide +kernel)) (by decide +kernel) (by decide +kernel)
    (List.mem_of_getElem? (i := 1) rfl) (by decide +kernel) (by decide +kernel) (by simp [GoodLength]) (by decide +kernel)

/-- The conditions of `C93_generated_partial` are met. -/
example : ∃ E K E' K', ∃ O : (ElemTy.msg (Class.fs K) (Class.os K)).Moved (.msg (Class.fs K') (Class.os K')),
    IsClass one (params one) ".M".toList oneM [20, 2, 8, 10] E K ∧
    IsClass other (params other) ".M".toList otherM [2, 8, 20, 10] E' K' ∧
    Delivers K' K (Made K oneM.fields oneM.oneofs) O.val ∧ SameReceived K K' O.val := by
  obtain ⟨E, K, hK⟩ := oneUsable.isClass
  obtain ⟨E', K', hK'⟩ := otherUsable.isClass
  obtain ⟨O, _, h1, _, h2, _⟩ := C93_generated_partial reordered oneUsable otherUsable sameArguments hK hK'
  exact ⟨E, K, E', K', O, hK, hK', h1, h2⟩

/-- The types of the two classes. -/
example : instantiate one (params one) 2 ".M".toList [20, 2, 8, 10] =
      some (.msg (.plain 1 (.str 20) (.repeated 3 2 (.msg (.plain 1 (.scalar .int32) (.plain 2 (.str 8) .nil)) .nil)
          (.optional 6 (.scalar .boolean) .nil)))
        (.cons (.cons 4 (.scalar .int32) (.cons 5 (.str 10) .nil)) .nil)) ∧
    instantiate other (params other) 2 ".M".toList [2, 8, 20, 10] =
      some (.msg (.optional 6 (.scalar .boolean) (.repeated 3 2 (.msg (.plain 2 (.str 8) (.plain 1 (.scalar .int32) .nil)) .nil)
          (.plain 1 (.str 20) .nil)))
        (.cons (.cons 5 (.str 10) (.cons 4 (.scalar .int32) .nil)) .nil)) := by
  decide +kernel

/-- Another number of a field is not another order. -/
example : ¬ AlikeField (field "a" 1 .string) (field "a" 2 .string) := fun h => absurd h.number (by decide)

end C93Example
end EP
