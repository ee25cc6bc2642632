import Verif.Props.Encode
import Verif.Proof.Clean

/-!
# Properties of deserialization: C17–C19, C21, C22, C40, C45

`T` is any well formed declaration `message { fs os }`.  Buffers are any read buffers that keep the
promises of the interface (`ReadModel`; instances are `ReadBufferFixedSize` and `ReadBufferSection`).
-/

namespace EP
open Spec

section
variable {ω : Type} [WriteBuffer ω] (W : WriteModel ω) {β : Type} [ReadBuffer β] (M : ReadModel β)
  (fs : Fields) (os : Oneofs)
local notation "T" => ElemTy.msg fs os

/-- A new object, or one on which `clear()` was called. -/
def NewOrCleared (y : (T).Obj) : Prop :=
  y = (T).cls.init ∨ ∃ z, (T).Reach z ∧ (T).cls.clear z = .ok y

theorem NewOrCleared.eq_init {y : (T).Obj} (h : (T).WF) (hy : NewOrCleared fs os y) :
    y = (T).cls.init := by
  rcases hy with rfl | ⟨z, hz, he⟩
  · rfl
  · rw [(ElemTy.base T h).clear z (ElemTy.reach_inv T h hz)] at he
    cases he; rfl

/-! ## C18, C19: decoding well formed records -/

/-- **C19**, full statement: well formed records in any order, any number of times, mixed with unknown
fields, are all applied. -/
def C19_Statement : Prop :=
  ∀ (β : Type) [ReadBuffer β] (M : ReadModel β) (x : (T).Obj) (v : (T).Val) (b : β) (fuel : Nat),
    (T).WF → (T).Reach x → M.Inv b → Records fs os (M.view b) ((T).abs x) v →
    (M.view b).length < fuel →
    ∃ b' y, (T).cls.deserialize fuel b x = .ok (.noErrors, b', y) ∧ M.view b' = [] ∧ (T).abs y = v

/-- **C19** for objects of types without repeated messages, and for objects that never had an array of
messages shortened other than by `clear()`. -/
theorem C19_records_partial (x : (T).Obj) (v : (T).Val) (b : β) (fuel : Nat) (h : (T).WF)
    (hx : (T).Tidy x) (hb : M.Inv b) (hr : Records fs os (M.view b) ((T).abs x) v)
    (hf : (M.view b).length < fuel) :
    ∃ b' y, (T).cls.deserialize fuel b x = .ok (.noErrors, b', y) ∧ M.view b' = [] ∧
      (T).abs y = v := by
  obtain ⟨hi, hc⟩ := hx.inv_clean h
  obtain ⟨⟨e, b', y⟩, h1, h2, _, h4, _, _, h7⟩ :=
    (decode_records fs os h M fuel b x hr hi hc hb rfl hf).exists
  dsimp only at h2 h4 h7
  subst h2
  exact ⟨b', y, h1, h4, h7⟩

/-- **C18**, full statement: decoding an encoding of `v` merges `v` into the object. -/
def C18_Statement : Prop :=
  ∀ (β : Type) [ReadBuffer β] (M : ReadModel β) (x : (T).Obj) (v : (T).Val) (b : β) (fuel : Nat),
    (T).WF → (T).Reach x → M.Inv b → M.view b = (T).encode v →
    (T).Fits ((T).merge ((T).abs x) v) → ((T).encode v).length < fuel →
    ∃ b' y, (T).cls.deserialize fuel b x = .ok (.noErrors, b', y) ∧ M.view b' = [] ∧
      (T).abs y = (T).merge ((T).abs x) v

/-- **C18** for objects of types without repeated messages, and for objects that never had an array of
messages shortened other than by `clear()`. -/
theorem C18_merge_partial (x : (T).Obj) (v : (T).Val) (b : β) (fuel : Nat) (h : (T).WF)
    (hx : (T).Tidy x) (hb : M.Inv b) (hv : M.view b = (T).encode v)
    (hfit : (T).Fits ((T).merge ((T).abs x) v)) (hf : ((T).encode v).length < fuel) :
    ∃ b' y, (T).cls.deserialize fuel b x = .ok (.noErrors, b', y) ∧ M.view b' = [] ∧
      (T).abs y = (T).merge ((T).abs x) v := by
  have hl := M.view_lt b hb
  rw [hv] at hl
  refine C19_records_partial M fs os x _ b fuel h hx hb ?_ (by rw [hv]; exact hf)
  rw [hv]
  exact records_encode readable_enc fs os h _ v hfit hl

/-! ## C17 -/

/-- **C17**, full statement. -/
def C17_Statement : Prop :=
  ∀ (ω : Type) [WriteBuffer ω] (W : WriteModel ω) (x y : (T).Obj) (w w' : ω) (c : List Byte) (room : Nat),
    (T).WF → (T).Reach x → NewOrCleared fs os y → W.Rep w c room →
    ((T).encode ((T).canon ((T).abs x))).length < 2 ^ 32 →
    (T).cls.serialize x w = .ok (.noErrors, w') →
    ∃ bs room', W.Rep w' (c ++ bs) room' ∧
      ∀ (β : Type) [ReadBuffer β] (M : ReadModel β) (b : β) (fuel : Nat), M.Inv b → M.view b = bs →
        bs.length < fuel → ∃ b' z, (T).cls.deserialize fuel b y = .ok (.noErrors, b', z) ∧
          M.view b' = [] ∧ (T).abs z = (T).abs x

/-- **C17**: the round trip gives the value back, except that `-0.0` in a field without presence
becomes `0.0`. -/
theorem C17_round_trip_partial (x y : (T).Obj) (w w' : ω) (c : List Byte) (room : Nat)
    (h : (T).WF) (hx : (T).Reach x) (hy : NewOrCleared fs os y) (hw : W.Rep w c room)
    (hl : ((T).encode ((T).canon ((T).abs x))).length < 2 ^ 32)
    (hs : (T).cls.serialize x w = .ok (.noErrors, w')) :
    ∃ bs room', W.Rep w' (c ++ bs) room' ∧
      ∀ (β : Type) [ReadBuffer β] (M : ReadModel β) (b : β) (fuel : Nat), M.Inv b → M.view b = bs →
        bs.length < fuel → ∃ b' z, (T).cls.deserialize fuel b y = .ok (.noErrors, b', z) ∧
          M.view b' = [] ∧ (T).abs z = (T).canon ((T).abs x) := by
  have ha := C13_serialize_partial W fs os x w c room h hx hw hl
  rw [hs] at ha
  rcases ha with ⟨_, ha⟩ | ⟨ha, _⟩
  · refine ⟨_, _, ha, fun β _ M b fuel hb hv hf => ?_⟩
    rw [hy.eq_init fs os h]
    have hfit := ElemTy.fits_canon T _ (ElemTy.fits_abs T x (ElemTy.reach_inv T h hx))
    have hinit : (T).abs (T).cls.init = (T).dflt := (ElemTy.base T h).init_abs
    have hm : (T).merge ((T).abs (T).cls.init) ((T).canon ((T).abs x)) = (T).canon ((T).abs x) := by
      have := ElemTy.merge_dflt T ((T).canon ((T).abs x))
      exact hinit ▸ this
    obtain ⟨b', z, h1, h2, h3⟩ := C18_merge_partial M fs os (T).cls.init _ b fuel h (Or.inr .init) hb hv
      (hm.symm ▸ hfit) hf
    exact ⟨b', z, h1, h2, h3.trans hm⟩
  · exact nomatch ha

/-- **C17** for values without `-0.0` in fields without presence: the same value comes back. -/
theorem C17_exact_partial (x y : (T).Obj) (w w' : ω) (c : List Byte) (room : Nat)
    (h : (T).WF) (hx : (T).Reach x) (hy : NewOrCleared fs os y) (hw : W.Rep w c room)
    (hz : (T).canon ((T).abs x) = (T).abs x)
    (hl : ((T).encode ((T).abs x)).length < 2 ^ 32)
    (hs : (T).cls.serialize x w = .ok (.noErrors, w')) :
    ∃ bs room', W.Rep w' (c ++ bs) room' ∧
      ∀ (β : Type) [ReadBuffer β] (M : ReadModel β) (b : β) (fuel : Nat), M.Inv b → M.view b = bs →
        bs.length < fuel → ∃ b' z, (T).cls.deserialize fuel b y = .ok (.noErrors, b', z) ∧
          M.view b' = [] ∧ (T).abs z = (T).abs x := by
  have := C17_round_trip_partial W fs os x y w w' c room h hx hy hw (by rw [hz]; exact hl) hs
  rw [hz] at this
  exact this

/-! ## C21 -/

/-- **C21**, full statement: decoding ends, after at most one iteration of each loop per byte
(and one more to see the end). -/
def C21_Statement : Prop :=
  ∀ (x : (T).Obj) (cap : Nat) (bs : List Byte), (T).WF → (T).Reach x → bs.length ≤ cap → cap < 2 ^ 31 →
    ∀ fuel, bs.length < fuel → (T).cls.deserialize fuel (ReadFixed.holding cap bs) x ≠ .diverge

/-- **C21** when no varint in the input, taken as a length, wraps the read index. -/
theorem C21_terminates_partial (x : (T).Obj) (cap : Nat) (bs : List Byte) (h : (T).WF)
    (hx : (T).Reach x) (hbs : bs.length ≤ cap) (hcap : cap < 2 ^ 31)
    (hlen : ∀ p n, p <:+: bs → Varint 32 p n → cap + n < 2 ^ 32) (fuel : Nat)
    (hf : bs.length < fuel) :
    (T).cls.deserialize fuel (ReadFixed.holding cap bs) x ≠ .diverge := by
  have hs := ElemTy.msg_safe fs os h (ReadFixed.model cap (by omega)) fuel (ReadFixed.holding cap bs) x
    (ReadFixed.holding_inv _ _ _ hbs) (ElemTy.reach_inv T h hx)
  rw [ReadFixed.holding_view] at hs
  intro hd
  rw [hd] at hs
  exact hs ⟨⟨hcap, hlen⟩, hf⟩

/-- The same for any contract honouring buffer. -/
theorem C21_terminates_any_partial (x : (T).Obj) (b : β) (h : (T).WF)
    (hx : (T).Reach x) (hb : M.Inv b) (hM : M.strict)
    (hlen : ∀ p n, p <:+: M.view b → Varint 32 p n → M.fwd n) (fuel : Nat)
    (hf : (M.view b).length < fuel) :
    (T).cls.deserialize fuel b x ≠ .diverge := by
  have hs := ElemTy.msg_safe fs os h M fuel b x hb (ElemTy.reach_inv T h hx)
  intro hd
  rw [hd] at hs
  exact hs ⟨⟨hM, hlen⟩, hf⟩

/-! ## C22 -/

/-- **C22**.  If the buffer holds a length prefix `p` for `body`, then `body`, then `rest`, and decoding
the nested message field reports no error, then the buffer is left exactly before `rest` — whatever
the bytes of `body` are. -/
theorem C22_nested_exact (x y : (T).Obj) (b b' : β) (p body rest : List Byte) (fuel : Nat)
    (h : (T).WF) (hx : (T).Reach x) (hb : M.Inv b) (hp : Varint 32 p body.length)
    (hv : M.view b = p ++ (body ++ rest))
    (hd : (T).cls.deserializeCheckType fuel b .lengthDelimited x = .ok (.noErrors, b', y)) :
    M.Inv b' ∧ M.view b' = rest := by
  have hlt := M.view_lt b hb
  rw [hv] at hlt
  simp only [List.length_append] at hlt
  obtain ⟨⟨r, b₁⟩, h1, h2, h3, h4⟩ := (varint_dec M 32 p (body ++ rest) _ hp b hb hv).exists
  dsimp only at h2 h3 h4
  subst h2
  have hd : MsgObj.deserializeCheckType (fs.cls 0) os.cls fuel b .lengthDelimited x =
    .ok (.noErrors, b', y) := hd
  unfold MsgObj.deserializeCheckType at hd
  rw [if_pos rfl, h1, Res.ok_bind] at hd
  dsimp only at hd
  rw [ofNat32_toNat (by omega)] at hd
  obtain ⟨hs1, hs2⟩ := Section.new_frame M b₁ body rest h3 h4
  have hs := ElemTy.msg_safe fs os h (Section.frame M rest) fuel _ x hs1 (ElemTy.reach_inv T h hx)
  have e : (T).cls.deserialize fuel (Section.new b₁ body.length) x =
    MsgObj.deserialize (fs.cls 0) os.cls fuel (Section.new b₁ body.length) x := rfl
  rw [e] at hs
  cases hr : MsgObj.deserialize (fs.cls 0) os.cls fuel (Section.new b₁ body.length) x with
  | ok r =>
    rw [hr, Res.ok_bind] at hd
    rw [hr] at hs
    obtain ⟨e', s, z⟩ := r
    obtain ⟨q1, _, _, _, q5⟩ := hs
    dsimp only at q1 q5 hd
    cases hd
    exact Section.frame_end M rest s q1 (q5 rfl)
  | ub => rw [hr] at hd; exact nomatch hd
  | diverge => rw [hr] at hd; exact nomatch hd

end

/-! ## Counter-examples -/

/-- `message { repeated Inner a = 1 [maxLength = 2]; }`, `message Inner { int32 a = 1; }` -/
abbrev repMsg : ElemTy := .msg (.repeated 1 2 (oneScalar 1 .int32) .nil) .nil

theorem repMsg_wf : repMsg.WF := by
  simp [ElemTy.WF, Fields.WF, Oneofs.WF, Fields.numbers, Oneofs.numbers]

/-- `x = y` reaches the object. -/
theorem ElemTy.reach_assign (fs : Fields) (os : Oneofs) {x y z : (ElemTy.msg fs os).Obj}
    (hx : (ElemTy.msg fs os).Reach x) (hy : (ElemTy.msg fs os).Reach y)
    (h : (ElemTy.msg fs os).cls.assign x y = .ok z) : (ElemTy.msg fs os).Reach z :=
  ReachGen.step (R := fun z => z = y) (f := fun x => (ElemTy.msg fs os).cls.assign x y)
    (fun _ h => h ▸ hy) (Or.inl (Or.inr (Or.inl ⟨y, rfl, rfl⟩))) hx h

/-- An element `{a = value}`. -/
def repElem (a : BitVec 32) : (oneScalar 1 .int32).Obj := ⟨[], (a, ()), ()⟩

/-- An object that held `[{a = 5}]` and was then assigned a new (empty) object: its length is 0, the
unused element still holds 5. -/
def staleRep : repMsg.Obj := ⟨[], (⟨0, [repElem 5, repElem 0]⟩, ()), ()⟩

/-- The object decoded from `0A 02 08 05`. -/
def fiveRep : repMsg.Obj := ⟨[], (⟨1, [repElem 5, repElem 0]⟩, ()), ()⟩

set_option maxRecDepth 4000 in
theorem fiveRep_decode : repMsg.cls.deserialize 9 (ReadFixed.holding 8 [0x0A, 0x02, 0x08, 0x05])
    repMsg.cls.init = .ok (.noErrors, ⟨8, [0x0A, 0x02, 0x08, 0x05, 0, 0, 0, 0], 4, 4⟩, fiveRep) := rfl

theorem fiveRep_reach : repMsg.Reach fiveRep :=
  repMsg.reach_decoded (Source.holding 8 (by omega) [0x0A, 0x02, 0x08, 0x05] (by decide)) 9
    .init fiveRep_decode

theorem staleRep_reach : repMsg.Reach staleRep :=
  ElemTy.reach_assign _ _ fiveRep_reach .init rfl

/-- The value `[{a = 0}]`; its encoding is `0A 00`. -/
def oneEmpty : repMsg.Val := (([((0#32, ()), ())], ()), ())

theorem staleRep_decode : repMsg.cls.deserialize 9 (ReadFixed.holding 8 [0x0A, 0x00]) staleRep =
    .ok (.noErrors, ⟨8, [0x0A, 0x00, 0, 0, 0, 0, 0, 0], 2, 2⟩,
      ⟨[], (⟨1, [repElem 5, repElem 0]⟩, ()), ()⟩) := rfl

theorem staleRep_fits : repMsg.Fits (repMsg.merge (repMsg.abs staleRep) oneEmpty) := by
  show repMsg.Fits oneEmpty
  simp [oneEmpty, ElemTy.Fits, Fields.Fits, Oneofs.Fits]
  decide

theorem staleRep_ne : ¬ repMsg.abs (⟨[], (⟨1, [repElem 5, repElem 0]⟩, ()), ()⟩ : repMsg.Obj) =
    repMsg.merge (repMsg.abs staleRep) oneEmpty := by
  intro h
  have : (([((5#32, ()), ())], ()), ()) = (([((0#32, ()), ())], ()), ()) := h
  exact absurd this (by decide)

/-- **C18** is false: decoding `[{}]` into that object gives `[{a = 5}]`. -/
theorem C18_false : ¬ ∀ fs os, C18_Statement fs os := by
  intro h
  obtain ⟨b', y, h1, _, h3⟩ := h _ _ ReadFixed (ReadFixed.model 8 (by omega)) staleRep oneEmpty
    (ReadFixed.holding 8 [0x0A, 0x00]) 9 repMsg_wf staleRep_reach
    (ReadFixed.holding_inv _ _ _ (by decide)) (by decide +kernel)
    staleRep_fits
    (by decide +kernel)
  rw [staleRep_decode] at h1
  cases h1
  exact staleRep_ne h3

/-- **C19** is false for the same reason. -/
theorem C19_false : ¬ ∀ fs os, C19_Statement fs os := by
  intro h
  have hr := records_encode readable_enc _ _ repMsg_wf (repMsg.abs staleRep) oneEmpty
    staleRep_fits
    (by decide +kernel)
  have hr' : Records (.repeated 1 2 (oneScalar 1 .int32) .nil) .nil
      ((ReadFixed.model 8 (by omega)).view (ReadFixed.holding 8 [0x0A, 0x00])) (repMsg.abs staleRep)
      (repMsg.merge (repMsg.abs staleRep) oneEmpty) := by
    have e : repMsg.encodeWith ScalarTy.enc oneEmpty = [0x0A, 0x00] := by decide +kernel
    rw [ReadFixed.holding_view, ← e]
    exact hr
  obtain ⟨b', y, h1, _, h3⟩ := h _ _ ReadFixed (ReadFixed.model 8 (by omega)) staleRep
    (repMsg.merge (repMsg.abs staleRep) oneEmpty)
    (ReadFixed.holding 8 [0x0A, 0x00]) 9 repMsg_wf staleRep_reach
    (ReadFixed.holding_inv _ _ _ (by decide)) hr' (by decide +kernel)
  rw [staleRep_decode] at h1
  cases h1
  exact staleRep_ne h3

/-- **C17** is false: `-0.0` comes back as `0.0`. -/
theorem C17_false : ¬ ∀ fs os, C17_Statement fs os := by
  intro h
  obtain ⟨bs, room, h1, h2⟩ := h _ _ WriteFixed WriteFixed.model negZeroFloat
    (oneScalar 1 .floatfixed).cls.init (WriteFixed.new 8) (WriteFixed.new 8) [] 8
    (oneScalar_wf .floatfixed) (oneScalar_reach .floatfixed 0x80000000) (Or.inl rfl)
    (WriteFixed.new_rep 8 (by omega)) (by decide +kernel) rfl
  have hbs : bs = [] := h1.2.2.2.1.symm
  subst hbs
  obtain ⟨b', z, h3, _, h5⟩ := h2 ReadFixed (ReadFixed.model 8 (by omega)) (ReadFixed.holding 8 []) 9
    (ReadFixed.holding_inv _ _ _ (by decide)) rfl (by decide)
  have : (oneScalar 1 .floatfixed).cls.deserialize 9 (ReadFixed.holding 8 [])
    (oneScalar 1 .floatfixed).cls.init = .ok (.noErrors, ReadFixed.holding 8 [],
      (oneScalar 1 .floatfixed).cls.init) := rfl
  rw [this] at h3
  cases h3
  have : (((0x00000000 : BitVec 32), ()), ()) = (((0x80000000 : BitVec 32), ()), ()) := h5
  exact absurd this (by decide)

/-- An unknown field whose length wraps the read index back to the start of the input. -/
def wrapBytes : List Byte := [0x12, 0xFA, 0xFF, 0xFF, 0xFF, 0x0F]

theorem wrap_diverges (k fuel : Nat) (x : (oneScalar 1 .int32).Obj) :
    tagLoop (MsgObj.step ((Fields.plain 1 (.scalar .int32) .nil).cls 0) Oneofs.nil.cls fuel) k
      (ReadFixed.holding 8 wrapBytes) x = .diverge := by
  induction k with
  | zero => rfl
  | succ k ih => exact ih

/-- **C21** is false: decoding the six bytes `12 FA FF FF FF 0F` never ends, whatever the fuel. -/
theorem C21_false : ¬ ∀ fs os, C21_Statement fs os := by
  intro h
  exact h _ _ (oneScalar 1 .int32).cls.init 8 wrapBytes (oneScalar_wf .int32) .init (by decide)
    (by omega) 7 (by decide) (wrap_diverges 7 7 _)

/-- … for every amount of fuel. -/
theorem C21_diverges_false (fuel : Nat) :
    (oneScalar 1 .int32).cls.deserialize fuel (ReadFixed.holding 8 wrapBytes)
      (oneScalar 1 .int32).cls.init = .diverge := wrap_diverges fuel fuel _

/-! ## Examples -/

/-- The premises of C17 and C18 hold of the sample declaration and value. -/
example : Sample.outer.Tidy Sample.outer.cls.init ∧
    Sample.outer.Fits (Sample.outer.merge (Sample.outer.abs Sample.outer.cls.init) Sample.value) ∧
    (Sample.outer.encode Sample.value).length < 2 ^ 32 := by
  refine ⟨Or.inr .init, ?_, by decide +kernel⟩
  have : Sample.outer.merge (Sample.outer.abs Sample.outer.cls.init) Sample.value = Sample.value :=
    ElemTy.merge_dflt Sample.outer Sample.value
  rw [this]
  obtain ⟨x, h1, h2⟩ := Sample.reachable
  rw [← h2]
  exact ElemTy.fits_abs _ _ (ElemTy.reach_inv _ Sample.outer_wf h1)

/-- Records in the sense of C19: an unknown field 2, then field 1 twice, the first time with a
varint that is longer than needed. -/
example : Records (.plain 1 (.scalar .int32) .nil) .nil
    ([0x10, 0x07] ++ ([0x08, 0x85, 0x00] ++ ([0x08, 0x06] ++ [])))
    (((9#32, ()), ()) : (BitVec 32 × Unit) × Unit) (((6#32, ()), ()) : (BitVec 32 × Unit) × Unit) := by
  refine .cons (v := ((9#32, ()), ())) ⟨2, .varint, [0x10], [0x07], by decide, rfl, ?_⟩
    (.cons (v := ((5#32, ()), ())) ⟨1, .varint, [0x08], [0x85, 0x00], by decide, rfl, ?_⟩
    (.cons (v := ((6#32, ()), ())) ⟨1, .varint, [0x08], [0x06], by decide, rfl, ?_⟩ (.nil _)))
  · refine Or.inr (Or.inr ⟨by omega, by decide, ?_, rfl⟩)
    show IsVarint 10 _
    decide
  · exact Or.inl ⟨Or.inl ⟨rfl, rfl, ⟨5, ⟨by decide, by decide⟩, rfl⟩, rfl⟩, rfl⟩
  · exact Or.inl ⟨Or.inl ⟨rfl, rfl, ⟨6, ⟨by decide, by decide⟩, rfl⟩, rfl⟩, rfl⟩

/-- The premise of C21_terminates_partial holds of every input of at most 3 bytes. -/
example (bs p : List Byte) (n : Nat) (h : bs.length ≤ 3) (hp : p <:+: bs) (hn : Varint 32 p n) :
    1000 + n < 2 ^ 32 := by
  have h1 := groups_lt p
  have h2 : 128 ^ p.length ≤ 128 ^ 3 := Nat.pow_le_pow_right (by omega) (Nat.le_trans hp.length_le h)
  have h3 := hn.2
  omega

/-- C22 on a nested message with an unknown field whose length exceeds the nested message. -/
example : (oneScalar 1 .int32).cls.deserializeCheckType 9
    (ReadFixed.holding 8 [0x04, 0x08, 0x05, 0x12, 0x7F, 0x08, 0x01]) .lengthDelimited
    (oneScalar 1 .int32).cls.init =
    .ok (.noErrors, ⟨8, [0x04, 0x08, 0x05, 0x12, 0x7F, 0x08, 0x01, 0], 7, 5⟩, repElem 5) := rfl

end EP
