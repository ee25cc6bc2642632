import Verif.Props.Support
import Verif.Proof.Bytewise
import Verif.Proof.SpecMerge
import Verif.Proof.DecMessage
import Verif.Proof.Fits
import Verif.Proof.WireExtra

/-!
# Properties of serialization: C13–C16, C33–C35

The theorems are about every well formed declaration `message { fs os }` (written `T`), every object
`x` of the generated class that a program can reach, and every write buffer that keeps the promises
of the interface (`WriteModel`; instances are `WriteBufferFixedSize` and the size calculator).
-/

namespace EP
open Spec

variable {ω : Type}

/-- A message with one scalar field without presence. -/
abbrev oneScalar (num : Nat) (s : ScalarTy) : ElemTy := .msg (.plain num (.scalar s) .nil) .nil

section
variable [WriteBuffer ω] (M : WriteModel ω) (fs : Fields) (os : Oneofs)
local notation "T" => ElemTy.msg fs os

/-! ## C13 -/

/-- **C13**, full statement: `serialize()` appends the bytes a standard protobuf encoder produces for
the observable value (or reports that the buffer is full). -/
def C13_Statement : Prop :=
  ∀ (ω : Type) [WriteBuffer ω] (M : WriteModel ω) (x : (T).Obj) (w : ω) (c : List Byte)
    (room : Nat), (T).WF → (T).Reach x → M.Rep w c room →
    ((T).encodeStandard ((T).abs x)).length < 2 ^ 32 →
    Appends M c room ((T).encodeStandard ((T).abs x)) ((T).cls.serialize x w)

/-- **C13**, what holds of every reachable object: the appended bytes are the protobuf records of the
fields in declaration order followed by those of the oneofs, where a `-0.0` in a field without
presence counts as default, and a negative `int32` or enum takes 5 instead of 10 bytes. -/
theorem C13_serialize_partial (x : (T).Obj) (w : ω) (c : List Byte) (room : Nat)
    (h : (T).WF) (hx : (T).Reach x) (hw : M.Rep w c room)
    (hl : ((T).encode ((T).canon ((T).abs x))).length < 2 ^ 32) :
    Appends M c room ((T).encode ((T).canon ((T).abs x))) ((T).cls.serialize x w) := by
  have hx := ElemTy.reach_inv _ h hx
  simp only [ElemTy.WF] at h
  have hd := List.nodup_append.mp h.2.2.1
  exact msg_serialize
    (Fields.enc_law fs 0 fs.nOptional h.1
      (fun k hk => (h.2.2.2 k (List.mem_append_left _ hk)).2) (by omega))
    (Oneofs.enc_law os h.2.1 hd.2.1 (fun k hk => h.2.2.2 k (List.mem_append_right _ hk)))
    M x w c room hx hl hw |>.weaken

/-- **C13** for the values on which encoders agree: no negative `int32` or enum and no `-0.0` in a
field without presence. -/
theorem C13_standard_partial (x : (T).Obj) (w : ω) (c : List Byte) (room : Nat)
    (h : (T).WF) (hx : (T).Reach x) (hw : M.Rep w c room) (hn : (T).NonNeg ((T).abs x))
    (hz : (T).canon ((T).abs x) = (T).abs x)
    (hl : ((T).encodeStandard ((T).abs x)).length < 2 ^ 32) :
    Appends M c room ((T).encodeStandard ((T).abs x)) ((T).cls.serialize x w) := by
  have hs := ElemTy.encodeStandard_eq T _ hn
  have := C13_serialize_partial M fs os x w c room h hx hw
  unfold ElemTy.encodeStandard at hl ⊢
  rw [hz] at this
  rw [hs] at hl ⊢
  exact this hl

/-- **C13**, interoperability: whatever the value, the bytes are a well formed sequence of protobuf
records, and reading them according to the protobuf specification into a default value gives the
observable value (up to `-0.0` in fields without presence). -/
theorem C13_readable_partial (x : (T).Obj) (h : (T).WF) (hx : (T).Reach x)
    (hl : ((T).encode ((T).canon ((T).abs x))).length < 2 ^ 32) :
    Records fs os ((T).encode ((T).canon ((T).abs x))) (T).dflt ((T).canon ((T).abs x)) := by
  have := records_encode readable_enc fs os h (T).dflt ((T).canon ((T).abs x))
  rw [ElemTy.merge_dflt] at this
  exact this (ElemTy.fits_canon T _ (ElemTy.fits_abs T x (ElemTy.reach_inv T h hx))) hl

/-! ## C14 -/

/-- **C14**.  `serialized_size()` is the number of bytes a successful `serialize()` appends. -/
theorem C14_serialized_size (x : (T).Obj) (w w' : ω) (c : List Byte) (room : Nat)
    (h : (T).WF) (hx : (T).Reach x) (hw : M.Rep w c room)
    (hl : ((T).encode ((T).canon ((T).abs x))).length < 2 ^ 32)
    (hs : (T).cls.serialize x w = .ok (.noErrors, w')) :
    ∃ bs room', (T).cls.serializedSize x = .ok bs.length ∧ M.Rep w' (c ++ bs) room' := by
  refine ⟨(T).encode ((T).canon ((T).abs x)), room - ((T).encode ((T).canon ((T).abs x))).length,
    ?_, ?_⟩
  · exact (ElemTy.enc_law T h).ser.size x (ElemTy.reach_inv T h hx) hl
  · have := C13_serialize_partial M fs os x w c room h hx hw hl
    rw [hs] at this
    rcases this with ⟨_, h⟩ | ⟨h, _⟩
    · exact h
    · exact nomatch h

/-- The size is that of the encoding, also when nothing is ever written. -/
theorem C14_size_of_encoding (x : (T).Obj) (h : (T).WF) (hx : (T).Reach x)
    (hl : ((T).encode ((T).canon ((T).abs x))).length < 2 ^ 32) :
    (T).cls.serializedSize x = .ok ((T).encode ((T).canon ((T).abs x))).length :=
  (ElemTy.enc_law T h).ser.size x (ElemTy.reach_inv T h hx) hl

/-! ## C15 -/

/-- **C15**.  `serialize()` returns `NO_ERRORS` or `BUFFER_FULL` only.  It succeeds if there is more
room than `serialized_size()`.  When it fails, what was appended to the earlier contents is a proper
prefix of the full encoding.  (The premise on `slack` says that a bulk push of `n` bytes may insist on
room for at most `n + 1`, as that of `WriteBufferFixedSize` does.) -/
theorem C15_buffer_full (x : (T).Obj) (w : ω) (c : List Byte) (room : Nat)
    (h : (T).WF) (hx : (T).Reach x) (hw : M.Rep w c room) (hM : M.slack ≤ 1)
    (hl : ((T).encode ((T).canon ((T).abs x))).length < 2 ^ 32) :
    ∃ e w' n, (T).cls.serialize x w = .ok (e, w') ∧ (T).cls.serializedSize x = .ok n ∧
      (e = .noErrors ∨ e = .bufferFull) ∧
      (n < room → e = .noErrors) ∧
      (e = .bufferFull → ∃ pre room', M.Rep w' (c ++ pre) room' ∧ pre.length < n ∧
        pre <+: (T).encode ((T).canon ((T).abs x))) := by
  have hs := C14_size_of_encoding fs os x h hx hl
  obtain ⟨⟨e, w'⟩, h1, h2⟩ := (C13_serialize_partial M fs os x w c room h hx hw hl).exists
  refine ⟨e, w', _, h1, hs, ?_⟩
  rcases h2 with ⟨he, hr⟩ | ⟨he, hlt, k, room', hk, hr⟩
  · dsimp only at he
    subst he
    exact ⟨Or.inl rfl, fun _ => rfl, fun h => nomatch h⟩
  · dsimp only at he
    subst he
    refine ⟨Or.inr rfl, fun hlt' => absurd hlt' (by omega), fun _ => ⟨_, room', hr, ?_, ?_⟩⟩
    · rw [List.length_take]; omega
    · exact List.take_prefix _ _

/-! ## C16 -/

/-- **C16**, full statement: a message that exactly fits into a `WriteBufferFixedSize` is
serialized. -/
def C16_Statement : Prop :=
  ∀ (x : (T).Obj) (w : WriteFixed) (c : List Byte) (room n : Nat),
    (T).WF → (T).Reach x → WriteFixed.model.Rep w c room → (T).cls.serializedSize x = .ok n →
    ((T).encode ((T).canon ((T).abs x))).length < 2 ^ 32 →
    n ≤ WriteBuffer.getAvailableSize w → ∃ w', (T).cls.serialize x w = .ok (.noErrors, w')

/-- **C16** holds for message types without `string` and `bytes` fields. -/
theorem C16_exact_fit_partial (x : (T).Obj) (w : WriteFixed) (c : List Byte) (room n : Nat)
    (h : (T).WF) (hstr : (T).hasStr = false) (hx : (T).Reach x) (hw : WriteFixed.model.Rep w c room)
    (hl : ((T).encode ((T).canon ((T).abs x))).length < 2 ^ 32)
    (hs : (T).cls.serializedSize x = .ok n) (hfit : n ≤ WriteBuffer.getAvailableSize w) :
    ∃ w', (T).cls.serialize x w = .ok (.noErrors, w') ∧
      w'.bytes = c ++ (T).encode ((T).canon ((T).abs x)) := by
  have hd := ElemTy.det_law T h
  rw [hstr] at hd
  have hn := C14_size_of_encoding fs os x h hx hl
  rw [hs] at hn
  cases hn
  have hi := ElemTy.reach_inv T h hx
  obtain ⟨⟨e, w'⟩, h1, h2⟩ := ((ElemTy.enc_law T h).ser.exact hd WriteFixed.model x w c room hi hl hw).exists
  obtain ⟨r1, r2, r3, r4, r5⟩ := hw
  have hav : WriteBuffer.getAvailableSize w = w.cap - w.write := u32sub_of_le r2 (by omega)
  rw [hav] at hfit
  rcases h2 with ⟨he, hr⟩ | ⟨_, hlt⟩
  · dsimp only at he
    subst he
    exact ⟨w', h1, hr.2.2.2.1⟩
  · exact absurd (Nat.lt_of_lt_of_le hlt (Nat.le_trans hfit (Nat.le_of_eq r5.symm))) (Nat.lt_irrefl _)

/-- **C16**, exactly: serialization into a `WriteBufferFixedSize` succeeds if and only if
`serialized_size()` is at most the available size, and smaller if the encoding ends in the contents
of a non-empty string; it reports `BUFFER_FULL` otherwise. -/
theorem C16_exactly (x : (T).Obj) (w : WriteFixed) (c : List Byte) (room n : Nat)
    (h : (T).WF) (hx : (T).Reach x) (hw : WriteFixed.model.Rep w c room)
    (hl : ((T).encode ((T).canon ((T).abs x))).length < 2 ^ 32)
    (hs : (T).cls.serializedSize x = .ok n) :
    ∃ e w', (T).cls.serialize x w = .ok (e, w') ∧ (e = .noErrors ∨ e = .bufferFull) ∧
      (e = .noErrors ↔
        if (T).endsInText ((T).canon ((T).abs x)) then n < WriteBuffer.getAvailableSize w
        else n ≤ WriteBuffer.getAvailableSize w) := by
  have hn := C14_size_of_encoding fs os x h hx hl
  rw [hs] at hn
  cases hn
  have hi := ElemTy.reach_inv T h hx
  have ha : WriteBuffer.getAvailableSize w = room := by
    obtain ⟨r1, r2, r3, r4, r5⟩ := hw
    exact (u32sub_of_le r2 (by omega)).trans r5.symm
  rw [ha]
  have hA := (ElemTy.enc_law T h).ser
  by_cases he : (T).encode ((T).canon ((T).abs x)) = []
  · have hf : (T).endsInText ((T).canon ((T).abs x)) = false := ElemTy.endsInText_nil fs os _ he
    obtain ⟨⟨e, w'⟩, h1, h2⟩ := (C13_serialize_partial WriteFixed.model fs os x w c room h hx hw hl).exists
    refine ⟨e, w', h1, ?_⟩
    rw [hf, he]
    rcases h2 with ⟨h2, _⟩ | ⟨_, _, k, _, hk, _⟩
    · dsimp only at h2
      subst h2
      exact ⟨Or.inl rfl, fun _ => Nat.zero_le _, fun _ => rfl⟩
    · rw [he] at hk
      exact absurd hk (Nat.not_lt_zero _)
  · obtain ⟨⟨e, w'⟩, h1, h2⟩ := (hA _ WriteFixed.model x w c room hi (Or.inl he) hl hw).exists
    refine ⟨e, w', h1, ?_⟩
    have hb : WriteFixed.model.extra ((T).endsInText ((T).canon ((T).spec.abs x))) =
        if (T).endsInText ((T).canon ((T).abs x)) then 1 else 0 := rfl
    rw [hb] at h2
    rcases h2 with ⟨h2, _, h3⟩ | ⟨h2, h3, _⟩
    · dsimp only at h2
      subst h2
      refine ⟨Or.inl rfl, fun _ => ?_, fun _ => rfl⟩
      have h3 := h3 WriteFixed.sharp he
      split
      · rename_i ht; rw [if_pos ht] at h3; exact h3
      · rename_i ht; rw [if_neg ht] at h3; exact h3
    · dsimp only at h2
      subst h2
      refine ⟨Or.inr rfl, fun h => (nomatch h), fun h4 => ?_⟩
      exfalso
      split at h4
      · rename_i ht; rw [if_pos ht] at h3; exact absurd h3 (Nat.not_lt.mpr h4)
      · rename_i ht; rw [if_neg ht] at h3; exact absurd h3 (Nat.not_lt.mpr h4)

/-- **C16** for every type on a buffer whose bulk push accepts an exact fit. -/
theorem C16_no_slack_partial (x : (T).Obj) (w : ω) (c : List Byte) (room n : Nat)
    (h : (T).WF) (hx : (T).Reach x) (hM : M.slack = 0) (hw : M.Rep w c room)
    (hl : ((T).encode ((T).canon ((T).abs x))).length < 2 ^ 32)
    (hs : (T).cls.serializedSize x = .ok n) (hfit : n ≤ room) :
    ∃ w', (T).cls.serialize x w = .ok (.noErrors, w') := by
  have hn := C14_size_of_encoding fs os x h hx hl
  rw [hs] at hn
  cases hn
  obtain ⟨⟨e, w'⟩, h1, h2⟩ := (C13_serialize_partial M fs os x w c room h hx hw hl).exists
  rcases h2 with ⟨he, hr⟩ | ⟨_, hlt, _⟩
  · dsimp only at he
    subst he
    exact ⟨w', h1⟩
  · omega

/-! ## C33 -/

/-- **C33**.  Two objects with the same observable value do the same to any write buffer (no contract
needed), so history and unused array contents do not leak. -/
theorem C33_deterministic (x y : (T).Obj) (w : ω) (h : (T).WF) (hx : (T).Reach x) (hy : (T).Reach y)
    (he : (T).abs x = (T).abs y) :
    (T).cls.serialize x w = (T).cls.serialize y w ∧
    (T).cls.serializedSize x = (T).cls.serializedSize y := by
  have hd := ElemTy.det_law T h
  have ix := ElemTy.reach_inv T h hx
  have iy := ElemTy.reach_inv T h hy
  exact ⟨hd.ser (Agree.refl _ _) x y w ix iy he, hd.size x y ix iy he⟩

/-! ## C34 -/

/-- **C34**, full statement: objects with different observable values have different encodings. -/
def C34_Statement : Prop :=
  ∀ (x y : (T).Obj) (cap : Nat) (wx wy : WriteFixed),
    (T).WF → (T).Reach x → (T).Reach y → cap < 2 ^ 31 →
    (T).cls.serialize x (WriteFixed.new cap) = .ok (.noErrors, wx) →
    (T).cls.serialize y (WriteFixed.new cap) = .ok (.noErrors, wy) →
    wx.bytes = wy.bytes → (T).abs x = (T).abs y

/-- The encoding determines the value up to `-0.0` in fields without presence. -/
theorem encode_injective (h : (T).WF) (u v : (T).Val) (hu : (T).Fits u) (hv : (T).Fits v)
    (hl : ((T).encode u).length < 2 ^ 32) (he : (T).encode u = (T).encode v) : u = v := by
  have key : ∀ v, (T).Fits v → ((T).encode v).length < 2 ^ 32 →
      Records fs os ((T).encode v) ((T).abs (T).cls.init) v := by
    intro v hv hl
    have := records_encode readable_enc fs os h (T).dflt v
    rw [ElemTy.merge_dflt] at this
    have e : (T).abs (T).cls.init = (T).dflt := (ElemTy.base T h).init_abs
    exact e ▸ this hv hl
  have hb := ElemTy.base T h
  have dec := fun v hv hl => decode_records fs os h
    (ReadFixed.model ((T).encode u).length (by omega)) (((T).encode u).length + 1)
    (ReadFixed.holding ((T).encode u).length ((T).encode u)) (T).cls.init (key v hv hl) hb.init_inv
    hb.init_clean (ReadFixed.holding_inv _ _ _ (Nat.le_refl _))
  obtain ⟨r, h1, _, _, _, _, _, h2⟩ := (dec u hu hl (ReadFixed.holding_view _ _ _) (by omega)).exists
  obtain ⟨r', h1', _, _, _, _, _, h2'⟩ := (dec v hv (he ▸ hl)
    ((ReadFixed.holding_view _ _ _).trans he) (by rw [he]; omega)).exists
  rw [h1] at h1'
  cases h1'
  rw [← h2, ← h2']

/-- **C34**, up to `-0.0` in fields without presence. -/
theorem C34_injective_partial (x y : (T).Obj) (cap : Nat) (wx wy : WriteFixed)
    (h : (T).WF) (hx : (T).Reach x) (hy : (T).Reach y) (hcap : cap < 2 ^ 31)
    (hlx : ((T).encode ((T).canon ((T).abs x))).length < 2 ^ 32)
    (hly : ((T).encode ((T).canon ((T).abs y))).length < 2 ^ 32)
    (hsx : (T).cls.serialize x (WriteFixed.new cap) = .ok (.noErrors, wx))
    (hsy : (T).cls.serialize y (WriteFixed.new cap) = .ok (.noErrors, wy))
    (hb : wx.bytes = wy.bytes) :
    (T).canon ((T).abs x) = (T).canon ((T).abs y) := by
  have key : ∀ z (wz : WriteFixed), (T).Reach z →
      ((T).encode ((T).canon ((T).abs z))).length < 2 ^ 32 →
      (T).cls.serialize z (WriteFixed.new cap) = .ok (.noErrors, wz) →
      wz.bytes = (T).encode ((T).canon ((T).abs z)) := by
    intro z wz hz hl hs
    have := C13_serialize_partial WriteFixed.model fs os z _ _ _ h hz (WriteFixed.new_rep cap hcap) hl
    rw [hs] at this
    rcases this with ⟨_, h⟩ | ⟨h, _⟩
    · simpa using h.2.2.2.1
    · exact nomatch h
  rw [key x wx hx hlx hsx, key y wy hy hly hsy] at hb
  exact encode_injective fs os h _ _
    (ElemTy.fits_canon T _ (ElemTy.fits_abs T x (ElemTy.reach_inv T h hx)))
    (ElemTy.fits_canon T _ (ElemTy.fits_abs T y (ElemTy.reach_inv T h hy))) hlx hb

/-! ## C35 -/

/-- **C35**, full statement: a message with a single scalar field without presence takes no bytes iff
the field is zero. -/
def C35_Statement : Prop :=
  ∀ (s : ScalarTy) (num : Nat) (x : (oneScalar num s).Obj) (v : s.Val),
    0 < num → num < 2 ^ 29 → (oneScalar num s).Reach x →
    (oneScalar num s).abs x = (((v, ()), ()) : (s.Val × Unit) × Unit) →
    ((oneScalar num s).cls.serializedSize x = .ok 0 ↔ v = s.zero)

/-- **C35**, except for `-0.0`: no bytes are taken iff the value is zero or `-0.0`. -/
theorem C35_implicit_presence_partial (s : ScalarTy) (num : Nat) (x : (oneScalar num s).Obj)
    (v : s.Val) (h0 : 0 < num) (hn : num < 2 ^ 29) (hx : (oneScalar num s).Reach x)
    (hv : (oneScalar num s).abs x = (((v, ()), ()) : (s.Val × Unit) × Unit)) :
    (oneScalar num s).cls.serializedSize x = .ok 0 ↔ v = s.zero ∨ s.negZero = some v := by
  have h : (oneScalar num s).WF := by
    simp [ElemTy.WF, Fields.WF, Oneofs.WF, Fields.numbers, Oneofs.numbers]; omega
  have henc : (oneScalar num s).encode ((oneScalar num s).canon ((oneScalar num s).abs x)) =
      (if s.isZero (if s.numZero v then s.zero else v) then [] else
        tag num s.wire ++ s.enc (if s.numZero v then s.zero else v)) ++ [] ++ [] := by
    rw [hv]; rfl
  rw [← ScalarTy.numZero_iff]
  have hlt : ((oneScalar num s).encode ((oneScalar num s).canon ((oneScalar num s).abs x))).length
      < 2 ^ 32 := by
    rw [henc]
    have h1 := scalar_enc_length s (if s.numZero v then s.zero else v)
    have h2 : (tag num s.wire).length ≤ 5 := varint_length_le 5 _ (by cases s <;> simp [ScalarTy.wire, wireNumber] <;> omega) (by omega)
    generalize (if s.numZero v then s.zero else v) = u at *
    cases s.isZero u
    · simp only [Bool.false_eq_true, ↓reduceIte, List.length_append, List.length_nil]; omega
    · simp
  rw [C14_size_of_encoding _ _ x h hx hlt]
  simp only [Res.ok.injEq, List.length_eq_zero_iff, henc, List.append_nil]
  by_cases hz : s.numZero v = true
  · simp [hz, ScalarTy.isZero]
  · have : ¬ v = s.zero := fun h => hz (by rw [h]; exact ScalarTy.numZero_zero s)
    simp [hz, ScalarTy.isZero, this, tag_ne_nil]

end

/-! ## Counter-examples and examples -/

/-- `message { int32 a = 1; }` with `a = -1` set by the program. -/
def negInt : (oneScalar 1 .int32).Obj := ⟨[], ((-1 : BitVec 32), ()), ()⟩

/-- `message { float a = 1; }` with `a = -0.0`. -/
def negZeroFloat : (oneScalar 1 .floatfixed).Obj := ⟨[], ((0x80000000 : BitVec 32), ()), ()⟩

theorem oneScalar_wf (s : ScalarTy) : (oneScalar 1 s).WF := by
  simp [ElemTy.WF, Fields.WF, Oneofs.WF, Fields.numbers, Oneofs.numbers]

/-- `set_a(v)` reaches the object. -/
theorem oneScalar_reach (s : ScalarTy) (v : s.Val) :
    (oneScalar 1 s).Reach (⟨[], (v, ()), ()⟩ : MsgObj (s.Val × Unit) Unit) := by
  refine ReachGen.step (R := fun _ => False) (f := onFields (onFst fun _ => .ok v)) (fun _ h => h.elim)
    ?_ .init
    (by show onFields _ (⟨Presence.init 0, (s.zero, ()), ()⟩ : MsgObj (s.Val × Unit) Unit) = _; rfl)
  refine Or.inr (Or.inl ⟨_, Or.inl ⟨_, Or.inr ⟨fun _ => False, fun _ h => h.elim, Or.inr ⟨v, rfl⟩⟩, rfl⟩, rfl⟩)

/-- **C13** is false: `int32 a = -1` is written as `08 FF FF FF FF 0F`; standard encoders produce
the eleven bytes `08 FF FF FF FF FF FF FF FF FF 01`. -/
theorem C13_false : ¬ ∀ fs os, C13_Statement fs os := by
  intro h
  have := h _ _ WriteFixed WriteFixed.model negInt (WriteFixed.new 32) [] 32
    (oneScalar_wf .int32) (oneScalar_reach .int32 (-1)) (WriteFixed.new_rep 32 (by omega))
    (by decide +kernel)
  obtain ⟨⟨e, w⟩, h1, h2⟩ := this.exists
  have hw : (oneScalar 1 .int32).cls.serialize negInt (WriteFixed.new 32) =
      .ok (.noErrors, ⟨32, [0x08, 0xFF, 0xFF, 0xFF, 0xFF, 0x0F] ++ List.replicate 26 0, 6⟩) := by
    decide +kernel
  rw [hw] at h1
  cases h1
  rcases h2 with ⟨_, h2⟩ | ⟨h2, _⟩
  · exact absurd h2.2.2.2.1 (by decide +kernel)
  · exact nomatch h2

/-- **C34** is false: `0.0` and `-0.0` in a field without presence have the same (empty) encoding. -/
theorem C34_false : ¬ ∀ fs os, C34_Statement fs os := by
  intro h
  have := h _ _ negZeroFloat (oneScalar 1 .floatfixed).cls.init 8 (WriteFixed.new 8) (WriteFixed.new 8)
    (oneScalar_wf .floatfixed) (oneScalar_reach .floatfixed 0x80000000) .init (by omega) rfl rfl rfl
  exact absurd (congrArg (fun v => v.1.1) this)
    (by show ¬ (0x80000000 : BitVec 32) = (0 : BitVec 32); decide)

/-- **C35** is false: `-0.0` takes no bytes. -/
theorem C35_false : ¬ C35_Statement := by
  intro h
  have := h .floatfixed 1 negZeroFloat (0x80000000 : BitVec 32) (by omega) (by omega)
    (oneScalar_reach .floatfixed 0x80000000) rfl
  exact absurd (this.mp rfl) (by decide)

/-- `message { string a = 1 [maxLength = 4]; }` -/
abbrev oneString : ElemTy := .msg (.plain 1 (.str 4) .nil) .nil

theorem oneString_wf : oneString.WF := by
  simp [ElemTy.WF, Fields.WF, Oneofs.WF, Fields.numbers, Oneofs.numbers]

/-- An object with `a = "abc"`. -/
def abcString : oneString.Obj := ⟨[], (⟨3, [0x61, 0x62, 0x63, 0]⟩, ()), ()⟩

theorem abcString_reach : oneString.Reach abcString :=
  oneString.reach_decoded (Source.holding 8 (by omega) [0x0A, 0x03, 0x61, 0x62, 0x63] (by decide)) 9
    (e := .noErrors) (b := ⟨8, [0x0A, 0x03, 0x61, 0x62, 0x63, 0, 0, 0], 5, 5⟩) .init rfl

/-- **C16** is false: a message that ends in a string does not fit in a buffer of its size. -/
theorem C16_false : ¬ ∀ fs os, C16_Statement fs os := by
  intro h
  obtain ⟨w', hw⟩ := h _ _ abcString (WriteFixed.new 5) [] 5 5 oneString_wf abcString_reach
    (WriteFixed.new_rep 5 (by omega)) rfl (by decide +kernel) (by decide +kernel)
  have : oneString.cls.serialize abcString (WriteFixed.new 5) =
      .ok (.bufferFull, ⟨5, [0x0A, 0x03, 0, 0, 0], 2⟩) := rfl
  rw [this] at hw
  cases hw

/-- The object of the sample declaration is written as the bytes it was read from; the premises of
C13, C14, C15 and C33 hold of it. -/
example : ∃ x, Sample.outer.Reach x ∧ Sample.outer.abs x = Sample.value ∧
    Sample.outer.encode (Sample.outer.canon (Sample.outer.abs x)) = Sample.bytes ∧
    Sample.outer.encodeStandard Sample.value = Sample.bytes := by
  obtain ⟨x, h1, h2⟩ := Sample.reachable
  refine ⟨x, h1, h2, ?_, by decide +kernel⟩
  rw [h2]
  decide +kernel

/-- The premises of C13_standard hold of it too. -/
example : Sample.outer.NonNeg Sample.value ∧ Sample.outer.canon Sample.value = Sample.value := by
  refine ⟨?_, rfl⟩
  simp [Sample.fields, Sample.oneofs, Sample.inner, Sample.value, ElemTy.NonNeg, Fields.NonNeg,
    Oneofs.NonNeg, ScalarTy.NonNeg]
  intro x hx
  cases hx
  simp [ElemTy.NonNeg, Fields.NonNeg, Oneofs.NonNeg, Alts.NonNeg, ScalarTy.NonNeg]

/-- Both cases of C16_exactly: the encoding of `abcString` ends in text, that of the sample does
not. -/
example : oneString.endsInText (oneString.canon (oneString.abs abcString)) = true ∧
    Sample.outer.endsInText (Sample.outer.canon Sample.value) = false := by decide +kernel

/-- A message without strings, for C16. -/
example : Sample.inner.hasStr = false ∧ Sample.inner.WF := ⟨rfl, Sample.inner_wf⟩

end EP
