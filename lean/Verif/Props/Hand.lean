import Verif.Props.Decode
import Verif.Props.Encode
import Verif.Proof.HandFields
import Verif.Proof.Exact

/-!
# C84: messages written and read by hand

A program may use `WireFormatter` without any generated class: it writes fields with
`SerializeInt(number, value, buffer)` … `SerializeEnum(number, value, buffer)`, and reads a message
with `DeserializeTag` and the `Deserialize…` function for the type of the field.
-/

namespace EP
open Spec

variable {ω β : Type} [WriteBuffer ω] [ReadBuffer β]

/-! ## Writing -/

/-- **C84**, full statement of the writing part: fields that are written one after the other are
appended as the records a standard encoder makes, or the buffer is too small, `BUFFER_FULL` is
reported and a proper prefix is appended. -/
def C84_Statement : Prop :=
  ∀ (ω : Type) [WriteBuffer ω] (M : WriteModel ω) (fs : List HandField) (w : ω) (c : List Byte)
    (room : Nat), (∀ f ∈ fs, f.Numbered) → M.Rep w c room →
    AppendsT M false c room (fs.flatMap HandField.standard) (putAll fs w)

/-- **C84**, writing: as stated, with negative `int32` and enum values in 5 bytes. -/
theorem C84_write_partial (M : WriteModel ω) (fs : List HandField) (w : ω) (c : List Byte) (room : Nat)
    (hn : ∀ f ∈ fs, f.Numbered) (hw : M.Rep w c room) :
    AppendsT M false c room (fs.flatMap HandField.bytes) (putAll fs w) :=
  putAll_appends M fs (fun f hf => (hn f hf).2) w hw

/-- These are the standard bytes exactly if no `int32` and no enum is negative. -/
theorem C84_standard_partial (fs : List HandField) :
    fs.flatMap HandField.bytes = fs.flatMap HandField.standard ↔ ∀ f ∈ fs, f.ty.NonNeg f.val := by
  have key : ∀ f : HandField, Shorter f.bytes f.standard (f.ty.NonNeg f.val) :=
    fun f => (f.ty.shorter_enc f.val).tag _ _
  have all : ∀ fs : List HandField, Shorter (fs.flatMap HandField.bytes) (fs.flatMap HandField.standard)
      (∀ f ∈ fs, f.ty.NonNeg f.val) := by
    intro fs
    induction fs with
    | nil => exact Shorter.refl _ nofun
    | cons f fs ih =>
      rw [List.flatMap_cons, List.flatMap_cons, List.forall_mem_cons]
      exact (key f).append ih
  constructor
  · intro h
    exact (all fs).2 (congrArg List.length h)
  · intro h
    induction fs with
    | nil => rfl
    | cons f fs ih =>
      rw [List.flatMap_cons, List.flatMap_cons, ih fun g hg => h g (List.mem_cons_of_mem _ hg)]
      congr 1
      unfold HandField.bytes HandField.standard
      rw [ScalarTy.encStandard_eq f.ty f.val (h f (List.mem_cons_self ..))]

/-- **C84**, writing to a `WriteBufferFixedSize` succeeds if and only if the records fit. -/
theorem C84_fits (fs : List HandField) (w : WriteFixed) (c : List Byte) (room : Nat)
    (hn : ∀ f ∈ fs, f.Numbered) (hw : WriteFixed.model.Rep w c room) :
    ((fs.flatMap HandField.bytes).length ≤ room ↔
      ∃ w', putAll fs w = .ok (.noErrors, w') ∧ w'.bytes = c ++ fs.flatMap HandField.bytes) := by
  have he : WriteFixed.model.extra false = 0 := WriteFixed.sharp.extra_false
  obtain ⟨⟨e, w'⟩, h1, h2⟩ := (C84_write_partial WriteFixed.model fs w c room hn hw).exists
  rw [he] at h2
  dsimp only at h2
  rw [h1]
  rcases h2 with ⟨rfl, hr, hroom⟩ | ⟨rfl, hlt, _⟩
  · refine ⟨fun _ => ⟨w', rfl, hr.2.2.2.1⟩, fun _ => ?_⟩
    by_cases h0 : fs.flatMap HandField.bytes = []
    · rw [h0]; exact Nat.zero_le _
    · exact hroom WriteFixed.sharp h0
  · refine ⟨fun h => absurd h (by omega), ?_⟩
    rintro ⟨_, h, _⟩
    exact nomatch h

namespace C84Example

/-- `SerializeInt<int32_t>(1, -1, buffer)`. -/
def negative : HandField := ⟨1, .int32, (-1 : BitVec 32)⟩

/-- Fields of several types. -/
def fields : List HandField :=
  [⟨1, .int64, (-1 : BitVec 64)⟩, ⟨2, .uint32, (300 : BitVec 32)⟩, ⟨3, .sint32, (-2 : BitVec 32)⟩,
    ⟨4, .boolean, true⟩, ⟨5, .floatfixed, (0x80000000 : BitVec 32)⟩,
    ⟨536870911, .doublefixed, (0x3FF0000000000000 : BitVec 64)⟩,
    ⟨7, .enumeration, (-1 : BitVec 32)⟩]

/-- A program that knows these fields. -/
def known (num : Nat) (wt : WireType) : Option ScalarTy :=
  (fields.find? fun f => f.num = num ∧ f.ty.wire = wt).map HandField.ty

end C84Example

/-- A negative `int32` is not written as a standard encoder does. -/
theorem C84_false : ¬ C84_Statement := by
  intro h
  have := h WriteFixed WriteFixed.model [C84Example.negative] (WriteFixed.new 32) [] 32
    (by simp [C84Example.negative, HandField.Numbered]) (WriteFixed.new_rep 32 (by omega))
  obtain ⟨⟨e, w⟩, h1, h2⟩ := this.exists
  have hw : putAll [C84Example.negative] (WriteFixed.new 32) =
      .ok (.noErrors, ⟨32, [0x08, 0xFF, 0xFF, 0xFF, 0xFF, 0x0F] ++ List.replicate 26 0, 6⟩) := by
    decide +kernel
  rw [hw] at h1
  cases h1
  rcases h2 with ⟨_, h2, _⟩ | ⟨h2, _⟩
  · exact absurd h2.2.2.2.1 (by decide +kernel)
  · exact nomatch h2

/-- Fields of several types, all written and all but the negative ones as a standard encoder does. -/
example : (∀ f ∈ C84Example.fields, f.Numbered) ∧
    (putAll C84Example.fields (WriteFixed.new 64)).get?.map (fun r => (r.1, r.2.bytes)) =
      some (.noErrors, C84Example.fields.flatMap HandField.bytes) ∧
    (C84Example.fields.flatMap HandField.bytes).length = 42 ∧
    (putAll C84Example.fields (WriteFixed.new 41)).get?.map (fun r => r.1) = some .bufferFull ∧
    (C84Example.fields.flatMap HandField.standard).length = 47 := by
  refine ⟨?_, by decide +kernel, by decide +kernel, by decide +kernel, by decide +kernel⟩
  simp [C84Example.fields, HandField.Numbered]

/-! ## Reading -/

/-- **C84**, reading: if the buffer holds the records of these fields — as written by hand, or by a
standard encoder, or with longer varints — a program that knows them reads their numbers and values,
and the rest of the buffer is left. -/
theorem C84_read (M : ReadModel β) (dispatch : Nat → WireType → Option ScalarTy) (fs : List HandField)
    (b : β) (bs rest : List Byte) (hk : ∀ f ∈ fs, f.Known dispatch) (hr : HandRecords fs bs)
    (hb : M.Inv b) (hv : M.view b = bs ++ rest) :
    ∃ b', getAll dispatch fs.length b = .ok (.ok fs, b') ∧ M.Inv b' ∧ M.view b' = rest := by
  obtain ⟨⟨r, b'⟩, h1, h2, h3⟩ := (getAll_records M dispatch fs hk bs rest hr b hb hv).exists
  dsimp only at h2 h3
  subst h2
  exact ⟨b', h1, h3⟩

/-- **C84**, reading: what is read was there, whatever the bytes: the calls end, and if they report no
error, the bytes that were consumed are records of the fields that were read. -/
theorem C84_read_sound (M : ReadModel β) (dispatch : Nat → WireType → Option ScalarTy)
    (hd : ∀ num wt s, dispatch num wt = some s → wt = s.wire) (n : Nat) (b : β) (hb : M.Inv b) :
    ∃ r b', getAll dispatch n b = .ok (r, b') ∧ M.Inv b' ∧ ∀ fs, r = .ok fs → fs.length = n ∧
      ∃ bs, M.view b = bs ++ M.view b' ∧ HandRecords fs bs ∧ ∀ f ∈ fs, f.Known dispatch := by
  obtain ⟨⟨r, b'⟩, h1, h2, h3⟩ := (getAll_sound M dispatch hd n b hb).exists
  refine ⟨r, b', h1, h2, fun fs hf => ?_⟩
  obtain ⟨h4, bs, rest, h5, h6, h7, h8⟩ := h3 fs hf
  exact ⟨h4, bs, by rw [h5]; congr 1; exact h8.symm, h6, h7⟩

/-- Programs that know a declaration meet the premise. -/
example (fs : Fields) : ∀ num wt s, fs.dispatch num wt = some s → wt = s.wire := fs.dispatch_wire

/-- Both the records written by hand and those of a standard encoder are such records. -/
theorem C84_records (fs : List HandField) (hn : ∀ f ∈ fs, f.Numbered) :
    HandRecords fs (fs.flatMap HandField.bytes) ∧ HandRecords fs (fs.flatMap HandField.standard) :=
  ⟨handRecords_of fs fun f hf => f.record_bytes (hn f hf).2,
    handRecords_of fs fun f hf => f.record_standard (hn f hf).2⟩

/-- The example is read back, also as a standard encoder writes it; and after a tag of wire type 6 an
error is reported. -/
example : ((getAll C84Example.known 7 (ReadFixed.holding 64 (C84Example.fields.flatMap HandField.standard))).get?.map
      fun r => match r.1 with
        | .ok fs => fs.flatMap HandField.bytes == C84Example.fields.flatMap HandField.bytes
        | .error _ => false) = some true ∧
    ((getAll C84Example.known 1 (ReadFixed.holding 4 [0x0E])).get?.map fun r => match r.1 with
        | .ok _ => Error.noErrors
        | .error e => e) = some .invalidWiretype :=
  ⟨by decide +kernel, by decide +kernel⟩

/-! ## Together with generated classes -/

section
variable (fs : Fields)
local notation "T" => ElemTy.msg fs Oneofs.nil

/-- **C84**, a message of scalar fields may be written by hand: these are the bytes of its encoding,
and its class reads them as the value. -/
theorem C84_for_class (v : (T).Val) (h : (T).WF) (hf : fs.Flat) (W : WriteModel ω) (w : ω)
    (c : List Byte) (room : Nat) (hw : W.Rep w c room) :
    AppendsT W false c room ((T).encode v) (putAll (fs.hand v.1) w) ∧
    ∀ (M : ReadModel β) (b : β) (x : (T).Obj) (fuel : Nat), M.Inv b → M.view b = (T).encode v →
      NewOrCleared fs .nil x → ((T).encode v).length < fuel →
      ∃ b' y, (T).cls.deserialize fuel b x = .ok (.noErrors, b', y) ∧ M.view b' = [] ∧ (T).abs y = v := by
  have he : (T).encode v = (fs.hand v.1).flatMap HandField.bytes := by
    rw [Fields.hand_encode fs hf v.1]
    exact List.append_nil _
  constructor
  · rw [he]
    refine C84_write_partial W _ w c room (fun f hm => ?_) hw
    have hn := Fields.hand_numbers fs hf v.1 f hm
    simp only [ElemTy.WF] at h
    have := h.2.2.2 f.num (List.mem_append_left _ hn)
    exact ⟨this.1, this.2⟩
  · intro M b x fuel hb hv hx hl
    rw [hx.eq_init fs .nil h]
    have hinit : (T).abs (T).cls.init = (T).dflt := (ElemTy.base T h).init_abs
    have hm : (T).merge ((T).abs (T).cls.init) v = v := by
      have := ElemTy.merge_dflt T v
      exact hinit ▸ this
    obtain ⟨b', z, h1, h2, h3⟩ := C18_merge_partial M fs .nil (T).cls.init v b fuel h (Or.inr .init) hb hv
      (hm.symm ▸ ⟨Fields.fits_flat fs hf v.1, trivial⟩) hl
    exact ⟨b', z, h1, h2, h3.trans hm⟩

/-- **C84**, what the class writes may be read by hand, field by field. -/
theorem C84_from_class (x : (T).Obj) (h : (T).WF) (hf : fs.Flat) (hx : (T).Reach x)
    (W : WriteModel ω) (w w' : ω) (c : List Byte) (room : Nat) (hw : W.Rep w c room)
    (hl : ((T).encode ((T).canon ((T).abs x))).length < 2 ^ 32)
    (hs : (T).cls.serialize x w = .ok (.noErrors, w')) :
    ∃ bs room', W.Rep w' (c ++ bs) room' ∧ ∀ (M : ReadModel β) (b : β) (rest : List Byte), M.Inv b →
      M.view b = bs ++ rest →
      ∃ b', getAll fs.dispatch (fs.hand ((T).canon ((T).abs x)).1).length b =
        .ok (.ok (fs.hand ((T).canon ((T).abs x)).1), b') ∧ M.Inv b' ∧ M.view b' = rest := by
  have ha := C13_serialize_partial W fs .nil x w c room h hx hw hl
  have he : (T).encode ((T).canon ((T).abs x)) =
      (fs.hand ((T).canon ((T).abs x)).1).flatMap HandField.bytes := by
    rw [Fields.hand_encode fs hf]
    exact List.append_nil _
  rw [hs] at ha
  simp only [ElemTy.WF] at h
  rcases ha with ⟨_, ha⟩ | ⟨ha, _⟩
  · refine ⟨_, _, ha, fun M b rest hb hv => ?_⟩
    rw [he] at hv
    have hd := (List.nodup_append.mp h.2.2.1).1
    refine C84_read M fs.dispatch _ b _ rest (Fields.hand_known fs hf hd _) ?_ hb hv
    refine (C84_records _ fun f hm => ?_).1
    have := h.2.2.2 f.num (List.mem_append_left _ (Fields.hand_numbers fs hf _ f hm))
    exact ⟨this.1, this.2⟩
  · exact nomatch ha

/-- Such a message: a value without presence, one with presence, and an absent one. -/
example : let fs : Fields := .plain 1 (.scalar .int32) (.optional 2 (.scalar .boolean)
      (.optional 3 (.scalar .doublefixed) .nil))
    fs.Flat ∧ (ElemTy.msg fs .nil).WF ∧
    ((putAll (fs.hand ((7 : BitVec 32), some false, none, ())) (WriteFixed.new 8)).get?.map
      fun r => (r.1, r.2.bytes)) = some (.noErrors, [0x08, 7, 0x10, 0]) := by
  refine ⟨trivial, ?_, by decide +kernel⟩
  simp [ElemTy.WF, Fields.WF, Oneofs.WF, Fields.numbers, Oneofs.numbers]

end

end EP
