import Verif.Props.Decode
import Verif.Proof.Older

/-!
# Programs with different versions of a declaration

C56: a receiver with an older version of the declaration.  C57: a receiver with a newer version.

`f : fs.Older` and `o : os.Older` say what was added to the older message `{ f.old o.old }` to get
`{ fs os }` (Spec/Older.lean): fields, oneofs, members of oneofs, `optional`, at any depth.
-/

namespace EP
open Spec

section
variable {fs : Fields} {os : Oneofs} (f : fs.Older) (o : os.Older)
local notation "T" => ElemTy.msg fs os
local notation "S" => ElemTy.msg (Fields.Older.old f) (Oneofs.Older.old o)
local notation "M" => ElemTy.Older.msg f o

/-- **C56**.  An object of the newer class is serialized, and the bytes are read by a program with the older
class: reading reports no error and gives the value of every field the older declaration has.  (In a field without
presence a `-0.0` is read as `0.0`, as always: C17.) -/
theorem C56_older_receiver {ω : Type} [WriteBuffer ω] (W : WriteModel ω) (x : (T).Obj) (y : (S).Obj) (w w' : ω)
    (c : List Byte) (room : Nat) (h : (T).WF) (h' : (S).WF) (hx : (T).Reach x)
    (hy : NewOrCleared f.old o.old y) (hw : W.Rep w c room)
    (hl : ((T).encode ((T).canon ((T).abs x))).length < 2 ^ 32)
    (hfit : (S).Fits ((M).shown ((T).canon ((T).abs x))))
    (hs : (T).cls.serialize x w = .ok (.noErrors, w')) :
    ∃ bs room', W.Rep w' (c ++ bs) room' ∧
      ∀ (β : Type) [ReadBuffer β] (R : ReadModel β) (b : β) (fuel : Nat), R.Inv b → R.view b = bs →
        bs.length < fuel → ∃ b' z, (S).cls.deserialize fuel b y = .ok (.noErrors, b', z) ∧
          R.view b' = [] ∧ (S).abs z = (M).shown ((T).canon ((T).abs x)) := by
  have ha := C13_serialize_partial W fs os x w c room h hx hw hl
  rw [hs] at ha
  rcases ha with ⟨_, ha⟩ | ⟨ha, _⟩
  · refine ⟨_, _, ha, fun β _ R b fuel hb hv hf => ?_⟩
    rw [hy.eq_init f.old o.old h']
    have hr := records_older readable_enc h f o ((T).canon ((T).abs x)) hfit hl
    have hi : (S).abs (S).cls.init = (S).dflt := (ElemTy.base S h').init_abs
    refine C19_records_partial R f.old o.old (S).cls.init _ b fuel h' (Or.inr .init) hb ?_ (hv ▸ hf)
    rw [hv, hi]
    exact hr
  · exact nomatch ha

/-- **C56** for any sender that follows the protocol: well formed records of the newer declaration, in any order,
any number of times, mixed with unknown ones, making the value `v`. -/
theorem C56_older_receiver_records {β : Type} [ReadBuffer β] (R : ReadModel β) (y : (S).Obj) (v : (T).Val) (b : β)
    (fuel : Nat) (h : (T).WF) (h' : (S).WF) (hf : f.Roomy) (ho : o.Roomy) (hy : NewOrCleared f.old o.old y)
    (hb : R.Inv b) (hr : Records fs os (R.view b) (T).dflt v) (hfuel : (R.view b).length < fuel) :
    ∃ b' z, (S).cls.deserialize fuel b y = .ok (.noErrors, b', z) ∧ R.view b' = [] ∧
      (S).abs z = (M).shown v := by
  rw [hy.eq_init f.old o.old h']
  have hi : (S).abs (S).cls.init = (S).dflt := (ElemTy.base S h').init_abs
  refine C19_records_partial R f.old o.old (S).cls.init _ b fuel h' (Or.inr .init) hb ?_ hfuel
  rw [hi]
  have := Records.older h f o hf ho hr
  have e : (f.shown fs.dflt, o.shown os.dflt) = (S).dflt := pair_eq f.shown_dflt o.shown_dflt
  exact e ▸ this

/-- **C57**.  An object of the older class is serialized, and the bytes are read by a program with the newer
class: reading reports no error and gives all fields of the object; nothing that was added is set. -/
theorem C57_newer_receiver {ω : Type} [WriteBuffer ω] (W : WriteModel ω) (x : (S).Obj) (y : (T).Obj) (w w' : ω)
    (c : List Byte) (room : Nat) (h : (T).WF) (h' : (S).WF) (hx : (S).Reach x)
    (hy : NewOrCleared fs os y) (hw : W.Rep w c room)
    (hl : ((S).encode ((S).canon ((S).abs x))).length < 2 ^ 32)
    (hfit : (T).Fits ((M).lifted ((S).canon ((S).abs x))))
    (hs : (S).cls.serialize x w = .ok (.noErrors, w')) :
    ∃ bs room', W.Rep w' (c ++ bs) room' ∧
      ∀ (β : Type) [ReadBuffer β] (R : ReadModel β) (b : β) (fuel : Nat), R.Inv b → R.view b = bs →
        bs.length < fuel → ∃ b' z, (T).cls.deserialize fuel b y = .ok (.noErrors, b', z) ∧
          R.view b' = [] ∧ (T).abs z = (M).lifted ((S).canon ((S).abs x)) := by
  have ha := C13_serialize_partial W f.old o.old x w c room h' hx hw hl
  rw [hs] at ha
  rcases ha with ⟨_, ha⟩ | ⟨ha, _⟩
  · refine ⟨_, _, ha, fun β _ R b fuel hb hv hf => ?_⟩
    rw [hy.eq_init fs os h]
    have e : (T).encode ((M).lifted ((S).canon ((S).abs x))) = (S).encode ((S).canon ((S).abs x)) :=
      (M).encode_lifted _
    have hinit : (T).abs (T).cls.init = (T).dflt := (ElemTy.base T h).init_abs
    have hm : (T).merge ((T).abs (T).cls.init) ((M).lifted ((S).canon ((S).abs x))) =
        (M).lifted ((S).canon ((S).abs x)) := by
      have := ElemTy.merge_dflt T ((M).lifted ((S).canon ((S).abs x)))
      exact hinit ▸ this
    obtain ⟨b', z, h1, h2, h3⟩ := C18_merge_partial R fs os (T).cls.init
      ((M).lifted ((S).canon ((S).abs x))) b fuel h (Or.inr .init) hb (hv.trans e.symm)
      (hm.symm ▸ hfit) (by rw [e]; exact hf)
    exact ⟨b', z, h1, h2, h3.trans hm⟩
  · exact nomatch ha

/-- **C57**, what `lifted` means: it has the fields of the older value, and nothing else is encoded. -/
theorem C57_lifted (v : (S).Val) :
    (M).shown ((M).lifted v) = v ∧ (T).encode ((M).lifted v) = (S).encode v :=
  ⟨(M).shown_lifted v, (M).encode_lifted v⟩

end

/-! ## Examples -/

namespace Sample

/-- `message Inner { sint32 a = 1; }`: the field `b` was added later. -/
def olderInner : inner.Older := .msg (.plain 1 (.scalar .sint32) (.newRepeated 2 3 (.scalar .uint32) .nil)) .nil

/-- Of `Outer` the fields `d`, `i` and `j` were added later, `b` was not `optional`, and the maximum length of `c`
was 5. -/
def olderFields : fields.Older :=
  .plain 1 (.scalar .int32) <| .madeOptional 2 (.scalar .uint32) <| .repeated 3 3 5 (.scalar .uint32) <|
  .newPlain 4 (.str 8) <| .plain 5 olderInner <| .repeated 6 2 2 olderInner <| .plain 7 (.scalar .floatfixed) .nil

def olderOneofs : oneofs.Older :=
  .cons (.cons 8 (.scalar .boolean) (.newMember 9 (.str 4) (.newMember 100 inner .nil))) .nil

theorem older_wf : (ElemTy.msg olderFields.old olderOneofs.old).WF := by
  simp [olderFields, olderOneofs, olderInner, Fields.Older.old, Oneofs.Older.old, Alts.Older.old, ElemTy.Older.old,
    ElemTy.WF, Fields.WF, Oneofs.WF, Alts.WF, Fields.numbers, Alts.numbers, Oneofs.numbers]

/-- `a = 150, b = 0, c = [1, 300], e = {a = -1}, f = [{}, {}], g = 1.5`, nothing of the oneof. -/
example : (ElemTy.Older.msg olderFields olderOneofs).shown value =
    ((150#32, 0#32, [1#32, 300#32], (((-1 : BitVec 32), ()), ()), [((0#32, ()), ()), ((0#32, ()), ())],
      0x3FC00000#32, ()), (none, ())) := rfl

/-- An older program gets that from the bytes of the newer one. -/
example : ∃ b x, (ElemTy.msg olderFields.old olderOneofs.old).cls.deserialize 64 (ReadFixed.holding 64 bytes)
    (ElemTy.msg olderFields.old olderOneofs.old).cls.init = .ok (.noErrors, b, x) ∧ b.read = 36 ∧
    (ElemTy.msg olderFields.old olderOneofs.old).abs x = (ElemTy.Older.msg olderFields olderOneofs).shown value :=
  ⟨_, _, rfl, rfl, rfl⟩

/-- The premises of C56 hold of the sample. -/
example : ∃ x, outer.Reach x ∧ outer.abs x = value ∧
    ((outer).encode (outer.canon (outer.abs x))).length < 2 ^ 32 ∧
    (ElemTy.msg olderFields.old olderOneofs.old).Fits
      ((ElemTy.Older.msg olderFields olderOneofs).shown (outer.canon (outer.abs x))) := by
  obtain ⟨x, h1, h2⟩ := reachable
  refine ⟨x, h1, h2, ?_, ?_⟩
  · rw [h2]; decide +kernel
  · rw [h2]
    have e : outer.canon value = value := rfl
    rw [e]
    have e : (ElemTy.Older.msg olderFields olderOneofs).shown value =
      ((150#32, 0#32, [1#32, 300#32], (((-1 : BitVec 32), ()), ()), [((0#32, ()), ()), ((0#32, ()), ())],
        0x3FC00000#32, ()), (none, ())) := rfl
    rw [e]
    simp [olderFields, olderOneofs, olderInner, Fields.Older.old, Oneofs.Older.old, Alts.Older.old,
      ElemTy.Older.old, ElemTy.Fits, Fields.Fits, Oneofs.Fits]
    exact ⟨by decide, by decide⟩

end Sample

/-- Why `C56_older_receiver_records` has `Roomy`: a sender that sends the member `a = 1` of a oneof and then the
member `b = 1`, which was added later, makes the value `b = 1`; to the older receiver the oneof holds `a = 1`, and
not, as the value `b = 1` is shown, nothing. -/
example : (ElemTy.msg .nil (.cons (.cons 1 (.scalar .int32) .nil) .nil)).cls.deserialize 9
    (ReadFixed.holding 8 [0x08, 0x01, 0x10, 0x01])
    (ElemTy.msg .nil (.cons (.cons 1 (.scalar .int32) .nil) .nil)).cls.init =
    .ok (.noErrors, ⟨8, [0x08, 0x01, 0x10, 0x01, 0, 0, 0, 0], 4, 4⟩, ⟨[], (), (⟨1, some (.inl 1#32)⟩, ())⟩) := rfl

end EP
