import Verif.Props.Cut
import Verif.Proof.Upto

/-!
# A message of which only the beginning arrives: C85
-/

namespace EP
open Spec

section
variable {ω : Type} [WriteBuffer ω] (W : WriteModel ω) (fs : Fields) (os : Oneofs)
local notation "T" => ElemTy.msg fs os

/-- **C85**: if only the beginning of a serialized message is received, `deserialize` returns `END_OF_BUFFER`, or it
returns `NO_ERRORS` and the object has the values of the message up to some point, and default values after it. -/
theorem C85_beginning (x y : (T).Obj) (w w' : ω) (c : List Byte) (room : Nat) (h : (T).WF) (hx : (T).Reach x)
    (hy : NewOrCleared fs os y) (hw : W.Rep w c room)
    (hl : ((T).encode ((T).canon ((T).abs x))).length < 2 ^ 32)
    (hs : (T).cls.serialize x w = .ok (.noErrors, w')) :
    ∃ bs room', W.Rep w' (c ++ bs) room' ∧
      ∀ (β : Type) [ReadBuffer β] (M : ReadModel β) (b : β) (fuel : Nat) (missing : List Byte), M.Inv b →
        M.view b ++ missing = bs → missing ≠ [] → (M.view b).length < fuel →
        (∃ b' z, (T).cls.deserialize fuel b y = .ok (.endOfBuffer, b', z)) ∨
        ∃ b' z, (T).cls.deserialize fuel b y = .ok (.noErrors, b', z) ∧ M.view b' = [] ∧
          (T).Upto ((T).abs z) ((T).canon ((T).abs x)) := by
  have ha := C13_serialize_partial W fs os x w c room h hx hw hl
  rw [hs] at ha
  rcases ha with ⟨_, ha⟩ | ⟨ha, _⟩
  · refine ⟨_, _, ha, fun β _ M b fuel r hb hv hr hf => ?_⟩
    rw [hy.eq_init fs os h]
    have hfit := ElemTy.fits_canon T _ (ElemTy.fits_abs T x (ElemTy.reach_inv T h hx))
    have hinit : (T).abs (T).cls.init = (T).dflt := (ElemTy.base T h).init_abs
    have hwf := h
    simp only [ElemTy.WF] at hwf
    have hl' : (fs.encodeWith ScalarTy.enc ((T).canon ((T).abs x)).1 ++
      os.encodeWith ScalarTy.enc ((T).canon ((T).abs x)).2).length < 4294967296 := hl
    rw [List.length_append] at hl'
    have key : Truncated fs os (M.view b) (T).dflt ∨
        ∃ w : (T).Val, Lost fs os (M.view b) (T).dflt w ∧ (T).Upto w ((T).canon ((T).abs x)) := by
      refine message_piece (body_cut readable_enc hwf hfit hl' hv ?_ ?_)
      · exact fun hn a ha e => Fields.encode_cut readable_enc fs hwf.1 hn _ _ a hfit.1 (by omega) ha e
      · exact fun hn c e => Oneofs.encode_cut readable_enc os hwf.2.1 hn _ c r hfit.2 (by omega) hr e
    rw [← hinit] at key
    rcases key with key | ⟨u, k1, k2⟩
    · exact Or.inl (C26_truncated_partial M fs os _ b fuel h (Or.inr .init) hb key hf)
    · obtain ⟨b', z, h1, h2, h3⟩ := C26_lost M fs os _ b fuel u h (Or.inr .init) hb k1 hf
      exact Or.inr ⟨b', z, h1, h2, h3 ▸ k2⟩
  · exact nomatch ha

end

/-! ## Examples -/

/-- A message `{a: {x: 5, y: 7}}` of which `0A 04 08 05` arrives: `{a: {x: 5}}` is a message up to a point. -/
example : nestedMsg.Upto ((((5#32, 0#32, ()), ()), ()), ()) ((((5#32, 7#32, ()), ()), ()), ()) :=
  Or.inl ⟨Or.inr ⟨Or.inr (Or.inl ⟨Or.inl ⟨rfl, Or.inr ⟨Or.inl rfl, rfl⟩⟩, rfl⟩), rfl⟩, rfl⟩

/-- `{a: {x: 0, y: 7}}` is none: the second number cannot arrive without the first. -/
example : ¬ nestedMsg.Upto ((((0#32, 7#32, ()), ()), ()), ()) ((((5#32, 7#32, ()), ()), ()), ()) := by
  have h5 : ¬ (0#32 = 5#32) := by decide
  have h7 : ¬ (7#32 = 0#32) := by decide
  rintro (⟨⟨h, _⟩ | ⟨h | ⟨⟨h, _⟩ | ⟨_, h⟩, _⟩ | ⟨h, _⟩, _⟩, _⟩ | ⟨h, _⟩)
  · exact h5 (congrArg (fun p : (BitVec 32 × BitVec 32 × Unit) × Unit => p.1.1) h)
  · exact h7 (congrArg (fun p : (BitVec 32 × BitVec 32 × Unit) × Unit => p.1.2.1) h)
  · exact h5 h
  · exact h7 (congrArg (fun p : BitVec 32 × Unit => p.1) h)
  · exact h5 (congrArg (fun p : BitVec 32 × BitVec 32 × Unit => p.1) h)
  · exact h5 (congrArg (fun p : ((BitVec 32 × BitVec 32 × Unit) × Unit) × Unit => p.1.1.1) h)

local notation "hold" => ReadFixed.holding 8

/-- Both cases happen, to the message `0A 04 08 05 10 07` that is `{a: {x: 5, y: 7}}`: of `0A 04 08 05` the loss is not
noticed, of `0A 04 08` it is. -/
example : nestedMsg.encode ((((5#32, 7#32, ()), ()), ()), ()) = [0x0A, 0x04, 0x08, 0x05, 0x10, 0x07] ∧
    (∃ b' z, nestedMsg.cls.deserialize 9 (hold [0x0A, 0x04, 0x08, 0x05]) nestedMsg.cls.init = .ok (.noErrors, b', z) ∧
      nestedMsg.abs z = ((((5#32, 0#32, ()), ()), ()), ())) ∧
    ∃ b' z, nestedMsg.cls.deserialize 9 (hold [0x0A, 0x04, 0x08]) nestedMsg.cls.init = .ok (.endOfBuffer, b', z) := by
  refine ⟨by decide +kernel, ⟨_, _, rfl, rfl⟩, ⟨_, _, rfl⟩⟩

end EP
