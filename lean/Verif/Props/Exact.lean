import Verif.Props.Decode
import Verif.Proof.Exact

/-!
# Exactly when: C13, C17 and C34

Each of C13 (the bytes are those of a standard encoder), C17 (the round trip gives the value back)
and C34 (different values have different encodings) is false of the code.  Here is for which values
each is true: the conditions are necessary as well as sufficient.
-/

namespace EP
open Spec

section
variable {ω : Type} [WriteBuffer ω] (W : WriteModel ω) (fs : Fields) (os : Oneofs)
local notation "T" => ElemTy.msg fs os

/-- What a successful `serialize()` leaves in an empty buffer of fixed size. -/
theorem serialized_bytes (x : (T).Obj) (cap : Nat) (w : WriteFixed) (h : (T).WF) (hx : (T).Reach x)
    (hcap : cap < 2 ^ 31) (hl : ((T).encode ((T).canon ((T).abs x))).length < 2 ^ 32)
    (hs : (T).cls.serialize x (WriteFixed.new cap) = .ok (.noErrors, w)) :
    w.bytes = (T).encode ((T).canon ((T).abs x)) := by
  have := C13_serialize_partial WriteFixed.model fs os x _ _ _ h hx (WriteFixed.new_rep cap hcap) hl
  rw [hs] at this
  rcases this with ⟨_, h⟩ | ⟨h, _⟩
  · simpa using h.2.2.2.1
  · exact nomatch h

/-- **C13**, exactly: the bytes are those of a standard encoder if and only if no `int32` or enum, at
any depth, is negative and no field without presence, at any depth, holds `-0.0`. -/
theorem C13_standard_iff (x : (T).Obj) (cap : Nat) (w : WriteFixed) (h : (T).WF) (hx : (T).Reach x)
    (hcap : cap < 2 ^ 31) (hl : ((T).encode ((T).canon ((T).abs x))).length < 2 ^ 32)
    (hs : (T).cls.serialize x (WriteFixed.new cap) = .ok (.noErrors, w)) :
    w.bytes = (T).encodeStandard ((T).abs x) ↔
      (T).NonNeg ((T).abs x) ∧ (T).NoNegZero ((T).abs x) := by
  rw [serialized_bytes fs os x cap w h hx hcap hl hs]
  exact ElemTy.encode_standard_iff T _

/-- **C13**, the other values: the bytes are then strictly fewer than those of a standard encoder. -/
theorem C13_shorter (x : (T).Obj) (cap : Nat) (w : WriteFixed) (h : (T).WF) (hx : (T).Reach x)
    (hcap : cap < 2 ^ 31) (hl : ((T).encode ((T).canon ((T).abs x))).length < 2 ^ 32)
    (hs : (T).cls.serialize x (WriteFixed.new cap) = .ok (.noErrors, w))
    (hn : w.bytes ≠ (T).encodeStandard ((T).abs x)) :
    w.bytes.length < ((T).encodeStandard ((T).abs x)).length := by
  rw [serialized_bytes fs os x cap w h hx hcap hl hs] at hn ⊢
  have := ElemTy.shorter T ((T).abs x)
  refine Nat.lt_of_le_of_ne this.1 fun e => hn ?_
  exact (ElemTy.encode_standard_iff T _).mpr (this.2 e)

/-- **C17**, exactly: serializing and deserializing always succeeds, and gives the same value back if
and only if no field without presence, at any depth, holds `-0.0`. -/
theorem C17_exact_iff (x y : (T).Obj) (w w' : ω) (c : List Byte) (room : Nat)
    (h : (T).WF) (hx : (T).Reach x) (hy : NewOrCleared fs os y) (hw : W.Rep w c room)
    (hl : ((T).encode ((T).canon ((T).abs x))).length < 2 ^ 32)
    (hs : (T).cls.serialize x w = .ok (.noErrors, w')) :
    ∃ bs room', W.Rep w' (c ++ bs) room' ∧
      ∀ (β : Type) [ReadBuffer β] (M : ReadModel β) (b : β) (fuel : Nat), M.Inv b → M.view b = bs →
        bs.length < fuel → ∃ b' z, (T).cls.deserialize fuel b y = .ok (.noErrors, b', z) ∧
          M.view b' = [] ∧ ((T).abs z = (T).abs x ↔ (T).NoNegZero ((T).abs x)) := by
  obtain ⟨bs, room', h1, h2⟩ := C17_round_trip_partial W fs os x y w w' c room h hx hy hw hl hs
  refine ⟨bs, room', h1, fun β _ M b fuel hb hv hf => ?_⟩
  obtain ⟨b', z, h3, h4, h5⟩ := h2 β M b fuel hb hv hf
  refine ⟨b', z, h3, h4, ?_⟩
  rw [h5]
  exact ElemTy.canon_iff T _

/-- **C34**, exactly: two objects have the same encoding if and only if their values differ at most in
the sign of a zero in a field without presence. -/
theorem C34_injective_iff (x y : (T).Obj) (cap : Nat) (wx wy : WriteFixed)
    (h : (T).WF) (hx : (T).Reach x) (hy : (T).Reach y) (hcap : cap < 2 ^ 31)
    (hlx : ((T).encode ((T).canon ((T).abs x))).length < 2 ^ 32)
    (hly : ((T).encode ((T).canon ((T).abs y))).length < 2 ^ 32)
    (hsx : (T).cls.serialize x (WriteFixed.new cap) = .ok (.noErrors, wx))
    (hsy : (T).cls.serialize y (WriteFixed.new cap) = .ok (.noErrors, wy)) :
    wx.bytes = wy.bytes ↔ (T).canon ((T).abs x) = (T).canon ((T).abs y) := by
  constructor
  · exact C34_injective_partial fs os x y cap wx wy h hx hy hcap hlx hly hsx hsy
  · intro e
    rw [serialized_bytes fs os x cap wx h hx hcap hlx hsx, serialized_bytes fs os y cap wy h hy hcap hly hsy, e]

/-- **C34** for values without `-0.0` in fields without presence: same encoding, same value. -/
theorem C34_exact_partial (x y : (T).Obj) (cap : Nat) (wx wy : WriteFixed)
    (h : (T).WF) (hx : (T).Reach x) (hy : (T).Reach y) (hcap : cap < 2 ^ 31)
    (hlx : ((T).encode ((T).canon ((T).abs x))).length < 2 ^ 32)
    (hly : ((T).encode ((T).canon ((T).abs y))).length < 2 ^ 32)
    (hzx : (T).NoNegZero ((T).abs x)) (hzy : (T).NoNegZero ((T).abs y))
    (hsx : (T).cls.serialize x (WriteFixed.new cap) = .ok (.noErrors, wx))
    (hsy : (T).cls.serialize y (WriteFixed.new cap) = .ok (.noErrors, wy)) :
    wx.bytes = wy.bytes ↔ (T).abs x = (T).abs y := by
  rw [C34_injective_iff fs os x y cap wx wy h hx hy hcap hlx hly hsx hsy,
    (ElemTy.canon_iff T _).mpr hzx, (ElemTy.canon_iff T _).mpr hzy]

end

/-! ## The hypotheses are met -/

/-- `message { int32 a = 1; }` with `a = -1`: not the standard bytes. -/
example : ∃ w, (oneScalar 1 .int32).cls.serialize negInt (WriteFixed.new 32) = .ok (.noErrors, w) ∧
    w.bytes ≠ (oneScalar 1 .int32).encodeStandard ((oneScalar 1 .int32).abs negInt) := by
  have hs : (oneScalar 1 .int32).cls.serialize negInt (WriteFixed.new 32) =
      .ok (.noErrors, ⟨32, [0x08, 0xFF, 0xFF, 0xFF, 0xFF, 0x0F] ++ List.replicate 26 0, 6⟩) := by
    decide +kernel
  refine ⟨_, hs, fun e => ?_⟩
  have := (C13_standard_iff _ _ negInt 32 _ (oneScalar_wf .int32) (oneScalar_reach .int32 (-1)) (by omega)
    (by decide +kernel) hs).mp e
  exact absurd (show (0 : Int) ≤ BitVec.toInt (-1 : BitVec 32) from this.1.1.1) (by decide)

/-- `message { int32 a = 1; }` with `a = 5`: the standard bytes. -/
example : ∃ w, (oneScalar 1 .int32).cls.serialize (⟨[], ((5 : BitVec 32), ()), ()⟩ : (oneScalar 1 .int32).Obj)
      (WriteFixed.new 32) = .ok (.noErrors, w) ∧
    w.bytes = (oneScalar 1 .int32).encodeStandard (((5 : BitVec 32), ()), ()) := by
  have hs : (oneScalar 1 .int32).cls.serialize (⟨[], ((5 : BitVec 32), ()), ()⟩ : (oneScalar 1 .int32).Obj)
      (WriteFixed.new 32) = .ok (.noErrors, ⟨32, [0x08, 0x05] ++ List.replicate 30 0, 2⟩) := by
    decide +kernel
  refine ⟨_, hs, (C13_standard_iff _ _ (⟨[], ((5 : BitVec 32), ()), ()⟩ : (oneScalar 1 .int32).Obj) 32 _
    (oneScalar_wf .int32) (oneScalar_reach .int32 5) (by omega) (by decide +kernel) hs).mpr ?_⟩
  refine And.intro (And.intro (And.intro ?_ trivial) trivial)
    (And.intro (And.intro (And.intro ?_ trivial) trivial) trivial)
  · show (0 : Int) ≤ BitVec.toInt (5 : BitVec 32); decide
  · intro h; exact nomatch (show (none : Option (BitVec 32)) = some 5 from h)

end EP
