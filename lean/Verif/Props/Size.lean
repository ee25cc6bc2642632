import Verif.Props.Decode
import Verif.Proof.MaxSize

/-!
# Relaying and buffer sizes: C59, C60
-/

namespace EP
open Spec

section
variable {ω : Type} [WriteBuffer ω] (W : WriteModel ω) (fs : Fields) (os : Oneofs)
local notation "T" => ElemTy.msg fs os

/-- An encoding decoded into a new object. -/
theorem decode_fresh {β : Type} [ReadBuffer β] (R : ReadModel β) (v : (T).Val) (y : (T).Obj) (b : β) (fuel : Nat)
    (h : (T).WF) (hy : NewOrCleared fs os y) (hfit : (T).Fits v) (hb : R.Inv b) (hv : R.view b = (T).encode v)
    (hf : ((T).encode v).length < fuel) :
    ∃ b' z, (T).cls.deserialize fuel b y = .ok (.noErrors, b', z) ∧ R.view b' = [] ∧ (T).abs z = v := by
  rw [hy.eq_init fs os h]
  have hinit : (T).abs (T).cls.init = (T).dflt := (ElemTy.base T h).init_abs
  have hm : (T).merge ((T).abs (T).cls.init) v = v := by
    have := ElemTy.merge_dflt T v
    exact hinit ▸ this
  obtain ⟨b', z, h1, h2, h3⟩ := C18_merge_partial R fs os (T).cls.init v b fuel h (Or.inr .init) hb hv (hm.symm ▸ hfit) hf
  exact ⟨b', z, h1, h2, h3.trans hm⟩

/-- **C59**: what was serialized, decoded by a program with the same declaration and serialized again, is the same
bytes: the second `serialize` appends them, or as many of them as there is room for. -/
theorem C59_stable (x y : (T).Obj) (w w' : ω) (c : List Byte) (room : Nat)
    (h : (T).WF) (hx : (T).Reach x) (hy : NewOrCleared fs os y) (hw : W.Rep w c room)
    (hl : ((T).encode ((T).canon ((T).abs x))).length < 2 ^ 32)
    (hs : (T).cls.serialize x w = .ok (.noErrors, w')) :
    ∃ bs room', W.Rep w' (c ++ bs) room' ∧
      ∀ (β : Type) [ReadBuffer β] (R : ReadModel β) (b : β) (fuel : Nat), R.Inv b → R.view b = bs → bs.length < fuel →
        ∃ b' z, (T).cls.deserialize fuel b y = .ok (.noErrors, b', z) ∧ R.view b' = [] ∧
          ∀ (ω' : Type) [WriteBuffer ω'] (V : WriteModel ω') (u : ω') (d : List Byte) (left : Nat), V.Rep u d left →
            Appends V d left bs ((T).cls.serialize z u) := by
  have ha := C13_serialize_partial W fs os x w c room h hx hw hl
  rw [hs] at ha
  rcases ha with ⟨_, ha⟩ | ⟨ha, _⟩
  · refine ⟨_, _, ha, fun β _ R b fuel hb hv hf => ?_⟩
    obtain ⟨b', z, h1, h2, h3⟩ := decode_fresh fs os R _ y b fuel h hy
      (ElemTy.fits_canon T _ (ElemTy.fits_abs T x (ElemTy.reach_inv T h hx))) hb hv hf
    refine ⟨b', z, h1, h2, fun ω' _ V u d left hu => ?_⟩
    have hz : (T).Reach z := by
      refine (T).reach_decoded ⟨β, R, b, hb⟩ fuel ?_ h1
      rw [hy.eq_init fs os h]
      exact .init
    have he : (T).canon ((T).abs z) = (T).canon ((T).abs x) := by
      rw [h3]
      exact ElemTy.canon_idem T _
    have := C13_serialize_partial V fs os z u d left h hz hu (by rw [he]; exact hl)
    rw [he] at this
    exact this
  · exact nomatch ha

/-! ## C60 -/

/-- **C60**: no object of a declaration has a `serialized_size()` above the one computed from the declaration. -/
theorem C60_size_bound (x : (T).Obj) (h : (T).WF) (hx : (T).Reach x) (hl : (T).maxLen < 2 ^ 32) :
    ∃ n, (T).cls.serializedSize x = .ok n ∧ n ≤ (T).maxLen := by
  have hm := (T).encode_maxLen _ (ElemTy.fits_canon T _ (ElemTy.fits_abs T x (ElemTy.reach_inv T h hx)))
  exact ⟨_, C14_size_of_encoding fs os x h hx (by omega), hm⟩

/-- **C60**: so into a buffer with more room than that, every object can be serialized.  (As in C15, the bulk push of
a buffer may insist on one byte more than it pushes.) -/
theorem C60_always_fits (x : (T).Obj) (w : ω) (c : List Byte) (room : Nat) (h : (T).WF) (hx : (T).Reach x)
    (hw : W.Rep w c room) (hM : W.slack ≤ 1) (hl : (T).maxLen < 2 ^ 32) (hr : (T).maxLen < room) :
    ∃ w' bs room', (T).cls.serialize x w = .ok (.noErrors, w') ∧ W.Rep w' (c ++ bs) room' ∧ bs.length ≤ (T).maxLen := by
  have hm := (T).encode_maxLen _ (ElemTy.fits_canon T _ (ElemTy.fits_abs T x (ElemTy.reach_inv T h hx)))
  have hl' : ((T).encode ((T).canon ((T).abs x))).length < 2 ^ 32 := by omega
  obtain ⟨e, w', n, h1, h2, h3, h4, _⟩ := C15_buffer_full W fs os x w c room h hx hw hM hl'
  rw [C14_size_of_encoding fs os x h hx hl'] at h2
  cases h2
  have := h4 (by omega)
  subst this
  have ha := C13_serialize_partial W fs os x w c room h hx hw hl'
  rw [h1] at ha
  rcases ha with ⟨_, ha⟩ | ⟨ha, _⟩
  · exact ⟨w', _, _, h1, ha, hm⟩
  · exact nomatch ha

/-- **C60**: and the bound is reached, so no smaller one would do. -/
theorem C60_reached (h : (T).WF) (hl : (T).maxLen < 2 ^ 32) :
    ∃ x, (T).Reach x ∧ (T).cls.serializedSize x = .ok (T).maxLen := by
  have hw := (T).encode_worst h
  have hb := ReadFixed.holding_inv (T).maxLen hl ((T).encode (T).worst) (by omega)
  obtain ⟨b', z, h1, _, h3⟩ := decode_fresh fs os (ReadFixed.model (T).maxLen hl) (T).worst (T).cls.init _ ((T).maxLen + 1) h
    (Or.inl rfl) (T).worst_fits hb (ReadFixed.holding_view ..) (by omega)
  have hz : (T).Reach z := (T).reach_decoded ⟨ReadFixed, ReadFixed.model (T).maxLen hl, _, hb⟩ _ .init h1
  have he : (T).canon ((T).abs z) = (T).worst := by
    rw [h3]
    exact (T).worst_canon
  refine ⟨z, hz, ?_⟩
  have := C14_size_of_encoding fs os z h hz (by rw [he]; omega)
  rw [he, hw] at this
  exact this

end

/-! ## Cases in which the premises hold -/

/-- The largest message of `Outer` takes 145 bytes. -/
theorem outer_maxLen : Sample.outer.maxLen = 145 := by decide +kernel

/-- C60: a `WriteBufferFixedSize<146>` takes any object of `Outer`. -/
example (x : Sample.outer.Obj) (hx : Sample.outer.Reach x) :
    ∃ w' bs room', Sample.outer.cls.serialize x (WriteFixed.new 146) = .ok (.noErrors, w') ∧
      WriteFixed.model.Rep w' ([] ++ bs) room' ∧ bs.length ≤ 145 := by
  have := C60_always_fits WriteFixed.model _ _ x _ _ _ Sample.outer_wf hx (WriteFixed.new_rep 146 (by decide)) (by decide)
    (by rw [outer_maxLen]; decide) (by rw [outer_maxLen]; decide)
  rw [outer_maxLen] at this
  exact this

/-- C60: and there is an object that takes 145 bytes. -/
example : ∃ x, Sample.outer.Reach x ∧ Sample.outer.cls.serializedSize x = .ok 145 := by
  have := C60_reached _ _ Sample.outer_wf (by rw [outer_maxLen]; decide)
  rwa [outer_maxLen] at this

/-- C59: the premises hold of the sample object. -/
example : ∃ x w', Sample.outer.Reach x ∧ Sample.outer.cls.serialize x (WriteFixed.new 64) = .ok (.noErrors, w') ∧
    (Sample.outer.encode (Sample.outer.canon (Sample.outer.abs x))).length = 36 := by
  obtain ⟨x, h1, h2⟩ := Sample.reachable
  have he : Sample.outer.encode (Sample.outer.canon (Sample.outer.abs x)) = Sample.bytes := by
    rw [h2]
    decide +kernel
  have hlen : Sample.bytes.length = 36 := rfl
  have hl : (Sample.outer.encode (Sample.outer.canon (Sample.outer.abs x))).length < 2 ^ 32 := by rw [he]; decide
  obtain ⟨e, w', n, g1, g2, _, g4, _⟩ := C15_buffer_full WriteFixed.model _ _ x _ _ _ Sample.outer_wf h1
    (WriteFixed.new_rep 64 (by decide)) (by decide) hl
  rw [C14_size_of_encoding _ _ x Sample.outer_wf h1 hl, he, hlen] at g2
  cases g2
  have := g4 (by decide)
  subst this
  exact ⟨x, w', h1, g1, by rw [he, hlen]⟩

end EP
