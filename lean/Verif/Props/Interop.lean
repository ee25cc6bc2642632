import Verif.Props.Malformed
import Verif.Props.Wire
import Verif.Proof.Refused

/-!
# Messages of other protobuf implementations: C61–C63
-/

namespace EP
open Spec

section
variable {β : Type} [ReadBuffer β] (M : ReadModel β) (fs : Fields) (os : Oneofs)
local notation "T" => ElemTy.msg fs os

/-! ## C61 -/

/-- **C61**, full statement: what a standard encoder writes for a value is decoded as this value. -/
def C61_Statement : Prop :=
  ∀ (β : Type) [ReadBuffer β] (M : ReadModel β) (v : (T).Val) (y : (T).Obj) (b : β) (fuel : Nat),
    (T).WF → NewOrCleared fs os y → (T).Fits v → M.Inv b → M.view b = (T).encodeStandard v →
    (M.view b).length < fuel →
    ∃ b' z, (T).cls.deserialize fuel b y = .ok (.noErrors, b', z) ∧ M.view b' = [] ∧ (T).abs z = v

/-- **C61** for values without negative enums.  In particular negative `int32` values, which standard encoders write
in ten bytes and this library in five, are understood. -/
theorem C61_standard_partial (v : (T).Val) (y : (T).Obj) (b : β) (fuel : Nat) (h : (T).WF)
    (hy : NewOrCleared fs os y) (hfit : (T).Fits v) (hb : M.Inv b) (hv : M.view b = (T).encodeStandard v)
    (hf : (M.view b).length < fuel) (hneg : (T).AllScalars ScalarTy.NonNegEnum v) :
    ∃ b' z, (T).cls.deserialize fuel b y = .ok (.noErrors, b', z) ∧ M.view b' = [] ∧ (T).abs z = v := by
  rw [hy.eq_init fs os h]
  have hinit : (T).abs (T).cls.init = (T).dflt := (ElemTy.base T h).init_abs
  have hm : (T).merge ((T).abs (T).cls.init) v = v := hinit ▸ ElemTy.merge_dflt T v
  have hv' : M.view b = (T).encodeWith ScalarTy.encEnum5 v := hv.trans (ElemTy.encodeWith_congr encEnum5_eq T v hneg)
  have hl := M.view_lt b hb
  obtain ⟨b', z, h1, h2, h3⟩ := C19_records_partial M fs os (T).cls.init _ b fuel h (Or.inr .init) hb
    (by
      rw [hv'] at hl ⊢
      exact records_encode readable_encEnum5 fs os h _ v (hm.symm ▸ hfit) hl) hf
  exact ⟨b', z, h1, h2, h3.trans hm⟩

/-- The ten bytes of a negative enum value. -/
theorem long_negative (v : BitVec 32) (hv : v.toInt < 0) (r : List Byte) :
    LongVarint 5 (ScalarTy.encStandard .enumeration v ++ r) := by
  have hn : 2147483648 ≤ v.toNat := by
    have := v.isLt
    rw [BitVec.toInt_eq_toNat_cond] at hv
    split at hv <;> omega
  have he := signExtend_neg_toNat v hn
  have hlen : (varint (v.signExtend 64).toNat).length = 10 := by
    have := v.isLt
    exact varint_length_eq 9 _ (by rw [he]; omega) (by omega)
  have hvar : IsVarint 10 (varint (v.signExtend 64).toNat) :=
    isVarint_varint 10 _ (by decide) (by have := (v.signExtend 64).isLt; omega)
  refine ⟨(varint (v.signExtend 64).toNat).take 5, (varint (v.signExtend 64).toNat).drop 5 ++ r, ?_, ?_, ?_⟩
  · rw [← List.append_assoc, List.take_append_drop]
    rfl
  · rw [List.length_take, hlen]
    rfl
  · have := (cut_of_isVarint (k := 10) (q := (varint (v.signExtend 64).toNat).take 5)
      (r := (varint (v.signExtend 64).toNat).drop 5)
      (by intro h; have := congrArg List.length h; simp [hlen] at this) (by rwa [List.take_append_drop]))
    exact this.2

/-- **C61**: every negative value of an enum field, as standard encoders write it, is refused with
`OVERLONG_VARINT`; the value of the field, and all other fields, are not changed. -/
theorem C61_negative_enum_partial {num : Nat} (s : Slot fs num .single (.scalar .enumeration)) (v : BitVec 32) (x : (T).Obj)
    (b : β) (tg r : List Byte) (fuel : Nat) (h : (T).WF) (hx : (T).Reach x) (hb : M.Inv b)
    (hv : M.view b = tg ++ (ScalarTy.encStandard .enumeration v ++ r)) (ht : Varint 32 tg (8 * num))
    (hneg : v.toInt < 0) (hf : (M.view b).length < fuel) :
    ∃ b' y, (T).cls.deserialize fuel b x = .ok (.overlongVarint, b', y) ∧ (T).abs y = (T).abs x := by
  obtain ⟨b', y, w, h1, _, h3, h4⟩ := s.decode_fail M h x (Or.inl ⟨hx, rfl⟩) fuel b tg _ .varint .overlongVarint
    (· = s.get ((T).abs x).1) hb hv ht (Or.inr ⟨rfl, Or.inr ⟨long_negative v hneg r, rfl⟩, rfl⟩) hf
  refine ⟨b', y, h1, ?_⟩
  rw [h4, h3]
  show (s.put _ (s.get _), _) = _
  rw [s.put_get]
  rfl

/-- **C61**, all other values: what a standard encoder writes for a value with a negative enum anywhere, at any depth, is
refused with `OVERLONG_VARINT`. -/
theorem C61_refused_partial (v : (T).Val) (y : (T).Obj) (b : β) (fuel : Nat) (h : (T).WF)
    (hy : NewOrCleared fs os y) (hfit : (T).Fits v) (hb : M.Inv b) (hv : M.view b = (T).encodeStandard v)
    (hf : (M.view b).length < fuel) (hneg : ¬ (T).AllScalars ScalarTy.NonNegEnum v) :
    ∃ b' z, (T).cls.deserialize fuel b y = .ok (.overlongVarint, b', z) := by
  rw [hy.eq_init fs os h]
  have hinit : (T).abs (T).cls.init = (T).dflt := (ElemTy.base T h).init_abs
  have hl := M.view_lt b hb
  have hbad : ∀ (s : ScalarTy) (v : s.Val) (r : List Byte), ¬ ScalarTy.NonNegEnum s v →
      s.Bad (ScalarTy.encStandard s v ++ r) .overlongVarint := by
    intro s v r hn
    cases s with
    | enumeration => exact .inr ⟨long_negative v (Int.not_le.mp hn) r, rfl⟩
    | _ => exact absurd trivial hn
  have hfail := message_refused encEnum5_eq readable_encEnum5 hbad
    (fun s => by cases s <;> first | trivial | exact Int.le_refl 0) (by decide) fs os
    (Fields.refused encEnum5_eq readable_encEnum5 hbad
      (fun s => by cases s <;> first | trivial | exact Int.le_refl 0) (by decide) fs)
    (Oneofs.refused encEnum5_eq readable_encEnum5 hbad
      (fun s => by cases s <;> first | trivial | exact Int.le_refl 0) (by decide) os) h v hfit hneg (by rw [hv] at hl; exact hl)
  obtain ⟨hi, hc⟩ := ElemTy.Tidy.inv_clean h (x := (T).cls.init) (Or.inr .init)
  obtain ⟨⟨e', b', z⟩, h1, h2, _⟩ := (ElemTy.body_law T h β M fuel b _ .overlongVarint (fun _ => True) hi hc hb
    (by rw [hv]; exact Eq.mpr (congrArg (fun u => (T).BodyFail _ u _ _) hinit) hfail) hf).exists
  dsimp only at h2
  subst h2
  exact ⟨b', z, h1⟩

/-- **C61**, exactly: the values that survive the way from a standard encoder are those without negative enums. -/
theorem C61_iff_partial (v : (T).Val) (y : (T).Obj) (b : β) (fuel : Nat) (h : (T).WF)
    (hy : NewOrCleared fs os y) (hfit : (T).Fits v) (hb : M.Inv b) (hv : M.view b = (T).encodeStandard v)
    (hf : (M.view b).length < fuel) :
    (∃ b' z, (T).cls.deserialize fuel b y = .ok (.noErrors, b', z) ∧ M.view b' = [] ∧ (T).abs z = v) ↔
      (T).AllScalars ScalarTy.NonNegEnum v := by
  refine ⟨fun ⟨b', z, h1, _⟩ => Classical.byContradiction fun hn => ?_,
    C61_standard_partial M fs os v y b fuel h hy hfit hb hv hf⟩
  obtain ⟨b'', z', h2⟩ := C61_refused_partial M fs os v y b fuel h hy hfit hb hv hf hn
  rw [h1] at h2
  injection h2 with h2
  injection h2 with h2 _
  exact absurd h2 (by decide)

/-! ## C62 -/

/-- **C62**, full statement: the elements of a repeated scalar field may come packed, in one record, or each in a
record of its own. -/
def C62_Statement : Prop :=
  ∀ (β : Type) [ReadBuffer β] (M : ReadModel β) (x : (T).Obj) (b : β) (num cap fuel : Nat) (sc : ScalarTy)
    (s : Slot fs num (.rep cap) (.scalar sc)) (tg p : List Byte) (ys : List sc.Val),
    (T).WF → (T).Reach x → M.Inv b → (M.view b).length < fuel → M.view b = tg ++ p →
    List.length (α := sc.Val) (s.get ((T).abs x).1) + ys.length ≤ cap →
    (Varint 32 tg (8 * num + 2) ∧ (∃ body, Delimited p body ∧ Packed (fun b y => sc.Payload b y) body ys) ∨
      Varint 32 tg (8 * num + wireNumber sc.wire) ∧ (∃ y, sc.Payload p y ∧ ys = [y])) →
    ∃ b' y, (T).cls.deserialize fuel b x = .ok (.noErrors, b', y) ∧
      (T).abs y = (s.put ((T).abs x).1 (List.append (α := sc.Val) (s.get ((T).abs x).1) ys), ((T).abs x).2)

/-- **C62** for packed records, into any object. -/
theorem C62_packed_partial {num cap : Nat} {sc : ScalarTy} (s : Slot fs num (.rep cap) (.scalar sc)) (x : (T).Obj) (b : β)
    (tg p body : List Byte) (ys : List sc.Val) (fuel : Nat) (h : (T).WF) (hx : (T).Reach x) (hb : M.Inv b)
    (hf : (M.view b).length < fuel) (hv : M.view b = tg ++ p)
    (hfit : List.length (α := sc.Val) (s.get ((T).abs x).1) + ys.length ≤ cap)
    (ht : Varint 32 tg (8 * num + 2)) (hd : Delimited p body) (hp : Packed (fun b y => sc.Payload b y) body ys) :
    ∃ b' y, (T).cls.deserialize fuel b x = .ok (.noErrors, b', y) ∧
      (T).abs y = (s.put ((T).abs x).1 (List.append (α := sc.Val) (s.get ((T).abs x).1) ys), ((T).abs x).2) := by
  refine s.decode_last M h x (Or.inl ⟨hx, rfl⟩) fuel b tg p
    (List.append (α := sc.Val) (s.get ((T).abs x).1) ys) hb hv ht ⟨?_, body, ys, hd, hp, rfl⟩ hf
  exact Nat.le_trans (Nat.le_of_eq (List.length_append (as := (s.get ((T).abs x).1 : List sc.Val)) (bs := ys))) hfit

/-- **C62**: no element in a record of its own is accepted, whatever the type, the object and the number of elements:
the decode ends with `INVALID_WIRETYPE`, and the object is not changed. -/
theorem C62_unpacked_refused_partial {num cap : Nat} {sc : ScalarTy} (s : Slot fs num (.rep cap) (.scalar sc)) (x : (T).Obj)
    (b : β) (tg r : List Byte) (fuel : Nat) (h : (T).WF) (hx : (T).Reach x) (hb : M.Inv b)
    (hv : M.view b = tg ++ r) (ht : Varint 32 tg (8 * num + wireNumber sc.wire)) (hf : 0 < fuel) :
    ∃ b' y, (T).cls.deserialize fuel b x = .ok (.invalidWiretype, b', y) ∧ M.view b' = r ∧ (T).abs y = (T).abs x :=
  C23_unchanged_partial M fs os s x b tg r fuel sc.wire h hx hb hv ht hf (by cases sc <;> exact nofun) rfl

/-! ## C63 -/

/-- **C63**, full statement: a tag is understood as the field number and wire type it consists of. -/
def C63_Statement : Prop :=
  ∀ (β : Type) [ReadBuffer β] (M : ReadModel β) (b b' : β) (tg r : List Byte) (wt : WireType) (num : Nat),
    M.Inv b → M.view b = tg ++ r → IsVarint 10 tg → deserializeTag b = .ok (.ok (wt, num), b') →
    groups tg = 8 * num + wireNumber wt

/-- What `deserializeTag` makes of a tag. -/
theorem tag_mod (b b' : β) (tg r : List Byte) (wt : WireType) (num : Nat) (hb : M.Inv b) (hv : M.view b = tg ++ r)
    (ht : IsVarint 10 tg) (hd : deserializeTag b = .ok (.ok (wt, num), b')) :
    tg.length ≤ 5 ∧ M.view b' = r ∧ groups tg % 2 ^ 32 = 8 * num + wireNumber wt := by
  obtain ⟨q, b₁, k, h1, _, _, _, h5, h6, _⟩ := C06_varint_classified M 32 (Or.inl rfl) 5 rfl b hb
  unfold deserializeTag at hd
  rw [h1, Res.ok_bind] at hd
  dsimp only at hd
  cases q with
  | error e => exact nomatch hd
  | ok x =>
    dsimp only at hd
    obtain ⟨bs, rest, e1, e2, rfl⟩ := (h6 x).mp rfl
    obtain ⟨u1, u2⟩ := e2.unique ht (e1.symm.trans hv)
    subst u1
    have hw : WireType.ofNat? ((BitVec.ofNat 32 (groups bs) &&& 7).toNat) = some wt ∧
        (BitVec.ofNat 32 (groups bs) >>> 3).toNat = num ∧ b₁ = b' := by
      revert hd
      split
      · intro hd
        cases hd
        exact ⟨by assumption, rfl, rfl⟩
      · intro hd
        exact nomatch hd
    obtain ⟨w1, w2, rfl⟩ := hw
    refine ⟨e2.length_le, ?_, ?_⟩
    · obtain ⟨⟨q', b₂⟩, g1, g2, g3, g4⟩ := (deserializeVarint_ok M 32 bs rest e2 b hb e1).exists
      rw [h1] at g1
      cases g1
      exact g4.trans u2
    · have h7 : ∀ n : Nat, WireType.ofNat? n = some wt → n = wireNumber wt := by
        intro n hn
        unfold WireType.ofNat? at hn
        split at hn <;> cases hn <;> rfl
      have a := h7 _ w1
      have e7 : (BitVec.ofNat 32 (groups bs) &&& 7).toNat = (BitVec.ofNat 32 (groups bs)).toNat % 8 := by
        rw [BitVec.toNat_and]
        exact Nat.and_two_pow_sub_one_eq_mod _ 3
      have e8 : (BitVec.ofNat 32 (groups bs) >>> 3).toNat = (BitVec.ofNat 32 (groups bs)).toNat / 8 := by
        rw [BitVec.toNat_ushiftRight, Nat.shiftRight_eq_div_pow]
      rw [e7] at a
      rw [e8] at w2
      rw [BitVec.toNat_ofNat] at a w2
      omega

/-- **C63** for every tag below `2^32`, in particular for every tag of at most four bytes. -/
theorem C63_tag_partial (b b' : β) (tg r : List Byte) (wt : WireType) (num : Nat) (hb : M.Inv b) (hv : M.view b = tg ++ r)
    (ht : IsVarint 10 tg) (hd : deserializeTag b = .ok (.ok (wt, num), b')) (hg : groups tg < 2 ^ 32) :
    groups tg = 8 * num + wireNumber wt := by
  have := (tag_mod M b b' tg r wt num hb hv ht hd).2.2
  omega

/-- **C63**, other tags: longer than five bytes they are refused, otherwise the bits from `2^32` on are dropped. -/
theorem C63_dropped_partial (b b' : β) (tg r : List Byte) (wt : WireType) (num : Nat) (hb : M.Inv b)
    (hv : M.view b = tg ++ r) (ht : IsVarint 10 tg) (hd : deserializeTag b = .ok (.ok (wt, num), b')) :
    tg.length ≤ 5 ∧ M.view b' = r ∧ groups tg % 2 ^ 32 = 8 * num + wireNumber wt :=
  tag_mod M b b' tg r wt num hb hv ht hd

/-- **C63**: an accepted tag is read right if and only if it is below `2^32`. -/
theorem C63_iff (b b' : β) (tg r : List Byte) (wt : WireType) (num : Nat) (hb : M.Inv b) (hv : M.view b = tg ++ r)
    (ht : IsVarint 10 tg) (hd : deserializeTag b = .ok (.ok (wt, num), b')) :
    groups tg = 8 * num + wireNumber wt ↔ groups tg < 2 ^ 32 := by
  have := (tag_mod M b b' tg r wt num hb hv ht hd).2.2
  omega

end

/-! ## What is false -/

theorem oneEnum_wf : (oneScalar 1 .enumeration).WF := by
  simp [ElemTy.WF, Fields.WF, Oneofs.WF, Fields.numbers, Oneofs.numbers]

/-- An enum value of -1, as standard encoders write it. -/
theorem C61_false : ¬ ∀ fs os, C61_Statement fs os := by
  intro h
  have he : (oneScalar 1 .enumeration).encodeStandard ((((-1 : BitVec 32), ()), ()) : (BitVec 32 × Unit) × Unit) =
    [0x08, 255, 255, 255, 255, 255, 255, 255, 255, 255, 1] := by decide +kernel
  obtain ⟨b', z, h1, _⟩ := h (.plain 1 (.scalar .enumeration) .nil) .nil ReadFixed (ReadFixed.model 16 (by omega))
    ((((-1 : BitVec 32), ()), ()) : (BitVec 32 × Unit) × Unit) (oneScalar 1 .enumeration).cls.init
    (ReadFixed.holding 16 [0x08, 255, 255, 255, 255, 255, 255, 255, 255, 255, 1]) 16 oneEnum_wf (Or.inl rfl)
    (by simp [ElemTy.Fits, Fields.Fits, Oneofs.Fits]) (ReadFixed.holding_inv _ _ _ (by decide))
    ((ReadFixed.holding_view ..).trans he.symm) (by rw [ReadFixed.holding_view]; decide)
  have e : (oneScalar 1 .enumeration).cls.deserialize 16
      (ReadFixed.holding 16 [0x08, 255, 255, 255, 255, 255, 255, 255, 255, 255, 1]) (oneScalar 1 .enumeration).cls.init =
    .ok (.overlongVarint, _, _) := rfl
  rw [e] at h1
  injection h1 with h1
  injection h1 with h1 _
  exact absurd h1 (by decide)

/-- `message { repeated uint32 a = 1 [maxLength = 2]; }` -/
abbrev repUint : ElemTy := .msg (.repeated 1 2 (.scalar .uint32) .nil) .nil

theorem repUint_wf : repUint.WF := by
  simp [ElemTy.WF, Fields.WF, Oneofs.WF, Fields.numbers, Oneofs.numbers]

/-- One element, 5, not packed. -/
theorem C62_false : ¬ ∀ fs os, C62_Statement fs os := by
  intro h
  obtain ⟨b', y, h1, _⟩ := h (.repeated 1 2 (.scalar .uint32) .nil) .nil ReadFixed (ReadFixed.model 16 (by omega))
    repUint.cls.init (ReadFixed.holding 16 [0x08, 0x05]) 1 2 16 .uint32 (.repeated _ _ _ _) [0x08] [0x05] [5#32] repUint_wf .init
    (ReadFixed.holding_inv _ _ _ (by decide)) (by rw [ReadFixed.holding_view]; decide) (ReadFixed.holding_view ..)
    (by decide) (Or.inr ⟨by decide, 5#32, ⟨5, by decide, rfl⟩, rfl⟩)
  have e : repUint.cls.deserialize 16 (ReadFixed.holding 16 [0x08, 0x05]) repUint.cls.init =
    .ok (.invalidWiretype, _, _) := rfl
  rw [e] at h1
  injection h1 with h1
  injection h1 with h1 _
  exact absurd h1 (by decide)

/-- The tag of field `2^29 + 1` is taken for that of field 1. -/
theorem C63_false : ¬ C63_Statement := by
  intro h
  have := h ReadFixed (ReadFixed.model 16 (by omega)) (ReadFixed.holding 16 [0x88, 0x80, 0x80, 0x80, 0x10, 0x05]) _
    [0x88, 0x80, 0x80, 0x80, 0x10] [0x05] .varint 1 (ReadFixed.holding_inv _ _ _ (by decide)) (ReadFixed.holding_view ..)
    (by decide) rfl
  exact absurd this (by decide)

/-- And the value is stored in field 1. -/
theorem C63_stored_false : ∃ b x, (oneScalar 1 .uint32).cls.deserialize 16
      (ReadFixed.holding 16 [0x88, 0x80, 0x80, 0x80, 0x10, 0x05]) (oneScalar 1 .uint32).cls.init = .ok (.noErrors, b, x) ∧
    (oneScalar 1 .uint32).abs x = (((5#32, ()), ()) : (BitVec 32 × Unit) × Unit) :=
  ⟨_, _, rfl, rfl⟩

/-! ## Cases in which the premises hold -/

/-- C61: an `int32` of -1, in ten bytes. -/
example : (oneScalar 1 .int32).AllScalars ScalarTy.NonNegEnum ((((-1 : BitVec 32), ()), ()) : (BitVec 32 × Unit) × Unit) ∧
    (oneScalar 1 .int32).encodeStandard ((((-1 : BitVec 32), ()), ()) : (BitVec 32 × Unit) × Unit) =
      [0x08, 255, 255, 255, 255, 255, 255, 255, 255, 255, 1] := by
  refine ⟨?_, by decide +kernel⟩
  simp [ElemTy.AllScalars, Fields.AllScalars, Oneofs.AllScalars, ScalarTy.NonNegEnum]

/-- C61: an element of -1 in a repeated enum, after one of 1. -/
example : (ElemTy.msg (.repeated 1 3 (.scalar .enumeration) .nil) .nil).WF ∧
    (ElemTy.msg (.repeated 1 3 (.scalar .enumeration) .nil) .nil).Fits ((([1#32, -1#32], ()), ()) : (List (BitVec 32) × Unit) × Unit) ∧
    ¬ (ElemTy.msg (.repeated 1 3 (.scalar .enumeration) .nil) .nil).AllScalars ScalarTy.NonNegEnum
      ((([1#32, -1#32], ()), ()) : (List (BitVec 32) × Unit) × Unit) ∧
    (ElemTy.msg (.repeated 1 3 (.scalar .enumeration) .nil) .nil).encodeStandard
      ((([1#32, -1#32], ()), ()) : (List (BitVec 32) × Unit) × Unit) =
      [0x0A, 11, 1, 255, 255, 255, 255, 255, 255, 255, 255, 255, 1] := by
  refine ⟨?_, ?_, fun h => ?_, by decide +kernel⟩
  · simp [ElemTy.WF, Fields.WF, Oneofs.WF, Fields.numbers, Oneofs.numbers]
  · exact ⟨⟨⟨by decide, fun _ _ => trivial⟩, trivial⟩, trivial⟩
  · exact absurd (h.1.1 (-1#32) (List.mem_cons_of_mem _ List.mem_cons_self)) (show ¬ (0 ≤ (-1#32).toInt) by decide)

/-- C62: the elements 5 and 300, packed. -/
example : Delimited [0x03, 0x05, 0xAC, 0x02] [0x05, 0xAC, 0x02] ∧
    Packed (fun b y => ScalarTy.uint32.Payload b y) [0x05, 0xAC, 0x02] [5#32, 300#32] :=
  ⟨⟨[0x03], by decide, rfl⟩, .cons (bs := [0x05]) (bs' := [0xAC, 0x02]) ⟨5, by decide, rfl⟩
    (.cons (bs := [0xAC, 0x02]) (bs' := []) ⟨300, by decide, rfl⟩ .nil)⟩

/-- C63: a tag in five bytes that is understood. -/
example : IsVarint 10 [0x88, 0x80, 0x80, 0x80, 0x00] ∧ groups [0x88, 0x80, 0x80, 0x80, 0x00] = 8 := by decide

end EP
