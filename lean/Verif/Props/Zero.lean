import Verif.Spec.Without
import Verif.Props.Containers
import Verif.Props.Encode
import Verif.Props.Malformed

/-!
# Repeated fields of maximum length 0: property C87

`RepeatedFieldFixedSize<T, 0>` is what a user gets who sets the maximum length of an array that a program has no use for
to 0.  `std::min(index, MAX_LENGTH-1)` does not bound the index then: `MAX_LENGTH-1` is `2^32 - 1`.
-/

namespace EP
open Spec

section field
variable {t : ElemTy}

/-- Full statement of **C87**: no call on a repeated field, whatever its maximum length, has undefined behaviour. -/
def C87_Statement : Prop :=
  ∀ (t : ElemTy) (cap : Nat) (x : RepObj t.cls.State) (v : t.cls.State) (i : Nat), t.WF → cap < 2147483648 →
    t.RepReach cap x → t.Reach v →
    x.getConst cap i ≠ .ub ∧ x.setAt cap i v ≠ .ub ∧ x.modifyAt cap i pure ≠ .ub ∧ x.add cap v ≠ .ub ∧
      x.setData cap [v] ≠ .ub ∧ x.getConstChecked i ≠ .ub

theorem zero_state {x : RepObj t.cls.State} (h : t.WF) (hx : t.RepReach 0 x) : x = ⟨0, []⟩ := by
  have ix : (repSpec t.spec 0).Inv x :=
    ReachGen.keeps (ElemTy.rep_api_law h (by decide)) (rep_base (cap := 0) (ElemTy.base t h)).init_inv hx
  obtain ⟨h1, h2, _⟩ := ix
  obtain ⟨n, d⟩ := x
  have : d = [] := List.eq_nil_of_length_eq_zero h1
  have : n = 0 := Nat.le_zero.mp h2
  simp_all

/-- **C87** for the calls without an index and for `get_const(i, value)`: they report that there is no room, or no
element, and the field stays empty. -/
theorem C87_calls_partial (x : RepObj t.cls.State) (v : t.cls.State) (vs : List t.cls.State) (i : Nat) (h : t.WF)
    (hx : t.RepReach 0 x) :
    x.add 0 v = .ok (.arrayFull, x) ∧ x.setData 0 (v :: vs) = .ok (.arrayFull, x) ∧
      x.setData 0 [] = .ok (.noErrors, x) ∧ x.getConstChecked i = .ok (.error .indexOutOfBound) ∧
      x.clear = .ok x ∧ (repSpec t.spec 0).abs x = [] := by
  rw [zero_state h hx]
  exact ⟨rfl, rfl, rfl, rfl, rfl, rfl⟩

/-- **C87**: every call with an index is undefined. -/
theorem C87_index (x : RepObj t.cls.State) (v : t.cls.State) (i : Nat) (g : t.cls.State → Res t.cls.State) (h : t.WF)
    (hx : t.RepReach 0 x) : x.getConst 0 i = .ub ∧ x.setAt 0 i v = .ub ∧ x.modifyAt 0 i g = .ub := by
  rw [zero_state h hx]
  exact ⟨rfl, rfl, rfl⟩

/-- **C87** is false. -/
theorem C87_false : ¬ C87_Statement := fun h =>
  (h (.scalar .uint32) 0 _ 5#32 0 trivial (by decide) .init (scalar_value_reach _ _)).1
    (C87_index (t := .scalar .uint32) _ 5#32 0 pure trivial .init).1

/-- **C87**, exactly: with an index given, the maximum length must not be 0, and nothing else. -/
theorem C87_iff (cap : Nat) (x : RepObj t.cls.State) (v : t.cls.State) (i : Nat) (h : t.WF) (hc : cap < 2147483648)
    (hx : t.RepReach cap x) (hv : t.Reach v) :
    (x.getConst cap i ≠ .ub ↔ 0 < cap) ∧ (x.setAt cap i v ≠ .ub ↔ 0 < cap) ∧ (x.modifyAt cap i pure ≠ .ub ↔ 0 < cap) := by
  by_cases h0 : cap = 0
  · subst h0
    obtain ⟨h1, h2, h3⟩ := C87_index x v i pure h hx
    rw [h1, h2, h3]
    simp
  have h0 : 0 < cap := by omega
  have hb := ElemTy.base t h
  have ix : (repSpec t.spec cap).Inv x :=
    ReachGen.keeps (ElemTy.rep_api_law h hc) (rep_base (cap := cap) hb).init_inv hx
  have hk : min i (cap - 1) < x.data.length := by have := ix.1; omega
  have hv' := ElemTy.reach_inv t h hv
  refine ⟨⟨fun _ => h0, fun _ e => ?_⟩, ⟨fun _ => h0, fun _ e => ?_⟩, ⟨fun _ => h0, fun _ e => ?_⟩⟩
  · rw [RepObj.getConst, RepObj.limit_val h0 hc, arrayGet_of_lt hk] at e
    exact nomatch e
  · obtain ⟨hk, e'⟩ := modifyAt_eq h0 hc ix i (fun old => t.cls.assign old v)
    obtain ⟨z, e1, _⟩ := (hb.assign _ v (ix.2.2 _ (List.getElem_mem hk)) hv').exists
    rw [RepObj.setAt, e', e1] at e
    exact nomatch e
  · obtain ⟨hk, e'⟩ := modifyAt_eq h0 hc ix i (pure : t.cls.State → Res t.cls.State)
    rw [e'] at e
    exact nomatch e

end field

section message
variable {fs : Fields} {os : Oneofs} {num : Nat} {t : ElemTy}
local notation "T" => ElemTy.msg fs os

/-- **C87**: in every object a program can have the field is empty. -/
theorem C87_empty (s : Slot fs num (.rep 0) t) (x : (T).Obj) (h : (T).WF) (hx : (T).Reach x) :
    s.get ((T).abs x).1 = [] :=
  List.eq_nil_of_length_eq_zero (Nat.le_zero.mp (s.length_le (ElemTy.reach_inv T h hx)))

/-- An empty array. -/
def Card.Nothing (t : ElemTy) : (c : Card) → c.Val t → Prop
  | .rep _, v => v = ([] : List t.Val)
  | _, _ => False

theorem Slot.encode_without (sc : (s : ScalarTy) → s.Val → List Byte) {c : Card} (s : Slot fs num c t)
    (v : fs.Val) (h : c.Nothing t (s.get v)) :
    fs.encodeWith sc v = s.without.encodeWith sc (s.others v) := by
  induction s with
  | plain => exact h.elim
  | optional => exact h.elim
  | repeated num cap t rest =>
    have h : v.1 = [] := h
    show encodeRepeated t num (v.1.map (t.encodeWith sc)) ++ rest.encodeWith sc v.2 = rest.encodeWith sc v.2
    rw [h]
    unfold encodeRepeated
    split <;> simp
  | afterPlain m u s ih =>
    show _ ++ _ = _ ++ _
    rw [ih v.2 h]
    rfl
  | afterOptional m u s ih =>
    show _ ++ _ = _ ++ _
    rw [ih v.2 h]
    rfl
  | afterRepeated m k u s ih =>
    show _ ++ _ = _ ++ _
    rw [ih v.2 h]
    rfl

/-- **C87**: the message is encoded as if it had been declared without the field. -/
theorem C87_encoding (s : Slot fs num (.rep 0) t) (x : (T).Obj) (h : (T).WF) (hx : (T).Reach x) :
    (T).encode ((T).abs x) =
      (ElemTy.msg s.without os).encode (s.others ((T).abs x).1, ((T).abs x).2) := by
  show fs.encode _ ++ os.encode _ = s.without.encode _ ++ os.encode _
  rw [Fields.encode, s.encode_without _ _ (C87_empty s x h hx), Fields.encode]

variable {β : Type} [ReadBuffer β] (M : ReadModel β)

/-- **C87**: a packed record with an element for the field is refused, and nothing has changed. -/
theorem C87_refused {sc : ScalarTy} (s : Slot fs num (.rep 0) (.scalar sc)) (x : (T).Obj) (b : β)
    (tg r body : List Byte) (ys : List sc.Val) (fuel : Nat) (h : (T).WF) (hx : (T).Reach x) (hb : M.Inv b)
    (hf : (M.view b).length < fuel) (hne : ys ≠ []) (hv : M.view b = tg ++ r) (ht : Varint 32 tg (8 * num + 2))
    (hd : Delimited r body) (hp : Packed (fun b y => sc.Payload b y) body ys) :
    ∃ b' y, (T).cls.deserialize fuel b x = .ok (.arrayFull, b', y) ∧ (T).abs y = (T).abs x := by
  have he := C87_empty s x h hx
  have hpos := List.length_pos_iff.mpr hne
  obtain ⟨b', y, h1, h2⟩ := C25_packed_partial M fs os s x b tg r body ys fuel h hx hb hf
    
    (Nat.lt_of_lt_of_le hpos (Nat.le_add_left _ _)) hv ht hd hp
  refine ⟨b', y, h1, h2.trans ?_⟩
  have e : s.put ((T).abs x).1 ([] : List sc.Val) = ((T).abs x).1 := by
    exact (congrArg (s.put _) he).symm.trans (s.put_get _)
  exact congrArg (fun u => (u, ((T).abs x).2)) e

end message

/-! ## Examples: `message M { uint32 a = 1; repeated uint32 b = 2; }` with maximum length 0 for `b` -/

private def offFields : Fields := .plain 1 (.scalar .uint32) (.repeated 2 0 (.scalar .uint32) .nil)
private def off : ElemTy := .msg offFields .nil
private def slotOff : Slot offFields 2 (.rep 0) (.scalar .uint32) := .afterPlain _ _ (.repeated _ _ _ _)

private theorem off_wf : off.WF := by
  simp [off, offFields, ElemTy.WF, Fields.WF, Oneofs.WF, Fields.numbers, Oneofs.numbers]

/-- C87: the field in its first state; `get(0)` of it. -/
example : (RepObj.init (ElemTy.scalar .uint32).cls 0).add 0 (5#32) =
      .ok (.arrayFull, RepObj.init (ElemTy.scalar .uint32).cls 0) ∧
    (RepObj.init (ElemTy.scalar .uint32).cls 0).getConst 0 0 = .ub :=
  ⟨(C87_calls_partial (t := .scalar .uint32) _ 5#32 [] 0 trivial .init).1,
    (C87_index (t := .scalar .uint32) _ 5#32 0 pure trivial .init).1⟩

/-- C87: with maximum length 1 the index is bounded. -/
example : ((RepObj.init ((ElemTy.scalar .uint32).cls) 1)).getConst 1 7 ≠ .ub :=
  ((C87_iff (t := .scalar .uint32) 1 _ 0#32 7 trivial (by decide) .init (scalar_value_reach _ _)).1).mpr (by decide)

local notation "M8" => ReadFixed.model 8 (by omega)
local notation "hold" => ReadFixed.holding 8

/-- C87: the record `b: [7]`. -/
example : ∃ b' y, off.cls.deserialize 9 (hold [0x12, 0x01, 0x07]) off.cls.init = .ok (.arrayFull, b', y) ∧
    off.abs y = off.abs off.cls.init :=
  C87_refused M8 slotOff _ _ [0x12] [0x01, 0x07] [0x07] [7#32] 9 off_wf .init
    (ReadFixed.holding_inv _ _ _ (by decide)) (by decide) (by decide) (ReadFixed.holding_view _ _ _)
    (by decide) ⟨[0x01], by decide, rfl⟩ (.cons (bs := [0x07]) ⟨7, by decide, rfl⟩ .nil)

/-- C87: the encoding. -/
example : off.encode (off.abs off.cls.init) =
    (ElemTy.msg (.plain 1 (.scalar .uint32) .nil) .nil).encode ((0#32, ()), ()) :=
  C87_encoding slotOff _ off_wf .init

end EP
