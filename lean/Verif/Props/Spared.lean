import Verif.Props.Malformed
import Verif.Props.Objects
import Verif.Proof.Kept

/-!
# Exactly when a refused field is left as it was: C23, C24, C52
-/

namespace EP
open Spec

section
variable {β : Type} [ReadBuffer β] (M : ReadModel β) (fs : Fields) (os : Oneofs)
local notation "T" => ElemTy.msg fs os

/-- A field that is `optional` and absent. -/
def Card.Absent : (c : Card) → (t : ElemTy) → c.Val t → Prop
  | .single, _, _ => False
  | .opt, _, v => v = none
  | .rep _, _, _ => False

theorem Card.marked_iff : (c : Card) → (t : ElemTy) → (v : c.Val t) → (c.observe t true (c.stored t v) = v ↔ ¬ c.Absent t v)
  | .single, _, _ => ⟨fun _ h => h, fun _ => rfl⟩
  | .opt, _, none => ⟨fun h => (nomatch h), fun h => absurd rfl h⟩
  | .opt, _, some _ => ⟨fun _ h => (nomatch h), fun _ => rfl⟩
  | .rep _, _, _ => ⟨fun _ h => h, fun _ => rfl⟩

/-- **C23**, fields: the value of the message is unchanged if and only if the field is not an absent `optional` one. -/
theorem C23_field_iff {num : Nat} {c : Card} {t : ElemTy} (s : Slot fs num c t) (x : (T).Obj) (b : β)
    (tg r : List Byte) (fuel : Nat) (wt : WireType) (h : (T).WF) (hx : (T).Reach x) (hb : M.Inv b)
    (hv : M.view b = tg ++ r) (ht : Varint 32 tg (8 * num + wireNumber wt)) (hf : 0 < fuel)
    (hwt : wt ≠ c.wire t) :
    ∃ b' y, (T).cls.deserialize fuel b x = .ok (.invalidWiretype, b', y) ∧ M.view b' = r ∧
      ((T).abs y = (T).abs x ↔ ¬ c.Absent t (s.get ((T).abs x).1)) := by
  obtain ⟨b', y, h1, _, h3, _, h5⟩ := C23_field_partial M fs os s x b tg r fuel wt h hx hb hv ht hf hwt
  refine ⟨b', y, h1, h3, ?_⟩
  rw [h5, ← c.marked_iff]
  constructor
  · intro e
    have := congrArg (fun v : (T).Val => s.get v.1) e
    simpa only [s.get_put] using this
  · intro e
    rw [e, s.put_get]
    rfl

/-- **C23**, members of a oneof: if and only if no member of the oneof is set. -/
theorem C23_member_iff {num : Nat} {a : Alts} {t : ElemTy} (s : OneofSlot os a) (m : Member a num t)
    (x : (T).Obj) (b : β) (tg r : List Byte) (fuel : Nat) (wt : WireType) (h : (T).WF) (hx : (T).Reach x) (hb : M.Inv b)
    (hv : M.view b = tg ++ r) (ht : Varint 32 tg (8 * num + wireNumber wt)) (hf : 0 < fuel) (hwt : wt ≠ t.wire) :
    ∃ b' y, (T).cls.deserialize fuel b x = .ok (.invalidWiretype, b', y) ∧ M.view b' = r ∧
      ((T).abs y = (T).abs x ↔ s.get ((T).abs x).2 = none) := by
  obtain ⟨b', y, h1, _, h3, h5⟩ := C23_member_partial M fs os s m x b tg r fuel wt h hx hb hv ht hf hwt
  refine ⟨b', y, h1, h3, ?_⟩
  rw [h5]
  constructor
  · intro e
    have := congrArg (fun v : (T).Val => s.get v.2) e
    simpa only [s.get_put] using this.symm
  · intro e
    rw [← e, s.put_get]
    rfl

/-- **C24**, an `optional` string that is too long: the message is unchanged if and only if the field is present. -/
theorem C24_optional_iff {num cap : Nat} (s : Slot fs num .opt (.str cap)) (x : (T).Obj)
    (b : β) (tg p r : List Byte) (n fuel : Nat) (h : (T).WF) (hx : (T).Reach x) (hb : M.Inv b)
    (hv : M.view b = tg ++ (p ++ r)) (ht : Varint 32 tg (8 * num + 2)) (hp : Varint 32 p n)
    (hn : cap < n) (hf : (M.view b).length < fuel) :
    ∃ b' y, (T).cls.deserialize fuel b x = .ok (.arrayFull, b', y) ∧
      ((T).abs y = (T).abs x ↔ ¬ Card.Absent .opt (.str cap) (s.get ((T).abs x).1)) := by
  obtain ⟨b', y, h1, h5⟩ := C24_too_long_optional_partial M fs os s x b tg p r n fuel h hx hb hv ht hp hn hf
  refine ⟨b', y, h1, ?_⟩
  rw [h5, ← Card.marked_iff]
  constructor
  · intro e
    have := congrArg (fun v : (T).Val => s.get v.1) e
    exact (s.get_put _ _).symm.trans this
  · intro e
    have e : some (Option.getD (s.get ((T).abs x).1) []) = s.get ((T).abs x).1 := e
    rw [e, s.put_get]
    rfl

/-- **C24**, a string in a oneof that is too long: if and only if no member of the oneof is set. -/
theorem C24_member_iff {num cap : Nat} {a : Alts} (s : OneofSlot os a)
    (m : Member a num (.str cap)) (x : (T).Obj) (b : β) (tg p r : List Byte) (n fuel : Nat) (h : (T).WF)
    (hx : (T).Reach x) (hb : M.Inv b) (hv : M.view b = tg ++ (p ++ r)) (ht : Varint 32 tg (8 * num + 2))
    (hp : Varint 32 p n) (hn : cap < n) (hf : (M.view b).length < fuel) :
    ∃ b' y, (T).cls.deserialize fuel b x = .ok (.arrayFull, b', y) ∧
      ((T).abs y = (T).abs x ↔ s.get ((T).abs x).2 = none) := by
  obtain ⟨b', y, h1, h5⟩ := C24_too_long_member_partial M fs os s m x b tg p r n fuel h hx hb hv ht hp hn hf
  refine ⟨b', y, h1, ?_⟩
  rw [h5]
  constructor
  · intro e
    have := congrArg (fun v : (T).Val => s.get v.2) e
    simpa only [s.get_put] using this.symm
  · intro e
    rw [← e, s.put_get]
    rfl

/-- **C24**, a string in a oneof of which bytes are missing: `END_OF_BUFFER`, and the oneof is unset. -/
theorem C24_short_member {num cap : Nat} {a : Alts} (s : OneofSlot os a)
    (m : Member a num (.str cap)) (x : (T).Obj) (b : β) (tg p r : List Byte) (n fuel : Nat) (h : (T).WF)
    (hx : (T).Reach x) (hb : M.Inv b) (hv : M.view b = tg ++ (p ++ r)) (ht : Varint 32 tg (8 * num + 2))
    (hp : Varint 32 p n) (hn : n ≤ cap) (hr : r.length < n) (hf : (M.view b).length < fuel) :
    ∃ b' y, (T).cls.deserialize fuel b x = .ok (.endOfBuffer, b', y) ∧
      (T).abs y = (((T).abs x).1, s.put ((T).abs x).2 none) := by
  obtain ⟨b', y, h1, _, h3⟩ := m.decode_fail M s h x (ElemTy.reach_inv T h hx) trivial fuel b tg (p ++ r)
    .lengthDelimited .endOfBuffer hb hv ht
    (Or.inr ⟨rfl, Or.inr ⟨p, r, n, rfl, hp, Or.inr ⟨hn, hr, rfl, trivial⟩⟩⟩) hf
  exact ⟨b', y, h1, h3⟩

/-- **C52**: reading a member of a oneof is defined if and only if the member is the one that is set, and then it is what
was stored. -/
theorem C52_iff {a : Alts} {num : Nat} {t : ElemTy} (s : OneofSlot os a) (m : Member a num t) (x : (T).Obj)
    (h : (T).WF) (hx : (T).Reach x) :
    (m.get (fs := fs) s x ≠ .ub ↔ m.has (fs := fs) s x = true) ∧
    ∀ z, m.get (fs := fs) s x = .ok z → s.get ((T).abs x).2 = some (m.inj (t.abs z)) := by
  obtain ⟨h1, h2⟩ := C28_get s m x h hx
  cases hm : m.has (fs := fs) s x with
  | false =>
    rw [h2 hm]
    exact ⟨⟨fun e => absurd rfl e, fun e => nomatch e⟩, fun _ e => nomatch e⟩
  | true =>
    obtain ⟨z, e, g⟩ := h1 hm
    rw [e]
    exact ⟨⟨fun _ => rfl, fun _ e => nomatch e⟩, fun _ e => by cases e; exact g⟩

end

/-! ## Examples -/

/-- A new object of `oneOptional`: the field is absent. -/
example : Card.Absent .opt (.scalar .uint32)
    ((Slot.optional 1 (.scalar .uint32) .nil).get (oneOptional.abs oneOptional.cls.init).1) := rfl

/-- After it was received it is not, and then a wrong wire type changes nothing. -/
example : ∃ x, oneOptional.Reach x ∧ ¬ Card.Absent .opt (.scalar .uint32)
    ((Slot.optional 1 (.scalar .uint32) .nil).get (oneOptional.abs x).1) :=
  ⟨⟨[1#32], (5#32, ()), ()⟩,
    oneOptional.reach_decoded (Source.holding 8 (by omega) [0x08, 0x05] (by decide)) 9 (e := .noErrors)
      (b := ⟨8, [0x08, 0x05, 0, 0, 0, 0, 0, 0], 2, 2⟩) .init rfl, fun h => nomatch h⟩

/-- `"ab"` in the oneof: `get_a()` is defined, and a string of which bytes are missing makes it undefined. -/
example : (Member.here 1 (.str 4) .nil).get (fs := .nil) (.here _ .nil) abOneof = .ok ⟨2, [0x61, 0x62, 0, 0]⟩ ∧
    oneOneof.cls.deserialize 9 (ReadFixed.holding 8 [0x0A, 0x03, 0x63]) abOneof =
      .ok (.endOfBuffer, ⟨8, [0x0A, 0x03, 0x63, 0, 0, 0, 0, 0], 3, 3⟩, ⟨[], (), (⟨0, none⟩, ())⟩) := ⟨rfl, rfl⟩

end EP
