import Verif.Proof.AsC
import Verif.Props.Json

/-!
# `to_string` of every object: property C46 exactly, and C79 for strings read as C reads them
-/

namespace EP
open Spec Json

section
variable {fs : Fields} {os : Oneofs} (P : Printer)

local notation "T" => ElemTy.msg fs os

/-- **C46**, exactly, for every object and every array.  If a `string` that is shown has no NUL in its array, the behaviour
is undefined.  Otherwise the text is that of the object with each `string` up to its first NUL; where it fits, where it
does not fit as in `C46_exact_partial`.  (Partial because the full statement is false.) -/
theorem C46_all_partial (x : (T).Obj) (array : List Byte) (h : (T).WF) (hx : (T).Reach x)
    (ha : array.length < 2147483648) :
    ElemTy.print fs os P x array =
      match (T).asC P [] x with
      | none => .ub
      | some v =>
        let text := ElemTy.shown fs os P v
        if text.length < array.length then
          .ok ⟨text ++ 0 :: array.drop (text.length + 1), text.length, array.length - text.length⟩
        else if text.length = array.length then .ok ⟨text.dropLast ++ [0], text.length, 0⟩
        else .ub := by
  have key := ElemTy.toString_shows P (T) [] h x (ElemTy.reach_inv _ h hx) 0 none true
  cases hc : (T).asC P [] x with
  | none =>
    rw [hc] at key
    exact key ⟨array, 0, array.length⟩ ⟨Nat.zero_add _, ha⟩
  | some v =>
    rw [hc] at key
    have hne : ElemTy.shown fs os P v ≠ [] := by
      refine List.append_ne_nil_of_right_ne_nil _ ?_
      decide
    have := key ⟨array, 0, array.length⟩ ⟨Nat.zero_add _, ha⟩
    exact this.trans (TextView.put_whole hne array)

/-- When `to_string` has no undefined behaviour: exactly if every string shown has a NUL in its array and the text is not
longer than the array. -/
theorem C46_defined_iff (x : (T).Obj) (array : List Byte) (h : (T).WF) (hx : (T).Reach x)
    (ha : array.length < 2147483648) :
    (∃ r, ElemTy.print fs os P x array = .ok r) ↔
      ∃ v, (T).asC P [] x = some v ∧ (ElemTy.shown fs os P v).length ≤ array.length := by
  rw [C46_all_partial P x array h hx ha]
  cases (T).asC P [] x with
  | none => exact ⟨fun ⟨_, e⟩ => (nomatch e), fun ⟨_, e, _⟩ => (nomatch e)⟩
  | some v =>
    dsimp only
    split
    · exact ⟨fun _ => ⟨v, rfl, by omega⟩, fun _ => ⟨_, rfl⟩⟩
    · split
      · exact ⟨fun _ => ⟨v, rfl, by omega⟩, fun _ => ⟨_, rfl⟩⟩
      · exact ⟨fun ⟨_, e⟩ => (nomatch e), fun ⟨w, e, hw⟩ => by injection e with e; subst e; omega⟩

/-- Whenever `to_string` has no undefined behaviour it does what **C46** says: the array keeps its size and the view
returned is what is left of it. -/
theorem C46_whenever (x : (T).Obj) (array : List Byte) (h : (T).WF) (hx : (T).Reach x)
    (ha : array.length < 2147483648) {r : TextView} (hr : ElemTy.print fs os P x array = .ok r) :
    r.mem.length = array.length ∧ r.pos + r.size = array.length ∧
      ∃ v, (T).asC P [] x = some v ∧ r.pos = (ElemTy.shown fs os P v).length ∧
        r.mem.take (min r.pos (array.length - 1)) = (ElemTy.shown fs os P v).take (array.length - 1) := by
  rw [C46_all_partial P x array h hx ha] at hr
  cases hc : (T).asC P [] x with
  | none =>
    rw [hc] at hr
    exact nomatch hr
  | some v =>
    rw [hc] at hr
    dsimp only at hr
    split at hr
    · next hl =>
      injection hr with hr
      subst hr
      refine ⟨?_, ?_, v, rfl, rfl, ?_⟩
      · simp; omega
      · dsimp only; omega
      · dsimp only
        rw [Nat.min_eq_left (by omega), List.take_left, List.take_of_length_le (by omega)]
    · split at hr
      · next hl =>
        injection hr with hr
        subst hr
        have hne : 0 < (ElemTy.shown fs os P v).length := List.length_pos_iff.mpr
          (List.append_ne_nil_of_right_ne_nil _ (by decide))
        refine ⟨?_, ?_, v, rfl, rfl, ?_⟩
        · simp; omega
        · dsimp only; omega
        · dsimp only
          rw [Nat.min_eq_right (by omega), ← hl]
          rw [show (ElemTy.shown fs os P v).length - 1 = ((ElemTy.shown fs os P v).dropLast).length by simp,
            List.take_left, List.length_dropLast, List.dropLast_eq_take]
      · exact nomatch hr

/-- **C79** for strings read as C reads them: whenever there is no undefined behaviour and there is room, the text in the
array is that of a JSON object with these strings. -/
theorem C79_asC_partial (hP : ∀ path, PlainText (P.name path)) (x : (T).Obj) (array : List Byte) (h : (T).WF)
    (hx : (T).Reach x) (ha : array.length < 2147483648) {v : (T).Val} (hv : (T).asC P [] x = some v)
    (hr : (T).Readable P [] v) (hl : (ElemTy.shown fs os P v).length < array.length) :
    ∃ r, ElemTy.print fs os P x array = .ok r ∧ parse (r.mem.take r.pos) = some ((T).json P [] v) := by
  have e := C46_all_partial P x array h hx ha
  rw [hv] at e
  dsimp only at e
  rw [if_pos hl] at e
  refine ⟨_, e, ?_⟩
  dsimp only
  rw [List.take_left]
  exact C79_readable_partial P hP _ hr

end

namespace Sample

/-- `f1` received with a NUL inside: `"a\\0b"`. -/
def nulObj : (ElemTy.msg textFields textOneofs).Obj :=
  ⟨[], (⟨3, [0x61, 0, 0x62, 0]⟩, ⟨0, [(0#32 : BitVec 32), (0#32 : BitVec 32)]⟩, ()), ⟨0, none⟩, ()⟩

theorem nulObj_reach : (ElemTy.msg textFields textOneofs).Reach nulObj := by
  have h : (ElemTy.msg textFields textOneofs).cls.deserialize 12
      (ReadFixed.holding 5 [0x0A, 0x03, 0x61, 0x00, 0x62]) (ElemTy.cls _).init =
      .ok (.noErrors, ⟨5, [0x0A, 0x03, 0x61, 0x00, 0x62], 5, 5⟩, nulObj) := rfl
  exact (ElemTy.msg textFields textOneofs).reach_decoded (Source.holding 5 (by omega)
    [0x0A, 0x03, 0x61, 0x00, 0x62] (by decide)) 12 .init h

end Sample

/-- A string of three characters with a NUL inside is not `Terminated`, and is shown with one. -/
example : (ElemTy.msg Sample.textFields Sample.textOneofs).asC Sample.printer [] Sample.nulObj =
    some ((([0x61] : List Byte), ([] : List (BitVec 32)), ()), (none, ())) := rfl

example : ∃ r, ElemTy.print _ _ Sample.printer Sample.nulObj (List.replicate 60 0x41) = .ok r :=
  (C46_defined_iff Sample.printer Sample.nulObj _
    (by simp [ElemTy.WF, Fields.WF, Oneofs.WF, Alts.WF, Fields.numbers, Oneofs.numbers, Alts.numbers])
    Sample.nulObj_reach (by simp)).mpr ⟨_, rfl, by decide +kernel⟩

/-- A full string is shown by nothing. -/
example : (ElemTy.msg (.plain 1 (.str 2) .nil) .nil).asC Sample.printer [] ⟨[], (⟨2, [0x61, 0x62]⟩, ()), ()⟩ = none := rfl

end EP
