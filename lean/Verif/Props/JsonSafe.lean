import Verif.Proof.JsonSafe
import Verif.Props.Json
import Verif.Props.Values

/-!
# C79: for which declarations the text of every object is JSON
-/

namespace EP
open Spec Json

section
variable {fs : Fields} {os : Oneofs} (P : Printer)

local notation "T" => ElemTy.msg fs os

/-- **C79**, the declarations for which it holds: the text of every object is the JSON text of its value if and only if there
is no `string`, `float` or `double` field in any place where there can be a value, and every message has a field outside its
oneofs, or at most one oneof.  (`%f` does not give a number for every `float` and every `double`.) -/
theorem C79_declarations (hP : ∀ path, PlainText (P.name path)) (hF : ∃ v, isNumber (P.float v) = false)
    (hD : ∃ v, isNumber (P.double v) = false) (h : (T).WF) :
    (∀ x, (T).Reach x → parse (ElemTy.shown fs os P ((T).abs x)) = some ((T).json P [] ((T).abs x))) ↔ (T).Safe P [] := by
  constructor
  · intro hx
    refine (T).safe_of_readable P hF hD [] fun v hv => ?_
    obtain ⟨x, hr, rfl⟩ := (C98_values h v).mpr hv
    exact (C79_iff P hP _).mp (hx x hr)
  · intro hs x hx
    exact (C79_iff P hP _).mpr ((T).readable_of_safe P [] hs _ ((T).fits_abs x (ElemTy.reach_inv T h hx)))

end

/-! ## Examples -/

/-- `%f` of an infinite number gives `inf`. -/
def Sample.infPrinters : Printer := { Sample.infPrinter with
  double := fun v => if v = 0x7FF0000000000000#64 then ascii "inf" else ascii "1.500000"
  double_ne := fun v => by split <;> decide }

namespace C79Example

def fields : Fields := .plain 1 (.scalar .int32) (.repeated 2 0 (.str 3) .nil)
def two : Oneofs := .cons (.cons 3 (.scalar .boolean) .nil) (.cons (.cons 4 (.scalar .sint32) .nil) .nil)

theorem fields_wf (os : Oneofs) (h : os = two ∨ os = .nil) : (ElemTy.msg fields os).WF := by
  rcases h with rfl | rfl
  · refine ⟨⟨trivial, by decide, ⟨by decide, by decide⟩, trivial⟩, ⟨⟨trivial, trivial⟩, ⟨trivial, trivial⟩, trivial⟩, ?_, ?_⟩ <;>
      decide
  · refine ⟨⟨trivial, by decide, ⟨by decide, by decide⟩, trivial⟩, trivial, ?_, ?_⟩ <;> decide

/-- A message with two oneofs, a field outside them, and an array of strings that has no room. -/
example (x : (ElemTy.msg fields two).Obj) (hx : (ElemTy.msg fields two).Reach x) :
    parse (ElemTy.shown fields two Sample.infPrinters ((ElemTy.msg fields two).abs x)) =
      some ((ElemTy.msg fields two).json Sample.infPrinters [] ((ElemTy.msg fields two).abs x)) := by
  refine (C79_declarations Sample.infPrinters Sample.printer_plain ⟨0x7F800000#32, by decide +kernel⟩
    ⟨0x7FF0000000000000#64, by decide +kernel⟩ (fields_wf two (.inl rfl))).mpr ?_ x hx
  exact ⟨⟨⟨nofun, nofun⟩, .inl rfl, trivial⟩, ⟨⟨⟨nofun, nofun⟩, trivial⟩, ⟨⟨nofun, nofun⟩, trivial⟩, trivial⟩, nofun⟩

/-- Without the fields outside the oneofs there is an object of which the text is not right. -/
example : ¬ ∀ x, (ElemTy.msg .nil two).Reach x →
    parse (ElemTy.shown .nil two Sample.infPrinters ((ElemTy.msg .nil two).abs x)) =
      some ((ElemTy.msg .nil two).json Sample.infPrinters [] ((ElemTy.msg .nil two).abs x)) := by
  intro h
  have hw : (ElemTy.msg .nil two).WF := by
    refine ⟨trivial, ⟨⟨trivial, trivial⟩, ⟨trivial, trivial⟩, trivial⟩, ?_, ?_⟩ <;> decide
  have := (C79_declarations Sample.infPrinters Sample.printer_plain ⟨0x7F800000#32, by decide +kernel⟩
    ⟨0x7FF0000000000000#64, by decide +kernel⟩ hw).mp h
  exact this.2.2 rfl (.inl (by decide))

end C79Example

end EP
