import Verif.Proof.JsonOnly
import Verif.Props.Text

/-!
# `to_string` as JSON: property C79
-/

namespace EP
open Spec Json

section
variable {fs : Fields} {os : Oneofs} (P : Printer)

local notation "T" => ElemTy.msg fs os

/-- Full statement of **C79**: what `to_string` shows of an object is a JSON text, and the value of that text is the
object with the names of its fields and their values. -/
def C79_Statement (fs : Fields) (os : Oneofs) : Prop :=
  ∀ (P : Printer) (x : (ElemTy.msg fs os).Obj), (ElemTy.msg fs os).WF → (∀ path, PlainText (P.name path)) →
    (ElemTy.msg fs os).Reach x →
    parse (ElemTy.shown fs os P ((ElemTy.msg fs os).abs x)) = some ((ElemTy.msg fs os).json P [] ((ElemTy.msg fs os).abs x))

/-- **C79** for values that are readable: strings without characters that need an escape, `float` and `double` values
of which `%f` gives a number, and in messages without other fields the first oneof set if any is.  Missing: the
rest, of which it is false (`C79_comma_false`, `C79_quote_false`, `C79_infinity_false`). -/
theorem C79_readable_partial (hP : ∀ path, PlainText (P.name path)) (v : (T).Val) (h : (T).Readable P [] v) :
    parse (ElemTy.shown fs os P v) = some ((T).json P [] v) :=
  parse_message P hP h

/-- **C79**, exactly when it holds: the text is read as the right value if and only if the value is readable. -/
theorem C79_iff (hP : ∀ path, PlainText (P.name path)) (v : (T).Val) :
    parse (ElemTy.shown fs os P v) = some ((T).json P [] v) ↔ (T).Readable P [] v :=
  ⟨fun h => parse_only P hP h, fun h => parse_message P hP h⟩

/-- **C79** for the array that `to_string` has written: up to the position of the view returned it is the JSON text of the
object. -/
theorem C79_array_partial (hP : ∀ path, PlainText (P.name path)) (x : (T).Obj) (array : List Byte) (h : (T).WF)
    (hx : (T).Reach x) (ht : (T).Terminated P [] x) (ha : array.length < 2147483648) (hr : (T).Readable P [] ((T).abs x))
    (hl : (ElemTy.shown fs os P ((T).abs x)).length < array.length) :
    ∃ v, ElemTy.print fs os P x array = .ok v ∧ parse (v.mem.take v.pos) = some ((T).json P [] ((T).abs x)) := by
  have e := C46_exact_partial P x array h hx ht ha
  dsimp only at e
  rw [if_pos hl] at e
  refine ⟨_, e, ?_⟩
  dsimp only
  rw [List.take_left]
  exact C79_readable_partial P hP _ hr

/-- Exactly when this is the right text. -/
theorem C79_array_iff (hP : ∀ path, PlainText (P.name path)) (x : (T).Obj) (array : List Byte) (h : (T).WF)
    (hx : (T).Reach x) (ht : (T).Terminated P [] x) (ha : array.length < 2147483648)
    (hl : (ElemTy.shown fs os P ((T).abs x)).length < array.length) :
    ∃ v, ElemTy.print fs os P x array = .ok v ∧
      (parse (v.mem.take v.pos) = some ((T).json P [] ((T).abs x)) ↔ (T).Readable P [] ((T).abs x)) := by
  have e := C46_exact_partial P x array h hx ht ha
  dsimp only at e
  rw [if_pos hl] at e
  refine ⟨_, e, ?_⟩
  dsimp only
  rw [List.take_left]
  exact C79_iff P hP _

end

/-- **C79** for every value of a schema without `string`, `float` and `double` fields in which every message has a field
outside its oneofs or only one oneof. -/
theorem C79_schema_partial {fs : Fields} {os : Oneofs} (P : Printer) (hP : ∀ path, PlainText (P.name path))
    (hs : (ElemTy.msg fs os).AlwaysReadable P []) (v : (ElemTy.msg fs os).Val) :
    parse (ElemTy.shown fs os P v) = some ((ElemTy.msg fs os).json P [] v) :=
  C79_readable_partial P hP v (ElemTy.always_readable P _ [] hs v)

/-- **C79** fails for every message without plain fields in which a oneof that is not the first is set and the first is
not: the text begins with a comma inside the braces. -/
theorem C79_comma (P : Printer) (os : Oneofs) (v : (ElemTy.msg .nil os).Val) (h : os.Trailing v.2) :
    parse (ElemTy.shown .nil os P v) = none := by
  match os, v, h with
  | .cons a rest, ((), none, r), h =>
    obtain ⟨l, e⟩ := Oneofs.text_comma P rest [] r 2 h.2
    have : ElemTy.shown .nil (.cons a rest) P ((), none, r) = ascii "{\n,\n" ++ (l ++ ascii "\n}") := by
      simp only [ElemTy.shown, ElemTy.text, Fields.text, Oneofs.text, e, List.append_assoc]
      rfl
    rw [this]
    rfl

/-- In the names of fields, identifiers, nothing needs an escape. -/
theorem Sample.printer_plain : ∀ path, PlainText (Sample.printer.name path) := by
  intro path b hb
  rcases List.mem_append.mp hb with hb | hb
  · exact (show PlainText (ascii "f") from by show ∀ b ∈ _, _; decide) b hb
  · have hd := (decimal_spec path.head!).1 b hb
    rw [isDigit, Bool.and_eq_true, decide_eq_true_eq, decide_eq_true_eq] at hd
    refine ⟨?_, ?_, ?_⟩
    · rintro rfl; exact absurd hd.1 (by decide)
    · rintro rfl; exact absurd hd.2 (by decide)
    · omega

namespace Sample

/-- `oneof a { bool f1 = 1; }  oneof b { bool f2 = 2; }` -/
abbrev twoOneofs : Oneofs := .cons (.cons 1 (.scalar .boolean) .nil) (.cons (.cons 2 (.scalar .boolean) .nil) .nil)

/-- `f2 = true` -/
def twoObj : (ElemTy.msg .nil twoOneofs).Obj := ⟨[], (), ⟨0, none⟩, ⟨2, some (.inl true)⟩, ()⟩

theorem twoObj_reach : (ElemTy.msg .nil twoOneofs).Reach twoObj := by
  have h : (ElemTy.msg .nil twoOneofs).cls.deserialize 8 (ReadFixed.holding 2 [0x10, 0x01]) (ElemTy.cls _).init =
      .ok (.noErrors, ⟨2, [0x10, 0x01], 2, 2⟩, twoObj) := rfl
  exact (ElemTy.msg .nil twoOneofs).reach_decoded (Source.holding 2 (by omega) [0x10, 0x01] (by decide)) 8 .init h

end Sample

/-- **C79** is false: a leading comma. -/
theorem C79_comma_false : ¬ ∀ fs os, C79_Statement fs os := by
  intro h
  have h := h .nil Sample.twoOneofs Sample.printer Sample.twoObj
    (by simp [ElemTy.WF, Fields.WF, Oneofs.WF, Alts.WF, Fields.numbers, Oneofs.numbers, Alts.numbers])
    Sample.printer_plain Sample.twoObj_reach
  rw [C79_comma Sample.printer Sample.twoOneofs ((ElemTy.msg .nil Sample.twoOneofs).abs Sample.twoObj)
    ⟨rfl, fun hn => nomatch hn.1⟩] at h
  exact nomatch h

namespace Sample

/-- `string f1 = 1 [maxLength = 12];` -/
abbrev lineFields : Fields := .plain 1 (.str 12) .nil

/-- `f1 = x", "y": "z` -/
def lineObj : (ElemTy.msg lineFields .nil).Obj := ⟨[], (⟨11, ascii "x\", \"y\": \"z" ++ [0]⟩, ()), ()⟩

theorem lineObj_reach : (ElemTy.msg lineFields .nil).Reach lineObj := by
  have h : (ElemTy.msg lineFields .nil).cls.deserialize 20
      (ReadFixed.holding 13 ([0x0A, 0x0B] ++ ascii "x\", \"y\": \"z")) (ElemTy.cls _).init =
      .ok (.noErrors, ⟨13, [0x0A, 0x0B] ++ ascii "x\", \"y\": \"z", 13, 13⟩, lineObj) := rfl
  exact (ElemTy.msg lineFields .nil).reach_decoded (Source.holding 13 (by omega)
    ([0x0A, 0x0B] ++ ascii "x\", \"y\": \"z") (by decide)) 20 .init h

end Sample

/-- **C79** is false: a string is shown as it is, so that one with a quotation mark can end and other members follow.  What
is received in one field is then read by others as a field of another name. -/
theorem C79_quote_false : ∃ x : (ElemTy.msg Sample.lineFields .nil).Obj, (ElemTy.msg Sample.lineFields .nil).Reach x ∧
    parse (ElemTy.shown Sample.lineFields .nil Sample.printer ((ElemTy.msg Sample.lineFields .nil).abs x)) =
      some (.obj [(ascii "f1", .str (ascii "x")), (ascii "y", .str (ascii "z"))]) ∧
    (ElemTy.msg Sample.lineFields .nil).json Sample.printer [] ((ElemTy.msg Sample.lineFields .nil).abs x) =
      .obj [(ascii "f1", .str (ascii "x\", \"y\": \"z"))] := by
  have e : ElemTy.shown Sample.lineFields .nil Sample.printer
      ((ElemTy.msg Sample.lineFields .nil).abs Sample.lineObj) =
      [0x7B, 0x0A, 0x20, 0x20, 0x22, 0x66, 0x31, 0x22, 0x3A, 0x20, 0x22, 0x78, 0x22,
        0x2C, 0x20, 0x22, 0x79, 0x22, 0x3A, 0x20, 0x22, 0x7A, 0x22, 0x0A, 0x7D] := by
    decide +kernel
  exact ⟨Sample.lineObj, Sample.lineObj_reach, by rw [e]; rfl, rfl⟩

/-- A backslash and an `n` are shown as they are, and read as the end of a line. -/
example : parse (ElemTy.shown Sample.lineFields .nil Sample.printer (([0x5C#8, 0x6E#8], ()), ())) =
    some (.obj [(ascii "f1", .str [0x0A#8])]) := by
  have e : ElemTy.shown Sample.lineFields .nil Sample.printer (([0x5C#8, 0x6E#8], ()), ()) =
      [0x7B, 0x0A, 0x20, 0x20, 0x22, 0x66, 0x31, 0x22, 0x3A, 0x20, 0x22, 0x5C, 0x6E, 0x22, 0x0A, 0x7D] := by
    decide +kernel
  rw [e]; rfl

/-- `%f` of an infinite number gives `inf`. -/
def Sample.infPrinter : Printer := { Sample.printer with
  float := fun v => if v = 0x7F800000#32 then ascii "inf" else ascii "1.500000"
  float_ne := fun v => by split <;> decide }

/-- **C79** is false: infinity is shown as `inf`, which is no JSON value. -/
theorem C79_infinity_false : ∃ x : (ElemTy.msg (.plain 1 (.scalar .floatfixed) .nil) .nil).Obj,
    (ElemTy.msg (.plain 1 (.scalar .floatfixed) .nil) .nil).Reach x ∧
    parse (ElemTy.shown (.plain 1 (.scalar .floatfixed) .nil) .nil Sample.infPrinter
      ((ElemTy.msg (.plain 1 (.scalar .floatfixed) .nil) .nil).abs x)) = none := by
  have h : (ElemTy.msg (.plain 1 (.scalar .floatfixed) .nil) .nil).cls.deserialize 8
      (ReadFixed.holding 5 [0x0D, 0x00, 0x00, 0x80, 0x7F]) (ElemTy.cls _).init =
      .ok (.noErrors, ⟨5, [0x0D, 0x00, 0x00, 0x80, 0x7F], 5, 5⟩, ⟨[], ((0x7F800000#32 : BitVec 32), ()), ()⟩) := rfl
  exact ⟨_, (ElemTy.msg (.plain 1 (.scalar .floatfixed) .nil) .nil).reach_decoded (Source.holding 5 (by omega)
    [0x0D, 0x00, 0x00, 0x80, 0x7F] (by decide)) 8 .init h, by decide +kernel⟩

/-- The sample message `f1 = "ab", f2 = [300], f3 = true`. -/
example : parse (ElemTy.shown Sample.textFields Sample.textOneofs Sample.printer
      ((ElemTy.msg Sample.textFields Sample.textOneofs).abs Sample.textObj)) =
    some (.obj [(ascii "f1", .str (ascii "ab")), (ascii "f2", .arr [.int 300]), (ascii "f3", .bool true)]) := by
  have := C79_readable_partial (fs := Sample.textFields) (os := Sample.textOneofs) Sample.printer Sample.printer_plain
    ((ElemTy.msg Sample.textFields Sample.textOneofs).abs Sample.textObj)
    ⟨⟨Or.inr (by show ∀ b ∈ ([0x61, 0x62] : List Byte), _; decide), fun _ _ => trivial, trivial⟩, ⟨fun w hw => by cases hw; trivial, trivial⟩,
      fun e => nomatch e⟩
  exact this

end EP
