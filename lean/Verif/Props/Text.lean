import Verif.Proof.Text
import Verif.Props.Support

/-!
# `to_string`: property C46
-/

namespace EP
open Spec

section
variable {fs : Fields} {os : Oneofs} (P : Printer)

local notation "T" => ElemTy.msg fs os

/-- `msg.to_string(view)` with a view of a whole array — TypeDefMsg.h:275-278. -/
def ElemTy.print (fs : Fields) (os : Oneofs) (P : Printer) (x : (ElemTy.msg fs os).Obj) (array : List Byte) :
    Res TextView :=
  (ElemTy.msg fs os).toString P [] x ⟨array, 0, array.length⟩ 0 none true

/-- The text of a message. -/
def ElemTy.shown (fs : Fields) (os : Oneofs) (P : Printer) (v : (ElemTy.msg fs os).Val) : List Byte :=
  (ElemTy.msg fs os).text P [] v 0 none true

/-- Full statement of **C46**: for every object and every array, `to_string` is defined, keeps the size of the
array, and the view it returns is what is left of it. -/
def C46_Statement (fs : Fields) (os : Oneofs) : Prop :=
  ∀ (P : Printer) (x : (ElemTy.msg fs os).Obj) (array : List Byte), (ElemTy.msg fs os).WF →
    (ElemTy.msg fs os).Reach x → array.length < 2147483648 →
    ∃ v, ElemTy.print fs os P x array = .ok v ∧ v.mem.length = array.length ∧ v.pos + v.size = array.length

/-- **C46**, exactly: what `to_string` does if every string shown is terminated by a NUL in its own array.
If the text fits in the array it is written at the beginning of the array, then a NUL (in place of the last
character if there is no room behind it), the rest of the array is left alone, and the view returned is
what is left.  Otherwise the behaviour is undefined.  Missing: the array too small (`C46_false`), and strings
that are not terminated (`C46_unterminated`). -/
theorem C46_exact_partial (x : (T).Obj) (array : List Byte) (h : (T).WF) (hx : (T).Reach x)
    (ht : (T).Terminated P [] x) (ha : array.length < 2147483648) :
    ElemTy.print fs os P x array =
      (let text := ElemTy.shown fs os P ((T).abs x)
       if text.length < array.length then
         .ok ⟨text ++ 0 :: array.drop (text.length + 1), text.length, array.length - text.length⟩
       else if text.length = array.length then .ok ⟨text.dropLast ++ [0], text.length, 0⟩
       else .ub) := by
  have hne : ElemTy.shown fs os P ((T).abs x) ≠ [] := by
    refine List.append_ne_nil_of_right_ne_nil _ ?_
    decide
  have key := ElemTy.toString_writes P (T) [] h x (ElemTy.reach_inv _ h hx) ht 0 none true
    ⟨array, 0, array.length⟩ ⟨Nat.zero_add _, ha⟩
  exact Eq.trans key (TextView.put_whole hne array)

/-- **C46** for messages without strings: `to_string` is defined exactly if the text fits in the array. -/
theorem C46_iff_partial (x : (T).Obj) (array : List Byte) (h : (T).WF) (hx : (T).Reach x)
    (hs : (T).hasStr = false) (ha : array.length < 2147483648) :
    (∃ v, ElemTy.print fs os P x array = .ok v) ↔ (ElemTy.shown fs os P ((T).abs x)).length ≤ array.length := by
  rw [C46_exact_partial P x array h hx (ElemTy.terminated_of_noStr P _ [] hs x) ha]
  dsimp only
  split
  · exact ⟨fun _ => by omega, fun _ => ⟨_, rfl⟩⟩
  · split
    · exact ⟨fun _ => by omega, fun _ => ⟨_, rfl⟩⟩
    · exact ⟨fun ⟨_, e⟩ => (nomatch e), fun _ => by omega⟩

end

/-- **C46**: two objects with the same value are shown alike, whatever calls produced them. -/
theorem C46_value_partial {fs : Fields} {os : Oneofs} (P : Printer) (x y : (ElemTy.msg fs os).Obj) (array : List Byte)
    (h : (ElemTy.msg fs os).WF) (hx : (ElemTy.msg fs os).Reach x) (hy : (ElemTy.msg fs os).Reach y)
    (tx : (ElemTy.msg fs os).Terminated P [] x) (ty : (ElemTy.msg fs os).Terminated P [] y)
    (ha : array.length < 2147483648) (hv : (ElemTy.msg fs os).abs x = (ElemTy.msg fs os).abs y) :
    ElemTy.print fs os P x array = ElemTy.print fs os P y array := by
  rw [C46_exact_partial P x array h hx tx ha, C46_exact_partial P y array h hy ty ha, hv]

namespace Sample

/-- A field with number `n` is called `fn`; floats are all shown as 1.5. -/
def printer : Printer where
  name p := ascii "f" ++ decimal p.head!
  isBytes _ := false
  float _ := ascii "1.500000"
  double _ := ascii "1.500000"
  float_ne _ := by decide
  double_ne _ := by decide

end Sample

/-- A full string (no room for a NUL) is read beyond its array, however large the array for the text is. -/
theorem C46_unterminated : ∃ x : (ElemTy.msg (.plain 1 (.str 2) .nil) .nil).Obj,
    (ElemTy.msg (.plain 1 (.str 2) .nil) .nil).Reach x ∧
    ∀ array, array.length < 2147483648 → ElemTy.print _ _ Sample.printer x array = .ub := by
  refine ⟨⟨[], (⟨2, [0x61, 0x62]⟩, ()), ()⟩, ?_, ?_⟩
  · have h : (ElemTy.msg (.plain 1 (.str 2) .nil) .nil).cls.deserialize 8
        (ReadFixed.holding 4 [0x0A, 0x02, 0x61, 0x62]) (ElemTy.cls _).init =
        .ok (.noErrors, ⟨4, [0x0A, 0x02, 0x61, 0x62], 4, 4⟩, ⟨[], (⟨2, [0x61, 0x62]⟩, ()), ()⟩) := rfl
    exact (ElemTy.msg (.plain 1 (.str 2) .nil) .nil).reach_decoded
      (Source.holding 4 (by omega) [0x0A, 0x02, 0x61, 0x62] (by decide)) 8 .init h
  · intro array ha
    show (TextView.print _ (ascii "{\n") >>= fun _ => .ub : Res _) = _
    have := TextView.Writes.print (text := ascii "{\n") (by decide) ⟨array, 0, array.length⟩ ⟨Nat.zero_add _, ha⟩
    dsimp only at this
    rw [this]
    split <;> rfl

/-- **C46** is false: `snprintf` returns the length of the whole text, so in an array that is too small the
pointer moves behind the end and the size that is left wraps. -/
theorem C46_false : ¬ ∀ fs os, C46_Statement fs os := by
  intro h
  obtain ⟨v, hv, _⟩ := h (.plain 1 (.scalar .uint32) .nil) .nil Sample.printer _ [0, 0, 0, 0]
    (by simp [ElemTy.WF, Fields.WF, Oneofs.WF, Fields.numbers, Oneofs.numbers]) .init (by decide)
  have : ElemTy.print (.plain 1 (.scalar .uint32) .nil) .nil Sample.printer
      (ElemTy.cls _).init [0, 0, 0, 0] = .ub := by
    decide +kernel
  rw [this] at hv
  exact nomatch hv

/-- What an array of 16 characters holds after `to_string` of `{ f1 = 7 }`. -/
example : ElemTy.print (.plain 1 (.scalar .uint32) .nil) .nil Sample.printer
    ⟨[], ((7#32 : BitVec 32), ()), ()⟩ (List.replicate 16 0x41) =
      .ok ⟨ascii "{\n  \"f1\": 7\n}" ++ [0, 0x41, 0x41], 13, 3⟩ := by
  decide +kernel

/-- The text of `Sample.value` has 431 characters. -/
example : (ElemTy.shown Sample.fields Sample.oneofs Sample.printer Sample.value).length = 431 := by decide +kernel

namespace Sample

/-- `string f1 = 1 [maxLength = 4]; repeated uint32 f2 = 2 [maxLength = 2]; oneof o { bool f3 = 3; }` -/
abbrev textFields : Fields := .plain 1 (.str 4) (.repeated 2 2 (.scalar .uint32) .nil)
abbrev textOneofs : Oneofs := .cons (.cons 3 (.scalar .boolean) .nil) .nil

/-- `f1 = "ab", f2 = [300], f3 = true` -/
def textObj : (ElemTy.msg textFields textOneofs).Obj :=
  ⟨[], (⟨2, [0x61, 0x62, 0, 0]⟩, ⟨1, [(300#32 : BitVec 32), (0#32 : BitVec 32)]⟩, ()), ⟨3, some (.inl true)⟩, ()⟩

theorem textObj_reach : (ElemTy.msg textFields textOneofs).Reach textObj := by
  have h : (ElemTy.msg textFields textOneofs).cls.deserialize 12
      (ReadFixed.holding 10 [0x0A, 0x02, 0x61, 0x62, 0x12, 0x02, 0xAC, 0x02, 0x18, 0x01]) (ElemTy.cls _).init =
      .ok (.noErrors, ⟨10, [0x0A, 0x02, 0x61, 0x62, 0x12, 0x02, 0xAC, 0x02, 0x18, 0x01], 10, 10⟩, textObj) := rfl
  exact (ElemTy.msg textFields textOneofs).reach_decoded (Source.holding 10 (by omega)
    [0x0A, 0x02, 0x61, 0x62, 0x12, 0x02, 0xAC, 0x02, 0x18, 0x01] (by decide)) 12 .init h

theorem textObj_terminated : (ElemTy.msg textFields textOneofs).Terminated printer [] textObj :=
  ⟨⟨Or.inr rfl, fun _ _ => trivial, trivial⟩, fun _ h => by cases h; trivial, trivial⟩

end Sample

theorem Sample.textObj_shown : ElemTy.shown Sample.textFields Sample.textOneofs Sample.printer
      ((ElemTy.msg Sample.textFields Sample.textOneofs).abs Sample.textObj) =
      ascii "{\n  \"f1\": \"ab\",\n  \"f2\": [\n          300\n        ],\n  \"f3\": true\n}" := by
  decide +kernel

/-- Shown in an array that has room. -/
example : ElemTy.print _ _ Sample.printer Sample.textObj (List.replicate 68 0x41) =
      .ok ⟨ascii "{\n  \"f1\": \"ab\",\n  \"f2\": [\n          300\n        ],\n  \"f3\": true\n}" ++ [0, 0x41, 0x41],
        65, 3⟩ := by
  rw [C46_exact_partial Sample.printer Sample.textObj _
    (by simp [ElemTy.WF, Fields.WF, Oneofs.WF, Alts.WF, Fields.numbers, Oneofs.numbers, Alts.numbers])
    Sample.textObj_reach Sample.textObj_terminated (by simp), Sample.textObj_shown]
  decide +kernel

end EP
