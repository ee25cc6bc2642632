import Verif.Props.Text
import Verif.Props.Containers

/-!
# For which declarations: C46 and C50

For none: of an array without room for the text `to_string` makes undefined behaviour, already for a new object.
-/

namespace EP
open Spec

mutual
theorem ElemTy.terminated_init (P : Printer) : (t : ElemTy) → (path : List Nat) → t.WF → t.Terminated P path t.cls.init
  | .scalar _, _, _ => trivial
  | .str cap, _, h => by
    obtain ⟨k, rfl⟩ : ∃ k, cap = k + 1 := ⟨cap - 1, by have := h.1; omega⟩
    exact Or.inr rfl
  | .msg fs os, path, h => by
    simp only [ElemTy.WF] at h
    exact ⟨fs.terminated_init P 0 path h.1, os.terminated_init P path h.2.1⟩
theorem Fields.terminated_init (P : Printer) : (fs : Fields) → (idx : Nat) → (path : List Nat) → fs.WF →
    fs.Terminated P idx path (fs.cls idx).init
  | .nil, _, _, _ => trivial
  | .plain num t rest, idx, path, h => by
    simp only [Fields.WF] at h
    exact ⟨t.terminated_init P (num :: path) h.1, rest.terminated_init P idx path h.2⟩
  | .optional num t rest, idx, path, h => by
    simp only [Fields.WF] at h
    exact ⟨t.terminated_init P (num :: path) h.1, rest.terminated_init P (idx + 1) path h.2⟩
  | .repeated num cap t rest, idx, path, h => by
    simp only [Fields.WF] at h
    exact ⟨fun e he => (nomatch he), rest.terminated_init P idx path h.2.2⟩
theorem Oneofs.terminated_init (P : Printer) : (os : Oneofs) → (path : List Nat) → os.WF → os.Terminated P path os.cls.init
  | .nil, _, _ => trivial
  | .cons a rest, path, h => by
    simp only [Oneofs.WF] at h
    exact ⟨fun u hu => (nomatch hu), rest.terminated_init P path h.2⟩
end

section
variable (fs : Fields) (os : Oneofs) (P : Printer)
local notation "T" => ElemTy.msg fs os

/-- **C46** holds for no declaration: a new object and any array that is too small for its text. -/
theorem C46_never (h : (T).WF) (array : List Byte) (ha : array.length < 2147483648)
    (hs : array.length < (ElemTy.shown fs os P ((T).abs (T).cls.init)).length) :
    ElemTy.print fs os P (T).cls.init array = .ub := by
  rw [C46_exact_partial P (T).cls.init array h .init ((T).terminated_init P [] h) ha]
  dsimp only
  rw [if_neg (by omega), if_neg (by omega)]

/-- There is always such an array: the empty one. -/
theorem C46_never_false (h : (T).WF) : ¬ C46_Statement fs os := by
  intro hC
  obtain ⟨v, hv, _⟩ := hC Sample.printer (T).cls.init [] h .init (by decide)
  have hne : ElemTy.shown fs os Sample.printer ((T).abs (T).cls.init) ≠ [] := by
    refine List.append_ne_nil_of_right_ne_nil _ ?_
    decide
  rw [C46_never fs os Sample.printer h [] (by decide) (List.length_pos_iff.mpr hne)] at hv
  exact nomatch hv

end

/-- `message M { string a = 1; }`: the text of a new object has more than three characters. -/
example : (ElemTy.msg (.plain 1 (.str 2) .nil) .nil).WF ∧
    3 < (ElemTy.shown (.plain 1 (.str 2) .nil) .nil Sample.printer ((ElemTy.msg (.plain 1 (.str 2) .nil) .nil).abs
      (ElemTy.msg (.plain 1 (.str 2) .nil) .nil).cls.init)).length := by
  refine ⟨⟨⟨⟨by decide, by decide⟩, trivial⟩, trivial, ?_, ?_⟩, ?_⟩ <;> decide +kernel

/-- **C50** holds for no maximum length: any characters that fill the string leave no place for a terminator. -/
theorem C50_never (cap : Nat) (h0 : 0 < cap) (hc : cap < 2147483648) (s : List Byte) (hs : 0 ∉ s) (hl : cap ≤ s.length) :
    ∃ es y, StrCall.runAll cap [.setCStr s] (StrObj.init cap) = .ok (es, y) ∧ 0 ∉ y.chars ∧ y.cText = .ub := by
  have hr := StrObj.setCStr_eq cap (StrObj.init cap) s (StrObj.init_wf cap) hc
  refine ⟨[.noErrors], _, ?_, ?_, C50_full cap s (StrObj.init cap) _ hs hl h0 hc .init hr⟩
  · show ((StrObj.setCStr cap (StrObj.init cap) s >>= _) >>= _) = _
    rw [hr]
    rfl
  · intro h
    refine hs ?_
    have h' := List.mem_of_mem_take h
    rw [show min (s.length + 1) cap = cap by omega, List.drop_eq_nil_of_le (Nat.le_of_eq (StrObj.init_wf cap).1), List.append_nil,
      List.take_append_of_le_length hl] at h'
    exact List.mem_of_mem_take h'

theorem C50_never_false (cap : Nat) (h0 : 0 < cap) (hc : cap < 2147483648) : ¬ C50_Statement cap := by
  intro hC
  have hs : (0 : Byte) ∉ List.replicate cap (0x61 : Byte) := fun h => absurd (List.eq_of_mem_replicate h) (by decide)
  obtain ⟨es, y, h1, h2, h3⟩ := C50_never cap h0 hc _ hs (by rw [List.length_replicate]; exact Nat.le_refl _)
  have := hC _ es y h0 hc (fun c hc => by cases List.mem_singleton.mp hc; exact hs) h1 h2
  rw [h3] at this
  exact nomatch this

/-- Three characters in a string of at most two. -/
example : (0 : Byte) ∉ ([0x61, 0x62, 0x63] : List Byte) ∧ 2 ≤ ([0x61, 0x62, 0x63] : List Byte).length := by decide

end EP
