import Verif.Proof.Room
import Verif.Proof.MaxSize
import Verif.Props.Held
import Verif.Props.Values

/-!
# For which declarations: C18 and C19

`C18_blank_iff` says for which objects received messages are merged as they should be: those in which nothing is left behind.  The
declarations for which this is so of every object are those without an array that has room for a message that can hold anything.
-/

namespace EP
open Spec

section
variable (fs : Fields) (os : Oneofs)
local notation "T" => ElemTy.msg fs os

theorem blank_of_merged (h : (T).WF) (hm : (T).maxLen < 2 ^ 32) (hC : C18_Statement fs os) {x : (T).Obj} (hx : (T).Reach x) :
    (T).Blank ((T).held x) := by
  have hi := ElemTy.reach_inv T h hx
  refine (C18_blank_iff fs os _).mp fun v hr => ?_
  have hs := (T).sized_held x hi
  have hl := Nat.lt_of_le_of_lt ((T).encode_maxLen v ((T).fits_of_room _ v hs hr)) hm
  have hb := ReadFixed.holding_inv _ hl ((T).encode v) (Nat.le_refl _)
  have hview := ReadFixed.holding_view _ hl ((T).encode v)
  obtain ⟨b1, y1, e1, _, _, i1⟩ := C18_held (ReadFixed.model _ hl) fs os x v _ (((T).encode v).length + 1) h hx hb hview hr (by omega)
  have hf := (T).fits_merge_of_room _ v hs (by rw [(T).seen_held x]; exact (T).fits_abs x hi) hr
  rw [(T).seen_held x] at hf
  obtain ⟨b2, y2, e2, _, i2⟩ := hC _ (ReadFixed.model _ hl) x v _ (((T).encode v).length + 1) h hx hb hview hf (by omega)
  rw [e1] at e2
  cases e2
  rw [← i1, i2, (T).seen_held x]

/-- **C18**, the declarations: received messages are always merged into what the object has if and only if no array has room for a
message that can hold anything. -/
theorem C18_declarations (h : (T).WF) (hm : (T).maxLen < 2 ^ 32) : C18_Statement fs os ↔ (T).Steady := by
  rw [← (T).steady_iff h]
  constructor
  · exact fun hC x hx => blank_of_merged fs os h hm hC hx
  · intro H β _ M x v b fuel _ hx hb hv hfit hf
    obtain ⟨b', y, h1, h2, h3, _⟩ := C18_blank_partial M fs os x v b fuel h hx (H x hx) hb hv hfit hf
    exact ⟨b', y, h1, h2, h3⟩

/-- **C19**, the declarations: the same. -/
theorem C19_declarations (h : (T).WF) (hm : (T).maxLen < 2 ^ 32) : C19_Statement fs os ↔ (T).Steady := by
  constructor
  · intro hC
    refine (C18_declarations fs os h hm).mp fun β _ M x v b fuel _ hx hb hv hfit hf => ?_
    have hl := M.view_lt b hb
    rw [hv] at hl
    exact hC β M x _ b fuel h hx hb (by rw [hv]; exact records_encode readable_enc fs os h _ v hfit hl) (by rw [hv]; exact hf)
  · intro hs β _ M x v b fuel _ hx hb hr hf
    obtain ⟨b', y, h1, h2, h3, _⟩ :=
      C19_blank_partial M fs os x v b fuel h hx (((T).steady_iff h).mpr hs x hx) hb hr hf
    exact ⟨b', y, h1, h2, h3⟩

end

/-! ## Examples -/

namespace LeftoversExample

/-- `message E {}  message M { repeated E a = 1; repeated string b = 2; optional N c = 3; oneof o { N d = 4; } }` with
`message N { repeated int32 x = 1; }` -/
def inner : ElemTy := .msg (.repeated 1 3 (.scalar .int32) .nil) .nil
def fields : Fields := .repeated 1 2 (.msg .nil .nil) (.repeated 2 2 (.str 8) (.optional 3 inner .nil))
def oneofs : Oneofs := .cons (.cons 4 inner .nil) .nil

theorem inner_wf : inner.WF := by
  refine ⟨⟨by decide, trivial, trivial⟩, trivial, ?_, ?_⟩ <;> decide

theorem wf : (ElemTy.msg fields oneofs).WF := by
  refine ⟨⟨by decide, ⟨trivial, trivial, by decide, by decide⟩, by decide, ⟨by decide, by decide⟩, inner_wf, trivial⟩,
    ⟨⟨inner_wf, trivial⟩, trivial⟩, ?_, ?_⟩ <;> decide

/-- Arrays of empty messages and of strings, and arrays of scalars in optional messages and oneofs, do no harm. -/
example : C18_Statement fields oneofs :=
  (C18_declarations _ _ wf (by decide +kernel)).mpr
    ⟨⟨fun _ => .inr fun _ _ => rfl, nofun, ⟨⟨nofun, trivial⟩, trivial⟩, trivial⟩, ⟨⟨⟨⟨nofun, trivial⟩, trivial⟩, trivial⟩, trivial⟩⟩

/-- An array of messages, in a member of a oneof, does. -/
example : ¬ C18_Statement .nil (.cons (.cons 1 (.msg (.repeated 1 1 inner .nil) .nil) .nil) .nil) := by
  intro h
  have hw : (ElemTy.msg .nil (.cons (.cons 1 (.msg (.repeated 1 1 inner .nil) .nil) .nil) .nil)).WF := by
    refine ⟨trivial, ⟨⟨⟨⟨by decide, inner_wf, trivial⟩, trivial, ?_, ?_⟩, trivial⟩, trivial⟩, ?_, ?_⟩ <;> decide
  rcases ((C18_declarations _ _ hw (by decide +kernel)).mp h).2.1.1.1.1 rfl with h | h
  · exact nomatch h
  · exact nomatch congrArg (fun v : inner.Val => v.1.1) (h (([(1 : BitVec 32)], ()), ())
      ⟨⟨⟨by decide, fun _ _ => trivial⟩, trivial⟩, trivial⟩)

end LeftoversExample

end EP
