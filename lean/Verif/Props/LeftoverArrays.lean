import Verif.Proof.Steady
import Verif.Props.HeldSlot
import Verif.Props.Values

/-!
# For which declarations: C25 and C39

An element that is received is merged into what was left behind in its place (`C39_held`).  The declarations for which this is
never noticed are those in which no repeated field of the message has room for a message that can hold anything.  What is inside
the elements and the other fields does not matter.
-/

namespace EP
open Spec

section
variable (fs : Fields) (os : Oneofs)
local notation "T" => ElemTy.msg fs os

/-- No repeated field of the message has room for a message that can hold anything. -/
def NothingLeft : Prop :=
  ∀ num cap (t : ElemTy), Slot fs num (.rep cap) t → t.isMsg = true → cap = 0 ∨ ∀ v, t.Fits v → v = t.dflt

theorem varint_zero : varint 0 = [0] := by
  rw [varint]; rfl

/-- The record of an empty message. -/
theorem empty_payload {t : ElemTy} (ht : t.isMsg = true) (u : t.Val) : t.Payload [0] u u := by
  cases t with
  | scalar => exact nomatch ht
  | str => exact nomatch ht
  | msg fs os => exact ⟨[], ⟨[0], by have := varint_spec 32 0 (by decide) (by decide); rwa [varint_zero] at this, rfl⟩, .nil _⟩

theorem empty_hpayload {t : ElemTy} (ht : t.isMsg = true) (u : t.Held) : t.HPayload [0] u u := by
  cases t with
  | scalar => exact nomatch ht
  | str => exact nomatch ht
  | msg fs os => exact ⟨[], ⟨[0], by have := varint_spec 32 0 (by decide) (by decide); rwa [varint_zero] at this, rfl⟩, .nil _⟩

theorem left_blank {num cap : Nat} {t : ElemTy} (h : (T).WF) (hn : NothingLeft fs) (s : Slot fs num (.rep cap) t)
    (ht : t.isMsg = true) {x : (T).Obj} (hx : (T).Reach x) : BlankRest t (s.array x).2 := by
  have hi := ElemTy.reach_inv T h hx
  rcases hn num cap t s ht with h0 | h0
  · have hl := s.array_length hi
    intro g hg
    have := List.length_pos_of_mem hg
    omega
  · have im := s.inv_member hi
    intro g hg
    obtain ⟨d, hd, rfl⟩ := List.mem_map.mp hg
    have id := im.2.2 d (List.mem_of_mem_drop hd)
    exact ⟨(t.seen_held d).trans (h0 _ (t.fits_abs d id)), t.blank_of_steady (t.steady_of_empty h0) d id⟩

/-- **C39**, the declarations: records of elements are always appended as they were sent if and only if no repeated field of the
message has room for a message that can hold anything. -/
theorem C39_declarations (h : (T).WF) : C39_Statement fs os ↔ NothingLeft fs := by
  constructor
  · intro hC num cap t s ht
    refine Classical.or_iff_not_imp_left.mpr fun hc v hv => ?_
    have hw := h
    simp only [ElemTy.WF] at hw
    obtain ⟨y, hy, rfl⟩ := ElemTy.made t (s.wf hw.1).1 v hv
    obtain ⟨x, z, rest, hx, hx0, hz, e⟩ := lift_stale h s hc hy.reach
    have hn : num < 536870912 := (hw.2.2.2 num (List.mem_append_left _ s.mem)).2
    have htag := tag_spec num .lengthDelimited hn
    have hsc : t.isScalar = false := by cases t <;> first | rfl | exact nomatch ht
    have hbl : (tag num .lengthDelimited ++ [0]).length < 2 ^ 32 := by
      have := varint_length_le 5 (8 * num + 2) (by omega) (by decide)
      rw [List.length_append]
      show (varint (8 * num + 2)).length + 1 < _
      omega
    have hb := ReadFixed.holding_inv _ hbl (tag num .lengthDelimited ++ [0]) (Nat.le_refl _)
    have hview := ReadFixed.holding_view _ hbl (tag num .lengthDelimited ++ [0])
    have a1 : (s.array (os := os) x).1 = [] := by
      show List.map _ (List.take _ _) = []
      rw [hx0]
      rfl
    have a2 : (s.array (os := os) x).2 = t.held z :: rest.map t.held :=
      (congrArg (List.map t.held) hz).trans List.map_cons
    have g0 : s.get ((T).abs x).1 = ([] : List t.Val) := (s.get_array x).trans (by rw [a1]; rfl)
    obtain ⟨b1, y1, e1, _, i1⟩ := C39_held (ReadFixed.model _ hbl) fs os s x _ [t.held z] (rest.map t.held)
      ((tag num .lengthDelimited ++ [0]).length + 1) h hsc hx hb (by rw [hview]; omega)
      (by rw [hview, a2]; exact .cons (rest := []) htag (empty_hpayload ht _) (.nil _))
    obtain ⟨b2, y2, e2, i2⟩ := hC _ (ReadFixed.model _ hbl) x _ ((tag num .lengthDelimited ++ [0]).length + 1) num cap t s
      [t.dflt] h hx ht hb (by rw [hview]; omega)
      (by rw [g0]; exact Nat.pos_of_ne_zero hc)
      (by rw [hview]; have := Packed.cons (P := fun bs y => ∃ tg p, Varint 32 tg (8 * num + 2) ∧ bs = tg ++ p ∧ t.Payload p t.dflt y)
            ⟨_, _, htag, rfl, empty_payload ht t.dflt⟩ .nil
          rwa [List.append_nil] at this)
    rw [e1] at e2
    cases e2
    have i3 := ((congrArg (fun v : (T).Val => s.get v.1) i1).trans (s.get_put _ _)).symm.trans i2
    rw [g0] at i3
    have := (List.cons.inj i3).1
    rw [← e, ← this]
    exact (t.seen_held z).symm
  · intro hn β _ M x b fuel num cap t s ys _ hx ht hb hf hfit hp
    have hsc : t.isScalar = false := by cases t <;> first | rfl | exact nomatch ht
    obtain ⟨b', y, h1, h2⟩ := C39_blank_partial M fs os s x b ys fuel h hsc hx (left_blank fs os h hn s ht hx) hb hf hfit hp
    exact ⟨b', y, h1, (congrArg (fun v : (T).Val => s.get v.1) h2).trans (s.get_put _ _)⟩

/-- `n` records of empty messages. -/
def empties (num n : Nat) : List Byte :=
  (List.replicate n (tag num .lengthDelimited ++ [0])).flatten

theorem empties_succ (num n : Nat) : empties num (n + 1) = tag num .lengthDelimited ++ ([0] ++ empties num n) := by
  unfold empties
  rw [List.replicate_succ, List.flatten_cons, List.append_assoc]

theorem empties_length (num n : Nat) (hn : num < 536870912) : (empties num n).length ≤ 6 * n := by
  induction n with
  | zero => exact Nat.le_refl _
  | succ n ih =>
    have : (tag num .lengthDelimited).length ≤ 5 := varint_length_le 5 (8 * num + 2) (by omega) (by decide)
    rw [empties_succ, List.length_append, List.length_append, List.length_singleton]
    omega

theorem empties_elements {num : Nat} {t : ElemTy} (ht : t.isMsg = true) (hn : num < 536870912) (n : Nat) :
    Elements num t (empties num n) (List.replicate n t.dflt) := by
  induction n with
  | zero => exact .nil
  | succ n ih =>
    rw [empties_succ, ← List.append_assoc, List.replicate_succ]
    exact .cons ⟨_, _, tag_spec num .lengthDelimited hn, rfl, empty_payload ht t.dflt⟩ ih

theorem empties_into {num : Nat} {t : ElemTy} (ht : t.isMsg = true) (hn : num < 536870912) (hs : List t.Held) :
    Into num t (empties num hs.length) hs hs [] := by
  induction hs with
  | nil => exact .nil _
  | cons g hs ih =>
    rw [List.length_cons, empties_succ]
    exact .cons (tag_spec num .lengthDelimited hn) (empty_hpayload ht g) ih

theorem empties_add (num m n : Nat) : empties num (m + n) = empties num m ++ empties num n := by
  unfold empties
  rw [← List.replicate_append_replicate, List.flatten_append]

/-- **C25**, the declarations: `ARRAY_FULL` always leaves the elements that were sent if and only if no repeated field of the
message has room for a message that can hold anything.  One more element than fits in an array must fit in a buffer. -/
theorem C25_declarations (h : (T).WF)
    (hcap : ∀ num cap (t : ElemTy), Slot fs num (.rep cap) t → t.isMsg = true → 6 * (cap + 1) < 2 ^ 32) :
    C25_Statement fs os ↔ NothingLeft fs := by
  constructor
  · intro hC num cap t s ht
    refine Classical.or_iff_not_imp_left.mpr fun hc v hv => ?_
    have hw := h
    simp only [ElemTy.WF] at hw
    obtain ⟨y, hy, rfl⟩ := ElemTy.made t (s.wf hw.1).1 v hv
    obtain ⟨x, z, rest, hx, hx0, hz, e⟩ := lift_stale h s hc hy.reach
    have hn : num < 536870912 := (hw.2.2.2 num (List.mem_append_left _ s.mem)).2
    have htag := tag_spec num .lengthDelimited hn
    have hsc : t.isScalar = false := by cases t <;> first | rfl | exact nomatch ht
    have hbl : (empties num (cap + 1)).length < 2 ^ 32 :=
      Nat.lt_of_le_of_lt (empties_length num _ hn) (hcap num cap t s ht)
    have hb := ReadFixed.holding_inv _ hbl (empties num (cap + 1)) (Nat.le_refl _)
    have hview := ReadFixed.holding_view _ hbl (empties num (cap + 1))
    have a1 : (s.array (os := os) x).1 = [] := by
      show List.map _ (List.take _ _) = []
      rw [hx0]
      rfl
    have a2 : (s.array (os := os) x).2 = t.held z :: rest.map t.held :=
      (congrArg (List.map t.held) hz).trans List.map_cons
    have a3 : (s.array (os := os) x).2.length = cap := by
      have := s.array_length (ElemTy.reach_inv T h hx)
      rw [a1] at this
      simpa using this
    have g0 : s.get ((T).abs x).1 = ([] : List t.Val) := (s.get_array x).trans (by rw [a1]; rfl)
    obtain ⟨b1, y1, e1, _, i1⟩ := C25_held (ReadFixed.model _ hbl) fs os s x _ (empties num cap) (tag num .lengthDelimited) [0] (s.array x).2
      ((empties num (cap + 1)).length + 1) h hsc hx hb (by rw [hview]; omega)
      (by rw [hview, empties_add, empties_succ, show empties num 0 = [] from rfl, List.append_nil])
      (by have := empties_into (num := num) ht hn (s.array (os := os) x).2; rwa [a3] at this) htag
    obtain ⟨b2, y2, e2, i2⟩ := hC _ (ReadFixed.model _ hbl) x _ [] [] ((empties num (cap + 1)).length + 1) num cap t s
      (List.replicate (cap + 1) t.dflt) h hx hb (by rw [hview]; omega)
      (by rw [g0, List.length_replicate]; exact Nat.lt_of_lt_of_eq (Nat.lt_succ_self cap) (Nat.zero_add _).symm)
      (by rw [hsc, hview]; exact empties_elements ht hn _)
    rw [e1] at e2
    cases e2
    have i3 := ((congrArg (fun v : (T).Val => s.get v.1) i1).trans (s.get_put _ _)).symm.trans i2
    rw [g0, a2] at i3
    obtain ⟨k, rfl⟩ : ∃ k, cap = k + 1 := ⟨cap - 1, by omega⟩
    have := (List.cons.inj i3).1
    rw [← e, ← this]
    exact (t.seen_held z).symm
  · intro hn β _ M x b tg r fuel num cap t s ys _ hx hb hf hfull hp
    have fin {y : (T).Obj} {l : List t.Val} (k : (T).abs y = (s.put ((T).abs x).1 l, ((T).abs x).2)) : s.get ((T).abs y).1 = l :=
      (congrArg (fun v : (T).Val => s.get v.1) k).trans (s.get_put _ _)
    cases t with
    | scalar sc =>
      obtain ⟨body, q1, q2, q3, q4⟩ := hp
      obtain ⟨b', y, h1, h2⟩ := C25_packed_partial M fs os s x b tg r body ys fuel h hx hb hf hfull q1 q2 q3 q4
      exact ⟨b', y, h1, fin h2⟩
    | str n =>
      obtain ⟨b', y, h1, h2⟩ := C25_elements_partial M fs os s x b ys fuel h rfl (Or.inl ⟨hx, rfl⟩) hb hf hfull hp
      exact ⟨b', y, h1, fin h2⟩
    | msg fs' os' =>
      obtain ⟨b', y, h1, h2⟩ := C25_blank_partial M fs os s x b ys fuel h rfl hx (left_blank fs os h hn s rfl hx) hb hf hfull hp
      exact ⟨b', y, h1, fin h2⟩

end

/-! ## Examples -/

namespace LeftoverArraysExample

/-- `message L { repeated N n = 1; }`, an array of messages inside a field that is not repeated, and an array of strings. -/
def inner : ElemTy := .msg (.repeated 1 3 (.scalar .int32) .nil) .nil
def fields : Fields := .plain 1 (.msg (.repeated 1 2 inner .nil) .nil) (.repeated 2 2 (.str 8) .nil)

theorem inner_wf : inner.WF := by
  refine ⟨⟨by decide, trivial, trivial⟩, trivial, ?_, ?_⟩ <;> decide

theorem wf : (ElemTy.msg fields .nil).WF := by
  refine ⟨⟨⟨⟨by decide, inner_wf, trivial⟩, trivial, ?_, ?_⟩, by decide, ⟨by decide, by decide⟩, trivial⟩, trivial, ?_, ?_⟩ <;> decide

example : C39_Statement fields .nil :=
  (C39_declarations _ _ wf).mpr fun num cap t s ht => by
    cases s with
    | afterPlain _ _ s => cases s with
      | repeated => exact nomatch ht
      | afterRepeated _ _ _ s => exact nomatch s

example : C25_Statement fields .nil :=
  (C25_declarations _ _ wf fun num cap t s ht => by
    cases s with
    | afterPlain _ _ s => cases s with
      | repeated => exact nomatch ht
      | afterRepeated _ _ _ s => exact nomatch s).mpr fun num cap t s ht => by
    cases s with
    | afterPlain _ _ s => cases s with
      | repeated => exact nomatch ht
      | afterRepeated _ _ _ s => exact nomatch s

example : ¬ C39_Statement (.repeated 1 1 inner .nil) .nil := by
  intro h
  have hw : (ElemTy.msg (.repeated 1 1 inner .nil) .nil).WF := by
    refine ⟨⟨by decide, inner_wf, trivial⟩, trivial, ?_, ?_⟩ <;> decide
  rcases (C39_declarations _ _ hw).mp h 1 1 inner (.repeated 1 1 inner .nil) rfl with h | h
  · exact nomatch h
  · exact nomatch congrArg (fun v : inner.Val => v.1.1) (h (([(1 : BitVec 32)], ()), ())
      ⟨⟨⟨by decide, fun _ _ => trivial⟩, trivial⟩, trivial⟩)

end LeftoverArraysExample

end EP
