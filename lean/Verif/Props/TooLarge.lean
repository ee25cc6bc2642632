import Verif.Proof.Wide
import Verif.Props.LinkVersions
import Verif.Props.Syntax
import Verif.Props.Held
import Verif.Props.Parse
import Verif.Props.Interop

/-!
# A message for which there is no room is refused, not cut: C90

C54 says that a well formed message gives `NO_ERRORS` or `ARRAY_FULL`.  Here: which of the two, and that with `NO_ERRORS`
everything in the message is in the object.
-/

namespace EP
open Spec

section
variable {β : Type} [ReadBuffer β] (M : ReadModel β) (fs : Fields) (os : Oneofs)
local notation "T" => ElemTy.msg fs os

/-- **C90**, any object: the records of a well formed message have an effect on what the object holds, and this is what is
done; or they have none, and the result is `ARRAY_FULL`. -/
theorem C90_held (x : (T).Obj) (b : β) (fuel : Nat) (h : (T).WF) (hx : (T).Reach x) (hb : M.Inv b)
    (hw : WellFormed fs os (M.view b)) (hf : (M.view b).length < fuel) :
    (∃ b' y, (T).cls.deserialize fuel b x = .ok (.noErrors, b', y) ∧ M.view b' = [] ∧
      HRecords fs os (M.view b) ((T).held x) ((T).held y)) ∨
    ((¬ ∃ u, HRecords fs os (M.view b) ((T).held x) u) ∧
      ∃ b' y, (T).cls.deserialize fuel b x = .ok (.arrayFull, b', y)) := by
  rcases wellFormed_exact h hw ((T).held x) with ⟨u, hu⟩ | hfull
  · obtain ⟨b', y, g1, g2, g3, _⟩ := C19_held M fs os x u b fuel h hx hb hu hf
    exact Or.inl ⟨b', y, g1, g2, g3.symm ▸ hu⟩
  · obtain ⟨w, hfull⟩ := hfull false
    refine Or.inr ⟨fun ⟨u, hu⟩ => ?_, ?_⟩
    · exact nomatch hfull.symm.trans (hu.parse h.distinct false)
    · have := C64_reference M fs os x b fuel h hx hb hf
      rw [hfull] at this
      obtain ⟨_, b', y, g1, _⟩ := this
      exact ⟨b', y, g1⟩

/-- **C90**, objects with blank leftovers, in particular new and cleared ones: the records of a well formed message have an
effect on the value, and this is what is done; or they have none, and the result is `ARRAY_FULL`. -/
theorem C90_wellFormed (x : (T).Obj) (b : β) (fuel : Nat) (h : (T).WF) (hx : (T).Reach x) (hbl : (T).Blank ((T).held x))
    (hb : M.Inv b) (hw : WellFormed fs os (M.view b)) (hf : (M.view b).length < fuel) :
    (∃ b' y, (T).cls.deserialize fuel b x = .ok (.noErrors, b', y) ∧ M.view b' = [] ∧
      Records fs os (M.view b) ((T).abs x) ((T).abs y)) ∨
    ((¬ ∃ v, Records fs os (M.view b) ((T).abs x) v) ∧
      ∃ b' y, (T).cls.deserialize fuel b x = .ok (.arrayFull, b', y)) := by
  have hi := ElemTy.reach_inv T h hx
  rcases C90_held M fs os x b fuel h hx hb hw hf with ⟨b', y, g1, g2, g3⟩ | ⟨g1, g2⟩
  · refine Or.inl ⟨b', y, g1, g2, ?_⟩
    have := HRecords.seen g3 hbl ((T).sized_held x hi)
    rwa [(T).seen_held, (T).seen_held] at this
  · refine Or.inr ⟨fun ⟨v, hv⟩ => g1 ?_, g2⟩
    rw [← (T).seen_held x] at hv
    obtain ⟨u, hu, _⟩ := Records.held _ hv hbl ((T).sized_held x hi)
    exact ⟨u, hu⟩

/-- **C90**: what a well formed message says about the values is settled by its bytes. -/
theorem C90_unique (h : (T).WF) {bs : List Byte} {v w : (T).Val} (hv : Records fs os bs (T).dflt v)
    (hw : Records fs os bs (T).dflt w) : v = w :=
  Records.unique h.distinct hv hw

end

/-! ## Encodings -/

section
variable {β : Type} [ReadBuffer β] (M : ReadModel β) {fs : Fields} {os : Oneofs} (f : fs.Older) (o : os.Older)
local notation "T" => ElemTy.msg fs os
local notation "S" => ElemTy.msg f.old o.old
local notation "O" => ElemTy.Older.msg f o

/-- **C90**, encodings of any value, by a program with any newer declaration (also one with other maximum lengths or
none): if what the receiver knows of the value fits its class, this is what it gets; otherwise it gets `ARRAY_FULL`. -/
theorem C90_versions {sc : (s : ScalarTy) → s.Val → List Byte} (hsc : Readable sc) (h : (T).WF) (h' : (S).WF)
    (v : (T).Val) (y : (S).Obj) (b : β) (fuel : Nat) (hy : NewOrCleared f.old o.old y) (hb : M.Inv b)
    (hv : M.view b = (T).encodeWith sc v) (hf : (M.view b).length < fuel) :
    ((S).Fits ((O).shown v) ∧
      ∃ b' z, (S).cls.deserialize fuel b y = .ok (.noErrors, b', z) ∧ M.view b' = [] ∧ (S).abs z = (O).shown v) ∨
    (¬ (S).Fits ((O).shown v) ∧ ∃ b' z, (S).cls.deserialize fuel b y = .ok (.arrayFull, b', z)) := by
  rw [hy.eq_init _ _ h']
  have hl := M.view_lt b hb
  rw [hv] at hl
  have hi : (S).abs (S).cls.init = (S).dflt := (ElemTy.base S h').init_abs
  have hw := encode_wellFormed_older hsc h f o v hl
  rcases C90_wellFormed M f.old o.old (S).cls.init b fuel h' .init (ElemTy.Tidy.blank h' (Or.inr .init)) hb
    (by rw [hv]; exact hw) hf with ⟨b', z, g1, g2, g3⟩ | ⟨g1, g2⟩
  · rw [hi, hv] at g3
    have e := records_exact hsc h f o h' v hl g3
    obtain ⟨e', b2, z2, k1, _, _, k4⟩ := C54_wellFormed M f.old o.old (S).cls.init b fuel h' .init hb
      (by rw [hv]; exact hw) hf
    have := g1.symm.trans k1
    cases this
    exact Or.inl ⟨by rw [e] at k4; exact k4, b', z, g1, g2, e⟩
  · refine Or.inr ⟨fun hfit => g1 ⟨(f.shown v.1, o.shown v.2), ?_⟩, g2⟩
    rw [hi, hv]
    exact records_older hsc h f o v hfit hl

end

section
variable {β : Type} [ReadBuffer β] (M : ReadModel β) (fs : Fields) (os : Oneofs)
local notation "T" => ElemTy.msg fs os

/-- The effect of an encoding of any value, if there is one, is the value. -/
theorem records_encoded {sc : (s : ScalarTy) → s.Val → List Byte} (hsc : Readable sc) (h : (T).WF) (v : (T).Val)
    (hl : ((T).encodeWith sc v).length < 4294967296) {u : (T).Val}
    (hr : Records fs os ((T).encodeWith sc v) (T).dflt u) : u = v := by
  obtain ⟨k, hk⟩ := (fs.wide_fits v.1).and (os.wide_fits v.2)
  have hk := records_older hsc h (fs.wide k) (os.wide k) v (hk k (Nat.le_refl _)) hl
  have hr := Records.older h (fs.wide k) (os.wide k) (fs.wide_roomy k) (os.wide_roomy k) hr
  have hr : Records (fs.wide k).old (os.wide k).old ((T).encodeWith sc v) ((fs.wide k).shown fs.dflt, (os.wide k).shown os.dflt)
    ((fs.wide k).shown u.1, (os.wide k).shown u.2) := hr
  rw [(fs.wide k).shown_dflt, (os.wide k).shown_dflt] at hr
  have e := Records.unique (fs := (fs.wide k).old) (os := (os.wide k).old) (ElemTy.wide_distinct k T h.distinct) hr hk
  exact ElemTy.wide_inj k T u v e

/-- **C90**, encodings of any value by a program with the same fields, also one with longer arrays: if the value fits, it
is received; otherwise the result is `ARRAY_FULL`. -/
theorem C90_encodings {sc : (s : ScalarTy) → s.Val → List Byte} (hsc : Readable sc) (h : (T).WF) (v : (T).Val)
    (y : (T).Obj) (b : β) (fuel : Nat) (hy : NewOrCleared fs os y) (hb : M.Inv b) (hv : M.view b = (T).encodeWith sc v)
    (hf : (M.view b).length < fuel) :
    ((T).Fits v ∧ ∃ b' z, (T).cls.deserialize fuel b y = .ok (.noErrors, b', z) ∧ M.view b' = [] ∧ (T).abs z = v) ∨
    (¬ (T).Fits v ∧ ∃ b' z, (T).cls.deserialize fuel b y = .ok (.arrayFull, b', z)) := by
  rw [hy.eq_init _ _ h]
  have hl := M.view_lt b hb
  rw [hv] at hl
  have hi : (T).abs (T).cls.init = (T).dflt := (ElemTy.base T h).init_abs
  have hw := encode_wellFormed hsc fs os h v hl
  rcases C90_wellFormed M fs os (T).cls.init b fuel h .init (ElemTy.Tidy.blank h (Or.inr .init)) hb
    (by rw [hv]; exact hw) hf with ⟨b', z, g1, g2, g3⟩ | ⟨g1, g2⟩
  · rw [hi, hv] at g3
    have e := records_encoded fs os hsc h v hl g3
    obtain ⟨e', b2, z2, k1, _, _, k4⟩ := C54_wellFormed M fs os (T).cls.init b fuel h .init hb (by rw [hv]; exact hw) hf
    have := g1.symm.trans k1
    cases this
    exact Or.inl ⟨by rw [e] at k4; exact k4, b', z, g1, g2, e⟩
  · refine Or.inr ⟨fun hfit => g1 ⟨v, ?_⟩, g2⟩
    rw [hi, hv]
    have := records_encode hsc fs os h (T).dflt v (by rwa [ElemTy.merge_dflt]) hl
    rwa [ElemTy.merge_dflt] at this

end

/-! ## On a network -/

section
variable {fs : Fields} {os : Oneofs} (f : fs.Older) (o : os.Older) {N K : Nat}
local notation "T" => ElemTy.msg fs os
local notation "S" => ElemTy.msg f.old o.old
local notation "M" => ElemTy.Older.msg f o

/-- **C90**, in the setting of C89: the sender has a newer declaration.  Whenever the bytes of a message that was sent are
received: if what the receiver knows of it fits its class, it gets this with `NO_ERRORS`; otherwise `ARRAY_FULL`. -/
theorem C90_older_receiver (h : (T).WF) (h' : (S).WF) (hN : N < 2 ^ 31) (hK : K < 2 ^ 32) (hm : (T).maxLen < 2 ^ 32)
    {log : List (LinkEvent (T).Val (S).Val)} {s : Link fs os f.old o.old} (hr : Link.Run N K log s) {v : (T).Val}
    {u : (S).Val} {frame : List Byte} {e : Error} (h1 : .sent v frame ∈ log) (h2 : .received frame e u ∈ log) :
    (S).Fits ((M).shown ((T).canon v)) ∧ e = .noErrors ∧ u = (M).shown ((T).canon v) ∨
    ¬ (S).Fits ((M).shown ((T).canon v)) ∧ e = .arrayFull := by
  obtain ⟨_, hl⟩ := hr.good h h' hN hK hm
  obtain ⟨x, hx, rfl, rfl⟩ := hl _ h1
  obtain ⟨_, fuel, b, b', z, g1, g2, _, g3, rfl⟩ := hl _ h2
  rcases C90_versions (ReadFixed.model K hK) f o readable_enc h h' ((T).canon ((T).abs x)) (S).cls.init b _ (Or.inl rfl)
    g1 g2 (Nat.lt_succ_self _) with ⟨q1, b2, z2, k1, _, k3⟩ | ⟨q1, b2, z2, k1⟩
  · have e := ElemTy.deserialize_same S g3 k1
    cases e
    exact Or.inl ⟨q1, rfl, k3⟩
  · have e := ElemTy.deserialize_same S g3 k1
    cases e
    exact Or.inr ⟨q1, rfl⟩

/-- **C90**, in the setting of C89: the sender has an older declaration. -/
theorem C90_newer_receiver (h : (T).WF) (h' : (S).WF) (hN : N < 2 ^ 31) (hK : K < 2 ^ 32) (hm : (S).maxLen < 2 ^ 32)
    {log : List (LinkEvent (S).Val (T).Val)} {s : Link f.old o.old fs os} (hr : Link.Run N K log s) {v : (S).Val}
    {u : (T).Val} {frame : List Byte} {e : Error} (h1 : .sent v frame ∈ log) (h2 : .received frame e u ∈ log) :
    (T).Fits ((M).lifted ((S).canon v)) ∧ e = .noErrors ∧ u = (M).lifted ((S).canon v) ∨
    ¬ (T).Fits ((M).lifted ((S).canon v)) ∧ e = .arrayFull := by
  obtain ⟨_, hl⟩ := hr.good h' h hN hK hm
  obtain ⟨x, hx, rfl, rfl⟩ := hl _ h1
  obtain ⟨_, fuel, b, b', z, g1, g2, _, g3, rfl⟩ := hl _ h2
  have e : (T).encode ((M).lifted ((S).canon ((S).abs x))) = (S).encode ((S).canon ((S).abs x)) := (M).encode_lifted _
  rcases C90_encodings (ReadFixed.model K hK) fs os readable_enc h ((M).lifted ((S).canon ((S).abs x))) (T).cls.init b _
    (Or.inl rfl) g1 (g2.trans e.symm) (Nat.lt_succ_self _) with ⟨q1, b2, z2, k1, _, k3⟩ | ⟨q1, b2, z2, k1⟩
  · have e := ElemTy.deserialize_same T g3 k1
    cases e
    exact Or.inl ⟨q1, rfl, k3⟩
  · have e := ElemTy.deserialize_same T g3 k1
    cases e
    exact Or.inr ⟨q1, rfl⟩

end

/-! ## Examples -/

namespace TooLargeSample

/-- `repeated int32 r = 1;` of at most 3 elements for the sender, 2 for the receiver; and a string of 4 or 2 characters. -/
abbrev sender : Fields := .repeated 1 3 (.scalar .int32) (.plain 2 (.str 4) .nil)
abbrev receiver : sender.Older := .repeated 1 3 2 (.scalar .int32) (.plain 2 (.str 4 2) .nil)

abbrev val (r : List (BitVec 32)) (s : List Byte) : (ElemTy.msg sender .nil).Val := ((r, s, ()), ())

/-- Two elements and two characters fit the receiver; three of either do not. -/
example : (ElemTy.msg receiver.old .nil).Fits ((ElemTy.Older.msg receiver Oneofs.Older.nil).shown (val [1, 2] [65, 66])) ∧
    ¬ (ElemTy.msg receiver.old .nil).Fits ((ElemTy.Older.msg receiver Oneofs.Older.nil).shown (val [1, 2, 3] [])) ∧
    ¬ (ElemTy.msg receiver.old .nil).Fits ((ElemTy.Older.msg receiver Oneofs.Older.nil).shown (val [] [65, 66, 67])) := by
  refine ⟨⟨⟨⟨Nat.le_refl 2, fun _ _ => trivial⟩, Nat.le_refl 2, trivial⟩, trivial⟩, fun h => ?_, fun h => ?_⟩
  · have : 3 ≤ 2 := h.1.1.1
    omega
  · have : 3 ≤ 2 := h.1.2.1
    omega

/-- The hypotheses. -/
example : (ElemTy.msg sender .nil).WF ∧ (ElemTy.msg receiver.old .nil).WF := by
  simp [ElemTy.WF, Fields.WF, Oneofs.WF, Fields.numbers, Oneofs.numbers, Fields.Older.old, ElemTy.Older.old]

/-- The bytes. -/
example : (ElemTy.msg sender .nil).encode (val [1, 2] [65, 66]) = [0x0A, 2, 1, 2, 0x12, 2, 65, 66] ∧
    (ElemTy.msg sender .nil).encode (val [1, 2, 3] []) = [0x0A, 3, 1, 2, 3] ∧
    (ElemTy.msg sender .nil).encode (val [] [65, 66, 67]) = [0x12, 3, 65, 66, 67] := by decide +kernel

/-- What `deserialize` returns for them. -/
def answer (bs : List Byte) : Option Error :=
  match (ElemTy.msg receiver.old .nil).cls.deserialize 20 (ReadFixed.holding 16 bs) (ElemTy.msg receiver.old .nil).cls.init with
  | .ok (e, _, _) => some e
  | _ => none

example : answer [0x0A, 2, 1, 2, 0x12, 2, 65, 66] = some .noErrors ∧ answer [0x0A, 3, 1, 2, 3] = some .arrayFull ∧
    answer [0x12, 3, 65, 66, 67] = some .arrayFull := by decide +kernel

end TooLargeSample

end EP
