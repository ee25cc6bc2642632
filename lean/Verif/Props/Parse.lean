import Verif.Props.Held
import Verif.Proof.ParseTotal

/-!
# Decoding any bytes: C64, C45

`T` is any well formed declaration `message { fs os }`, `x` any object of it a program can have.  The
reference decoder `parseMessage` (`Spec/Parse.lean`) says for any bytes which error is returned and what
the object holds afterwards.
-/

namespace EP
open Spec

section
variable {β : Type} [ReadBuffer β] (M : ReadModel β) (fs : Fields) (os : Oneofs)
local notation "T" => ElemTy.msg fs os

/-- What `deserialize` does is what the reference decoder says: the error code, what the object holds,
and where the buffer is unless there is an error. -/
def Agrees (r : Parse (T).Held) (done : β → Prop) (d : Res (Error × β × (T).Obj)) : Prop :=
  match r with
  | .ok v _ => ∃ b' y, d = .ok (.noErrors, b', y) ∧ done b' ∧ (T).held y = v ∧ (T).abs y = (T).seen v
  | .fail e v => e ≠ .noErrors ∧ ∃ b' y, d = .ok (e, b', y) ∧ (T).held y = v ∧ (T).abs y = (T).seen v
  | .overrun => True

/-- **C64**.  Any bytes, in any buffer. -/
theorem C64_reference (x : (T).Obj) (b : β) (fuel : Nat) (h : (T).WF) (hx : (T).Reach x) (hb : M.Inv b)
    (hf : (M.view b).length < fuel) :
    Agrees fs os (parseMessage fs os false (M.view b) ((T).held x)) (fun b' => M.view b' = [])
      ((T).cls.deserialize fuel b x) := by
  have hp := ElemTy.bodyParse fs os h β M.cursor fuel b (M.view b) x
    ((ElemTy.held_spec T x).1.mpr (ElemTy.reach_inv T h hx)) ⟨hb, rfl⟩ hf
  unfold Agrees
  change (parseMessage fs os false (M.view b) ((T).held x)).Holds M.cursor _ (Good (T).heldSpec) _ at hp
  cases hq : parseMessage fs os false (M.view b) ((T).held x) with
  | ok v rest =>
    rw [hq] at hp
    obtain ⟨⟨e, b', y⟩, h1, h2, h3, _, _, h5⟩ := Res.Post.exists hp
    dsimp only at h2 h3 h5
    subst h2
    refine ⟨b', y, h1, h3.2.trans (parseLoop_end _ _ _ _ _ _ hq), h5, ?_⟩
    rw [← h5]
    exact ((T).seen_held y).symm
  | fail e v =>
    rw [hq] at hp
    obtain ⟨⟨e', b', y⟩, h1, h2, h3, _, h5⟩ := Res.Post.exists hp
    dsimp only at h2 h3 h5
    subst h2
    refine ⟨h3, b', y, h1, h5, ?_⟩
    rw [← h5]
    exact ((T).seen_held y).symm
  | overrun => trivial

/-- **C64** in a section of a buffer with enough bytes, as nested messages are decoded in: there the
reference decoder has a result for any bytes.  The bytes after the section are left in the buffer. -/
theorem C64_section (x : (T).Obj) (b : β) (n fuel : Nat) (h : (T).WF) (hx : (T).Reach x) (hb : M.Inv b)
    (hn : n ≤ (M.view b).length) (hf : n < fuel) :
    parseMessage fs os true ((M.view b).take n) ((T).held x) ≠ .overrun ∧
    Agrees fs os (parseMessage fs os true ((M.view b).take n) ((T).held x))
      (fun s => M.view s.buffer = (M.view b).drop n)
      ((T).cls.deserialize fuel (Section.new b n) x) := by
  have hl := M.view_lt b hb
  obtain ⟨L, h1, h2, h3⟩ := Cursor.section M.cursor (b := b) n ⟨hb, rfl⟩ (by omega)
  rw [decide_eq_true hn, Bool.or_true] at h2
  have hp := ElemTy.bodyParse fs os h (Section β) L fuel _ _ x
    ((ElemTy.held_spec T x).1.mpr (ElemTy.reach_inv T h hx)) h1 (by rw [List.length_take]; omega)
  rw [h2] at hp
  have ht := parseMessage_total fs os ((M.view b).take n) ((T).held x)
  unfold Agrees
  change (parseMessage fs os true ((M.view b).take n) ((T).held x)).Holds L _ (Good (T).heldSpec) _ at hp
  cases hq : parseMessage fs os true ((M.view b).take n) ((T).held x) with
  | ok v rest =>
    rw [hq] at hp
    obtain ⟨⟨e, b', y⟩, g1, g2, g3, _, _, g5⟩ := Res.Post.exists hp
    dsimp only at g2 g3 g5
    subst g2
    refine ⟨nofun, b', y, g1, ?_, g5, ?_⟩
    · rw [parseLoop_end _ _ _ _ _ _ hq] at g3
      exact (h3 _ g3).2
    · rw [← g5]
      exact ((T).seen_held y).symm
  | fail e v =>
    rw [hq] at hp
    obtain ⟨⟨e', b', y⟩, g1, g2, g3, _, g5⟩ := Res.Post.exists hp
    dsimp only at g2 g3 g5
    subst g2
    refine ⟨nofun, g3, b', y, g1, g5, ?_⟩
    rw [← g5]
    exact ((T).seen_held y).symm
  | overrun => rw [hq] at ht; exact ht.elim

/-- **C45**, any bytes: the error code and what the object holds are the same for any two buffers. -/
theorem C45_any {β₂ : Type} [ReadBuffer β₂] (M₂ : ReadModel β₂) (x : (T).Obj) (b₁ : β) (b₂ : β₂)
    (fuel₁ fuel₂ : Nat) (h : (T).WF) (hx : (T).Reach x) (h₁ : M.Inv b₁) (h₂ : M₂.Inv b₂)
    (hv : M.view b₁ = M₂.view b₂) (hp : parseMessage fs os false (M.view b₁) ((T).held x) ≠ .overrun)
    (hf₁ : (M.view b₁).length < fuel₁) (hf₂ : (M.view b₁).length < fuel₂) :
    ∃ e c₁ c₂ y₁ y₂, (T).cls.deserialize fuel₁ b₁ x = .ok (e, c₁, y₁) ∧
      (T).cls.deserialize fuel₂ b₂ x = .ok (e, c₂, y₂) ∧ (T).held y₁ = (T).held y₂ ∧
      (T).abs y₁ = (T).abs y₂ ∧ (e = .noErrors → M.view c₁ = [] ∧ M₂.view c₂ = []) := by
  have a₁ := C64_reference M fs os x b₁ fuel₁ h hx h₁ hf₁
  have a₂ := C64_reference M₂ fs os x b₂ fuel₂ h hx h₂ (hv ▸ hf₂)
  rw [← hv] at a₂
  unfold Agrees at a₁ a₂
  cases hq : parseMessage fs os false (M.view b₁) ((T).held x) with
  | ok v rest =>
    rw [hq] at a₁ a₂
    obtain ⟨c₁, y₁, p1, p2, p3, p4⟩ := a₁
    obtain ⟨c₂, y₂, q1, q2, q3, q4⟩ := a₂
    exact ⟨_, c₁, c₂, y₁, y₂, p1, q1, p3.trans q3.symm, p4.trans q4.symm, fun _ => ⟨p2, q2⟩⟩
  | fail e v =>
    rw [hq] at a₁ a₂
    obtain ⟨pe, c₁, y₁, p1, p3, p4⟩ := a₁
    obtain ⟨_, c₂, y₂, q1, q3, q4⟩ := a₂
    exact ⟨_, c₁, c₂, y₁, y₂, p1, q1, p3.trans q3.symm, p4.trans q4.symm, fun he => absurd he pe⟩
  | overrun => exact absurd hq hp

end

/-! ## Examples -/

/-- `message { int32 a = 1; string b = 2 [maxLength = 3]; }` -/
abbrev nestedElem : ElemTy := .msg (.plain 1 (.scalar .int32) (.plain 2 (.str 3) .nil)) .nil

/-- `message { repeated Elem m = 1 [maxLength = 2]; oneof o { uint32 c = 2; } }` -/
abbrev nestedArrays : ElemTy :=
  .msg (.repeated 1 2 nestedElem .nil)
    (.cons (.cons 2 (.scalar .uint32) .nil) .nil)

theorem nestedArrays_wf : nestedArrays.WF := by
  simp [ElemTy.WF, Fields.WF, Oneofs.WF, Alts.WF, Fields.numbers, Oneofs.numbers, Alts.numbers]

/-- The second element ends in the middle of its string: it becomes part of the array, with the bytes
there are. -/
example : parseMessage _ _ false [0x10, 7, 0x0A, 2, 8, 5, 0x0A, 5, 8, 6, 0x12, 2, 0x41]
      (nestedArrays.held nestedArrays.cls.init) =
    .fail .endOfBuffer ((([((5#32, [], ()), ()), ((6#32, [0x41], ()), ())], []), ()), some (.inl 7#32), ()) := by
  rfl

/-- The same by `C64_reference`, in a `ReadBufferFixedSize`. -/
example : ∃ b' y, nestedArrays.cls.deserialize 14
      (ReadFixed.holding 20 [0x10, 7, 0x0A, 2, 8, 5, 0x0A, 5, 8, 6, 0x12, 2, 0x41])
      nestedArrays.cls.init = .ok (.endOfBuffer, b', y) ∧
    nestedArrays.abs y =
      ((([((5#32, [], ()), ()), ((6#32, [0x41], ()), ())] : List nestedElem.Val), ()),
        some (.inl 7#32), ()) := by
  have hv := ReadFixed.holding_view 20 (by decide) [0x10, 7, 0x0A, 2, 8, 5, 0x0A, 5, 8, 6, 0x12, 2, 0x41]
  have := C64_reference (ReadFixed.model 20 (by decide)) _ _ nestedArrays.cls.init
    (ReadFixed.holding 20 [0x10, 7, 0x0A, 2, 8, 5, 0x0A, 5, 8, 6, 0x12, 2, 0x41]) 14 nestedArrays_wf
    .init (ReadFixed.holding_inv 20 (by decide) _ (by decide)) (by rw [hv]; decide)
  rw [hv] at this
  obtain ⟨_, b', y, h1, _, h2⟩ := this
  exact ⟨b', y, h1, h2⟩

/-- An unknown field longer than the data, outside and inside a section. -/
example : parseMessage _ _ false [0x1A, 9, 8] (nestedArrays.held nestedArrays.cls.init) = .overrun ∧
    parseMessage _ _ true [0x1A, 9, 8] (nestedArrays.held nestedArrays.cls.init) =
      .ok (nestedArrays.held nestedArrays.cls.init) [] :=
  ⟨rfl, rfl⟩

end EP
