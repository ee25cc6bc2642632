import Verif.Props.Parse
import Verif.Props.Malformed
import Verif.Proof.PackedSlot

/-!
# Input that ends inside a record, packed arrays that do: C26, C38

Every proper prefix of every record stream: where it ends decides between three outcomes.  `T` is any well formed
declaration `message { fs os }`, `x` any tidy object of it (one only used for receiving, for example), `b` any read buffer
that keeps the promises of the interface.
-/

namespace EP
open Spec

section
variable {β : Type} [ReadBuffer β] (M : ReadModel β) (fs : Fields) (os : Oneofs)
local notation "T" => ElemTy.msg fs os

/-- **C26**: there are three ways in which a proper prefix of a record stream can end. -/
theorem C26_three_ways (q r : List Byte) (u v : (T).Val) (hr : r ≠ []) (h : Records fs os (q ++ r) u v) :
    Truncated fs os q u ∨ (∃ w, Lost fs os q u w) ∨ Overlong fs os q u :=
  Records.three hr h

/-- **C26**, the second way, for every declaration: input that ends between two records, inside a tag, inside a packed
array or its length, in the message or at any depth of nesting, is accepted.  The object has what came before the end. -/
theorem C26_lost (x : (T).Obj) (b : β) (fuel : Nat) (w : (T).Val) (h : (T).WF) (hx : (T).Tidy x) (hb : M.Inv b)
    (hl : Lost fs os (M.view b) ((T).abs x) w) (hf : (M.view b).length < fuel) :
    ∃ b' y, (T).cls.deserialize fuel b x = .ok (.noErrors, b', y) ∧ M.view b' = [] ∧ (T).abs y = w := by
  obtain ⟨hi, hc⟩ := hx.inv_clean h
  have hs := (T).seen_held x
  rw [← hs] at hl
  obtain ⟨v, e1, e2, _⟩ := hl.parse h false ⟨ElemTy.blank_of_clean T h x hc, ElemTy.sized_held T x hi⟩
  have hp := ElemTy.bodyParse fs os h β M.cursor fuel b (M.view b) x
    ((ElemTy.held_spec T x).1.mpr hi) ⟨hb, rfl⟩ hf
  change (parseMessage fs os false (M.view b) ((T).held x)).Holds M.cursor _ (Good (T).heldSpec) _ at hp
  rw [e1] at hp
  obtain ⟨⟨e, b', y⟩, h1, h2, h3, _, _, h5⟩ := Res.Post.exists hp
  dsimp only at h2 h3 h5
  subst h2
  refine ⟨b', y, h1, h3.2, ?_⟩
  have := (T).seen_held y
  rw [← this]
  exact (congrArg (T).seen h5).trans e2

/-- **C26**, the third way: input that ends inside the contents of an unknown field.  This is the input for which the
reference decoder of C64 has no result: what follows depends on what the buffer does when asked to skip more bytes than
there are. -/
theorem C26_overlong (x : (T).Obj) (bs : List Byte) (h : (T).WF) (hx : (T).Tidy x)
    (ho : Overlong fs os bs ((T).abs x)) : parseMessage fs os false bs ((T).held x) = .overrun := by
  obtain ⟨hi, hc⟩ := hx.inv_clean h
  rw [← (T).seen_held x] at ho
  exact ho.parse h ⟨ElemTy.blank_of_clean T h x hc, ElemTy.sized_held T x hi⟩

/-- **C26**, exactly: a proper prefix of a record stream that does not end inside the contents of an unknown field is
reported (`END_OF_BUFFER`) if and only if it ends as `Truncated` says, and accepted if and only if it ends as `Lost`
says; there is no other outcome. -/
theorem C26_exact (x : (T).Obj) (b : β) (fuel : Nat) (q r : List Byte) (v : (T).Val) (h : (T).WF) (hx : (T).Tidy x)
    (hb : M.Inv b) (hv : M.view b = q) (hf : q.length < fuel) (hr : r ≠ []) (hs : Records fs os (q ++ r) ((T).abs x) v)
    (hn : ¬ Overlong fs os q ((T).abs x)) :
    ((∃ b' y, (T).cls.deserialize fuel b x = .ok (.endOfBuffer, b', y)) ↔ Truncated fs os q ((T).abs x)) ∧
    ((∃ b' y, (T).cls.deserialize fuel b x = .ok (.noErrors, b', y)) ↔ ∃ w, Lost fs os q ((T).abs x) w) ∧
    (∀ w w', Lost fs os q ((T).abs x) w → Lost fs os q ((T).abs x) w' → w = w') ∧
    ((∃ b' y, (T).cls.deserialize fuel b x = .ok (.endOfBuffer, b', y)) ∨
      ∃ b' y, (T).cls.deserialize fuel b x = .ok (.noErrors, b', y)) := by
  subst hv
  have h1 : Truncated fs os (M.view b) ((T).abs x) →
      ∃ b' y, (T).cls.deserialize fuel b x = .ok (.endOfBuffer, b', y) :=
    fun hc => C26_truncated_partial M fs os x b fuel h hx hb hc hf
  have h2 : ∀ w, Lost fs os (M.view b) ((T).abs x) w →
      ∃ b' y, (T).cls.deserialize fuel b x = .ok (.noErrors, b', y) ∧ (T).abs y = w := by
    intro w hl
    obtain ⟨b', y, e1, _, e2⟩ := C26_lost M fs os x b fuel w h hx hb hl hf
    exact ⟨b', y, e1, e2⟩
  have hno : (∃ b' y, (T).cls.deserialize fuel b x = .ok (.endOfBuffer, b', y)) →
      (∃ b' y, (T).cls.deserialize fuel b x = .ok (.noErrors, b', y)) → False := by
    rintro ⟨b1, y1, e1⟩ ⟨b2, y2, e2⟩
    rw [e1] at e2
    injection e2 with e2
    injection e2 with e2 _
    exact nomatch e2
  have h3 := (C26_three_ways fs os _ r _ v hr hs).imp_right (Or.resolve_right · hn)
  refine ⟨⟨fun e => ?_, h1⟩, ⟨fun e => ?_, fun ⟨w, hl⟩ => ?_⟩, ?_, ?_⟩
  · rcases h3 with h3 | ⟨w, h3⟩
    · exact h3
    · obtain ⟨b', y, e', _⟩ := h2 w h3
      exact (hno e ⟨b', y, e'⟩).elim
  · rcases h3 with h3 | h3
    · exact (hno (h1 h3) e).elim
    · exact h3
  · obtain ⟨b', y, e', _⟩ := h2 w hl
    exact ⟨b', y, e'⟩
  · intro w w' hl hl'
    obtain ⟨b1, y1, e1, g1⟩ := h2 w hl
    obtain ⟨b2, y2, e2, g2⟩ := h2 w' hl'
    rw [e1] at e2
    injection e2 with e2
    injection e2 with _ e2
    injection e2 with _ e2
    rw [← g1, ← g2, e2]
  · rcases h3 with h3 | ⟨w, h3⟩
    · exact Or.inl (h1 h3)
    · obtain ⟨b', y, e', _⟩ := h2 w h3
      exact Or.inr ⟨b', y, e'⟩

/-- **C38**, what happens instead, for every declaration and every packed field: contents that end inside an element are
accepted, the complete elements are appended, and decoding goes on after the contents. -/
theorem C38_cut_accepted {num cap : Nat} {sc : ScalarTy} (s : Slot fs num (.rep cap) (.scalar sc)) (x : (T).Obj) (b : β)
    (tg p good cut more rest : List Byte) (ys : List sc.Val) (v : sc.Val) (fuel : Nat) (h : (T).WF) (hx : (T).Reach x)
    (hb : M.Inv b) (hf : (M.view b).length < fuel) (hv : M.view b = tg ++ (p ++ ((good ++ cut) ++ rest)))
    (ht : Varint 32 tg (8 * num + 2)) (hl : Varint 32 p (good ++ cut).length)
    (hp : Packed (fun b y => sc.Payload b y) good ys) (hm : more ≠ []) (hc : sc.Payload (cut ++ more) v)
    (hfit : List.length (α := sc.Val) (s.get ((T).abs x).1) + ys.length ≤ cap) :
    ∃ b' y, Onward fs os fuel b x b' y ∧ M.Inv b' ∧ M.view b' = rest ∧ (T).Inv y ∧
      (T).abs y = (s.put ((T).abs x).1 (List.append (α := sc.Val) (s.get ((T).abs x).1) ys), ((T).abs x).2) := by
  have hi := ElemTy.reach_inv T h hx
  have hg : s.get ((T).abs x).1 = ((s.array x).1 : List sc.Val) := (s.get_array x).trans (List.map_id _)
  have hlen := s.array_length hi
  rw [hg] at hfit ⊢
  have hpk := parsePacked_ok (read := sc.read) (P := fun b y => sc.Payload b y) (fun _ r _ h => sc.read_ok r h) hp cut
    (sc.read_cut (sc.bad_of_cut hm hc)) (s.array x).1 (s.array x).2
    (by have : List.length (α := sc.Val) (s.array x).1 + List.length (α := sc.Val) (s.array x).2 = cap := hlen
        omega)
  have hps : parseScalars sc.read (p ++ ((good ++ cut) ++ rest)) (s.array x) =
      .ok (List.append (α := sc.Val) (s.array x).1 ys, List.drop (α := sc.Val) ys.length (s.array x).2) rest := by
    unfold parseScalars; rw [readLen_ok _ hl]
    exact window_ok (f := fun _ w => parsePacked sc.read w (s.array x).1 (s.array x).2) hpk
  obtain ⟨b', z, h1, h2, h3, h4, _, h5⟩ := s.onward_packed M h x hi fuel b tg _ rest _ _ hb hv ht hps hf
  exact ⟨b', z, h1, h2, h3, h4, h5⟩

/-- **C38**, what happens instead: a length that is no varint is accepted, the array has no new elements, and decoding
goes on after the five bytes. -/
theorem C38_length_accepted {num cap : Nat} {sc : ScalarTy} (s : Slot fs num (.rep cap) (.scalar sc)) (x : (T).Obj)
    (b : β) (tg p rest : List Byte) (fuel : Nat) (h : (T).WF) (hx : (T).Reach x) (hb : M.Inv b)
    (hf : (M.view b).length < fuel) (hv : M.view b = tg ++ (p ++ rest)) (ht : Varint 32 tg (8 * num + 2))
    (hl : p.length = 5) (hc : ∀ c ∈ p, cont c = true) :
    ∃ b' y, Onward fs os fuel b x b' y ∧ M.Inv b' ∧ M.view b' = rest ∧ (T).Inv y ∧ (T).abs y = (T).abs x := by
  have hi := ElemTy.reach_inv T h hx
  have hg : s.get ((T).abs x).1 = ((s.array x).1 : List sc.Val) := (s.get_array x).trans (List.map_id _)
  have hps : parseScalars sc.read (p ++ rest) (s.array x) = .ok ((s.array x).1, (s.array x).2) rest := by
    unfold parseScalars; rw [readLen_long p rest hl hc]
    have e : sc.read [] = (.error .endOfBuffer, []) := by cases sc <;> rfl
    simp only [window, List.take_zero, List.drop_zero]
    rw [parsePacked, e]
  obtain ⟨b', z, h1, h2, h3, h4, _, h5⟩ := s.onward_packed M h x hi fuel b tg _ rest _ _ hb hv ht hps hf
  refine ⟨b', z, h1, h2, h3, h4, ?_⟩
  rw [h5, ← hg, s.put_get]
  rfl

end

/-! ## Examples -/

local notation "M8" => ReadFixed.model 8 (by omega)
local notation "hold" => ReadFixed.holding 8

/-- `0A 04 08 05` for `0A 04 08 05 10 07`: it ends between two fields of the nested message, which has its first field
then. -/
example : Lost (.plain 1 (.msg (.plain 1 (.scalar .int32) (.plain 2 (.scalar .int32) .nil)) .nil) .nil) .nil
    [0x0A, 0x04, 0x08, 0x05] (nestedMsg.abs nestedMsg.cls.init) ((((5#32, 0#32, ()), ()), ()), ()) := by
  refine ⟨[], [0x0A, 0x04, 0x08, 0x05], _, rfl, .nil _, Or.inr ⟨[0x0A], [0x04, 0x08, 0x05], 1, .lengthDelimited, rfl,
    by decide, Or.inl ⟨Or.inl ⟨rfl, rfl, ?_, rfl⟩, rfl⟩⟩⟩
  refine ⟨[0x04], [0x08, 0x05], 4, rfl, by decide, by decide, [0x08, 0x05], [], ((5#32, 0#32, ()), ()), rfl, ?_,
    Or.inl ⟨⟨by decide, fun _ h => nomatch h⟩, rfl⟩⟩
  exact .cons (bs := [0x08, 0x05]) (bs' := []) (v := ((5#32, 0#32, ()), ()))
    ⟨1, .varint, [0x08], [0x05], by decide, rfl, Or.inl ⟨Or.inl ⟨rfl, rfl, ⟨5, by decide, rfl⟩, rfl⟩, rfl⟩⟩ (.nil _)

/-- `0A 03 05 AC` for `0A 03 05 AC 02`: it ends inside the second element of a packed array. -/
example : Lost (.repeated 1 3 (.scalar .uint32) .nil) .nil [0x0A, 0x03, 0x05, 0xAC] (onePacked.abs onePacked.cls.init)
    (([5#32], ()), ()) := by
  refine ⟨[], [0x0A, 0x03, 0x05, 0xAC], _, rfl, .nil _, Or.inr ⟨[0x0A], [0x03, 0x05, 0xAC], 1, .lengthDelimited, rfl,
    by decide, Or.inl ⟨Or.inl ⟨rfl, rfl, (show 1 ≤ 3 by decide), rfl, ?_⟩, rfl⟩⟩⟩
  rw [if_pos (by rfl)]
  exact ⟨[5#32], Or.inr ⟨[0x03], [0x05], [0xAC], [0x02], 300#32, 3, rfl, by decide, by decide,
    .cons (bs := [0x05]) (bs' := []) ⟨5, by decide, rfl⟩ .nil, by decide, 300, by decide, rfl⟩, rfl⟩

/-- `12 03 08 05` for `12 03 08 05 07` where there is no field 2: it ends inside the contents of an unknown field. -/
example : Overlong (.plain 1 (.scalar .int32) .nil) .nil [0x12, 0x03, 0x08, 0x05] ((0#32, ()), ()) :=
  ⟨[], [0x12], [0x03, 0x08, 0x05], 2, .lengthDelimited, _, rfl, .nil _, by decide,
    Or.inr (Or.inr ⟨by decide, by decide, rfl, [0x03], [0x08, 0x05], 3, rfl, by decide, by decide⟩)⟩

/-- Before the record `20 01`, for `message { repeated uint32 a = 1; }` (capacity 3): the contents `05 AC`,
and a length of five bytes that goes on. -/
example : (∃ b' y, Onward (.repeated 1 3 (.scalar .uint32) .nil) .nil 9 (hold [0x0A, 0x02, 0x05, 0xAC, 0x20, 0x01])
      onePacked.cls.init b' y ∧ (M8).Inv b' ∧ (M8).view b' = [0x20, 0x01] ∧ onePacked.Inv y ∧
      onePacked.abs y = (([5#32], ()), ())) ∧
    (∃ b' y, Onward (.repeated 1 3 (.scalar .uint32) .nil) .nil 9
      (hold [0x0A, 0xFF, 0xFF, 0xFF, 0xFF, 0xFF, 0x20, 0x01])
      onePacked.cls.init b' y ∧ (M8).Inv b' ∧ (M8).view b' = [0x20, 0x01] ∧ onePacked.Inv y ∧
      onePacked.abs y = onePacked.abs onePacked.cls.init) := by
  constructor
  · obtain ⟨b', y, h1, h2, h3, h4, h5⟩ := C38_cut_accepted M8 _ _ (sc := .uint32) (.repeated _ _ _ _) onePacked.cls.init
      (hold [0x0A, 0x02, 0x05, 0xAC, 0x20, 0x01]) [0x0A] [0x02] [0x05] [0xAC] [0x02] [0x20, 0x01] [5#32] 300#32 9
      onePacked_wf .init (ReadFixed.holding_inv _ _ _ (by decide)) (by decide) (ReadFixed.holding_view _ _ _) (by decide)
      (by decide) (.cons (bs := [0x05]) (bs' := []) ⟨5, by decide, rfl⟩ .nil) (by decide) ⟨300, by decide, rfl⟩
      (by decide)
    exact ⟨b', y, h1, h2, h3, h4, h5⟩
  · exact C38_length_accepted M8 _ _ (sc := .uint32) (.repeated _ _ _ _) onePacked.cls.init
      (hold [0x0A, 0xFF, 0xFF, 0xFF, 0xFF, 0xFF, 0x20, 0x01]) [0x0A] [0xFF, 0xFF, 0xFF, 0xFF, 0xFF] [0x20, 0x01] 9
      onePacked_wf .init (ReadFixed.holding_inv _ _ _ (by decide)) (by decide) (ReadFixed.holding_view _ _ _) (by decide)
      rfl (by decide)

end EP
