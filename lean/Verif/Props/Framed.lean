import Verif.Model.Framed
import Verif.Spec.Framed
import Verif.Props.TooLarge
import Verif.Props.Encode

/-!
# Messages in one buffer: C91

A program that writes several messages to one buffer, each preceded by its size, and reads them back with the classes of
the library (`Model/Framed.lean`).
-/

namespace EP
open Spec

section
variable {β : Type} [ReadBuffer β] (M : ReadModel β) (fs : Fields) (os : Oneofs)
local notation "T" => ElemTy.msg fs os

/-- **C91**, one message: any bytes after any size.  Decoding ends, its result is the one for these bytes alone, whatever
the object held before, and the buffer is at the byte after them, also after an error. -/
theorem C91_frame (x : (T).Obj) (b : β) (p rest : List Byte) (fuel : Nat) (h : (T).WF) (hx : (T).Inv x) (hb : M.Inv b)
    (hv : M.view b = framed p ++ rest) (hf : p.length < fuel) :
    ∃ e b' y, getFramed T fuel b x = .ok (e, b', y) ∧ M.Inv b' ∧ M.view b' = rest ∧ (T).Inv y ∧
      (e, (T).abs y) = alone fs os p := by
  have hl := M.view_lt b hb
  rw [hv, framed] at hl
  simp only [List.length_append] at hl
  rw [framed, List.append_assoc] at hv
  obtain ⟨⟨r, b1⟩, g1, g2, g3, g4⟩ := Res.Post.exists (varint_dec M 32 (varint p.length) (p ++ rest) p.length
    (varint_spec 32 p.length (by decide) (by omega)) b hb hv)
  dsimp only at g2 g3 g4
  subst g2
  have hn : (BitVec.ofNat 32 p.length).toNat = p.length := by
    rw [BitVec.toNat_ofNat]; exact Nat.mod_eq_of_lt (by omega)
  have hc : (T).cls.clear x = .ok (T).cls.init := (ElemTy.base T h).clear x hx
  obtain ⟨k1, k2⟩ := Section.new_frame M b1 p rest g3 g4
  have hs := ElemTy.msg_safe fs os h (Section.frame M rest) fuel (Section.new b1 p.length) (T).cls.init k1
    (ElemTy.reach_inv T h .init)
  obtain ⟨q1, q2⟩ := C64_section M fs os (T).cls.init b1 p.length fuel h .init g3 (by rw [g4]; simp) hf
  have hh : (T).held (T).cls.init = (T).fresh := (ElemTy.init_held T h).init_abs
  rw [g4, List.take_left' rfl, hh] at q1 q2
  obtain ⟨e, s, y, w1, w2⟩ : ∃ e s y, (T).cls.deserialize fuel (Section.new b1 p.length) (T).cls.init = .ok (e, s, y) ∧
      (e, (T).abs y) = alone fs os p := by
    unfold alone
    unfold Agrees at q2
    cases hq : parseMessage fs os true p (T).fresh with
    | ok v r =>
      rw [hq] at q2
      obtain ⟨s, y, w1, _, _, w4⟩ := q2
      exact ⟨_, s, y, w1, by rw [w4]⟩
    | fail e v =>
      rw [hq] at q2
      obtain ⟨_, s, y, w1, _, w4⟩ := q2
      exact ⟨_, s, y, w1, by rw [w4]⟩
    | overrun => exact absurd hq q1
  rw [w1] at hs
  obtain ⟨z1, z2, _⟩ := hs
  obtain ⟨v, f1, f2⟩ := z1.frame
  have fl : ((Section.frame M rest).view s).length = ReadBuffer.getSize s := by
    show (List.take s.size (M.view s.buffer)).length = s.size
    rw [f1, List.take_left' f2, f2]
  obtain ⟨r, s', a1, a2, a3⟩ := (Section.frame M rest).advanceN_le s (ReadBuffer.getSize s) z1 (by omega)
  rw [List.drop_of_length_le (by omega)] at a3
  obtain ⟨e1, e2⟩ := Section.frame_end M rest s' a2 a3
  refine ⟨e, s'.buffer, y, ?_, e1, e2, z2, w2⟩
  unfold getFramed
  rw [g1]
  simp only [Res.ok_bind]
  rw [hc, hn]
  simp only [Res.ok_bind]
  rw [w1]
  simp only [Res.ok_bind]
  rw [a1]
  rfl

/-- **C91**, any number of messages, read one after the other into one object.  What is received for each is what would be
received if it were the only one; in particular one that cannot be decoded does not disturb the others. -/
theorem C91_stream (ps : List (List Byte)) (x : (T).Obj) (b : β) (rest : List Byte) (fuel : Nat) (h : (T).WF)
    (hx : (T).Inv x) (hb : M.Inv b) (hv : M.view b = ps.flatMap framed ++ rest) (hf : ∀ p ∈ ps, p.length < fuel) :
    ∃ l b' y, getFrames T fuel ps.length b x = .ok (l, b', y) ∧ M.Inv b' ∧ M.view b' = rest ∧ (T).Inv y ∧
      l.map (fun r => (r.1, (T).abs r.2)) = ps.map (alone fs os) := by
  induction ps generalizing x b with
  | nil => exact ⟨[], b, x, rfl, hb, hv, hx, rfl⟩
  | cons p ps ih =>
    rw [List.flatMap_cons, List.append_assoc] at hv
    obtain ⟨e, b1, y, g1, g2, g3, g4, g5⟩ := C91_frame M fs os x b p _ fuel h hx hb hv (hf p (List.mem_cons_self ..))
    obtain ⟨l, b2, z, k1, k2, k3, k4, k5⟩ := ih y b1 g4 g2 g3 (fun q hq => hf q (List.mem_cons_of_mem _ hq))
    refine ⟨(e, y) :: l, b2, z, ?_, k2, k3, k4, ?_⟩
    · simp only [List.length_cons, getFrames]
      rw [g1]
      simp only [Res.ok_bind]
      rw [k1]
      rfl
    · rw [List.map_cons, List.map_cons, k5, ← g5]

/-- **C91**, an encoding of any value: it is received if it fits the class, and otherwise refused. -/
theorem C91_sent {sc : (s : ScalarTy) → s.Val → List Byte} (hsc : Readable sc) (h : (T).WF) (v : (T).Val)
    (hl : ((T).encodeWith sc v).length < 4294967296) :
    (T).Fits v ∧ alone fs os ((T).encodeWith sc v) = (.noErrors, v) ∨
    ¬ (T).Fits v ∧ (alone fs os ((T).encodeWith sc v)).1 = .arrayFull := by
  have hi : (T).Inv (T).cls.init := ElemTy.reach_inv T h .init
  have hh : (T).held (T).cls.init = (T).fresh := (ElemTy.init_held T h).init_abs
  have hbl : (T).Blank (T).fresh := hh ▸ ElemTy.Tidy.blank h (Or.inr .init)
  have hsz : (T).Sized (T).fresh := hh ▸ (T).sized_held _ hi
  have hd : (T).seen (T).fresh = (T).dflt := by
    rw [← hh, (T).seen_held]
    exact (ElemTy.base T h).init_abs
  by_cases hfit : (T).Fits v
  · refine Or.inl ⟨hfit, ?_⟩
    have hr := records_encode hsc fs os h (T).dflt v (by rwa [ElemTy.merge_dflt]) hl
    rw [ElemTy.merge_dflt, ← hd] at hr
    obtain ⟨u, hu, e, _⟩ := Records.held _ hr hbl hsz
    have := hu.parse h.distinct true
    unfold alone
    rw [this]
    exact Prod.ext rfl e
  · refine Or.inr ⟨hfit, ?_⟩
    rcases wellFormed_exact h (encode_wellFormed hsc fs os h v hl) (T).fresh with ⟨u, hu⟩ | hfull
    · generalize hbs : (T).encodeWith sc v = bs at *
      have hn : bs.length < bs.length + 1 := Nat.lt_succ_self _
      have hv : (ReadFixed.model bs.length hl).view (ReadFixed.holding bs.length bs) = bs := ReadFixed.holding_view ..
      have hB := ReadFixed.holding_inv bs.length hl bs (Nat.le_refl _)
      have a := C64_reference (ReadFixed.model bs.length hl) fs os (T).cls.init _ (bs.length + 1) h .init hB (by rwa [hv])
      rw [hv, hh, hu.parse h.distinct false] at a
      obtain ⟨b', y, a, _⟩ := a
      rcases C90_encodings (ReadFixed.model bs.length hl) fs os hsc h v (T).cls.init _ (bs.length + 1) (Or.inl rfl) hB
        (hv.trans hbs.symm) (by rwa [hv]) with ⟨q, _⟩ | ⟨_, b2, z2, q⟩
      · exact absurd q hfit
      · exact nomatch a.symm.trans q
    · obtain ⟨w, hfull⟩ := hfull true
      unfold alone
      rw [hfull]

end

/-! ## Writing -/

section
variable {ω : Type} [WriteBuffer ω] (M : WriteModel ω) (fs : Fields) (os : Oneofs)
local notation "T" => ElemTy.msg fs os

theorem Appends.andThen {M : WriteModel ω} {c p q : List Byte} {room : Nat} {r : Res (Error × ω)} {k : ω → Res (Error × ω)}
    (h1 : Appends M c room p r) (h2 : ∀ w, M.Rep w (c ++ p) (room - p.length) → Appends M (c ++ p) (room - p.length) q (k w)) :
    Appends M c room (p ++ q) (r >>= fun a => if a.1 = .noErrors then k a.2 else pure a) := by
  obtain ⟨⟨e, w⟩, g1, g2⟩ := Res.Post.exists h1
  rw [g1]
  show Appends M c room (p ++ q) (if e = .noErrors then k w else pure (e, w))
  rcases g2 with ⟨g2, g3⟩ | ⟨g2, g3, n, room', g4, g5⟩
  · dsimp only at g2 g3
    subst g2
    rw [if_pos rfl]
    refine (h2 w g3).mono ?_
    rintro ⟨e, w'⟩ (⟨k1, k2⟩ | ⟨k1, k2, n, room', k3, k4⟩)
    · refine Or.inl ⟨k1, ?_⟩
      rw [List.append_assoc, Nat.sub_sub] at k2
      rw [List.length_append]
      exact k2
    · refine Or.inr ⟨k1, by rw [List.length_append]; omega, p.length + n, room', by rw [List.length_append]; omega, ?_⟩
      rw [List.append_assoc] at k4
      rw [List.take_length_add_append]
      exact k4
  · dsimp only at g2 g5
    subst g2
    rw [if_neg (by decide)]
    refine Or.inr ⟨rfl, by rw [List.length_append]; omega, n, room', by rw [List.length_append]; omega, ?_⟩
    rw [List.take_append_of_le_length (by omega)]
    exact g5

/-- The bytes of a message with its size. -/
abbrev frameOf (x : (T).Obj) : List Byte := framed ((T).encode ((T).canon ((T).abs x)))

/-- **C91**, writing one message with its size. -/
theorem C91_put (x : (T).Obj) (w : ω) (c : List Byte) (room : Nat) (h : (T).WF) (hx : (T).Reach x) (hw : M.Rep w c room)
    (hl : ((T).encode ((T).canon ((T).abs x))).length < 2 ^ 32) :
    Appends M c room (frameOf fs os x) (putFramed T x w) := by
  unfold putFramed frameOf framed
  rw [C14_size_of_encoding fs os x h hx hl]
  simp only [Res.ok_bind]
  have hn : (BitVec.ofNat 32 ((T).encode ((T).canon ((T).abs x))).length).toNat
      = ((T).encode ((T).canon ((T).abs x))).length := by
    rw [BitVec.toNat_ofNat]; exact Nat.mod_eq_of_lt hl
  have h1 := (serializeVarint_appends M (by decide) (BitVec.ofNat 32 ((T).encode ((T).canon ((T).abs x))).length) w hw).weaken
  rw [hn] at h1
  exact h1.andThen fun w' hw' => C13_serialize_partial M fs os x w' _ _ h hx hw' hl

/-- **C91**, writing any number of messages. -/
theorem C91_put_all (xs : List (T).Obj) (w : ω) (c : List Byte) (room : Nat) (h : (T).WF) (hx : ∀ x ∈ xs, (T).Reach x)
    (hw : M.Rep w c room) (hl : ∀ x ∈ xs, ((T).encode ((T).canon ((T).abs x))).length < 2 ^ 32) :
    Appends M c room (xs.flatMap (frameOf fs os)) (putFrames T xs w) := by
  induction xs generalizing w c room with
  | nil => exact Or.inl ⟨rfl, by simpa using hw⟩
  | cons x xs ih =>
    exact (C91_put M fs os x w c room h (hx x (List.mem_cons_self ..)) hw (hl x (List.mem_cons_self ..))).andThen
      fun w' hw' => ih w' _ _ (fun y hy => hx y (List.mem_cons_of_mem _ hy)) hw' (fun y hy => hl y (List.mem_cons_of_mem _ hy))

end

section
variable {ω β : Type} [WriteBuffer ω] [ReadBuffer β] (W : WriteModel ω) (M : ReadModel β) (fs : Fields) (os : Oneofs)
local notation "T" => ElemTy.msg fs os

/-- **C91**: what is written with `putFrames` is read with `getFrames`, also when it is followed by other bytes. -/
theorem C91_round_trip (xs : List (T).Obj) (w w' : ω) (room fuel : Nat) (b : β) (y : (T).Obj) (rest : List Byte) (h : (T).WF)
    (hx : ∀ x ∈ xs, (T).Reach x) (hw : W.Rep w [] room) (hp : putFrames T xs w = .ok (.noErrors, w'))
    (hl : ∀ x ∈ xs, ((T).encode ((T).canon ((T).abs x))).length < 2 ^ 32) (hy : (T).Reach y) (hb : M.Inv b)
    (hv : ∀ c n, W.Rep w' c n → M.view b = c ++ rest) (hf : (M.view b).length < fuel) :
    ∃ l b' z, getFrames T fuel xs.length b y = .ok (l, b', z) ∧ M.Inv b' ∧ M.view b' = rest ∧
      l.map (fun r => (r.1, (T).abs r.2)) = xs.map fun x => (.noErrors, (T).canon ((T).abs x)) := by
  have hA := C91_put_all W fs os xs w [] room h hx hw hl
  rw [hp] at hA
  rcases hA with ⟨_, hA⟩ | ⟨hA, _⟩
  · have hv := hv _ _ hA
    rw [List.nil_append] at hv
    have hv' : M.view b = (xs.map fun x => (T).encode ((T).canon ((T).abs x))).flatMap framed ++ rest := by
      rw [hv, List.flatMap_map]
    obtain ⟨l, b', z, g1, g2, g3, _, g5⟩ := C91_stream M fs os _ y b rest fuel h (ElemTy.reach_inv T h hy) hb hv' (by
      intro p hp
      refine Nat.lt_of_le_of_lt ?_ hf
      rw [hv']
      obtain ⟨s, t, e⟩ := List.append_of_mem hp
      rw [e]
      simp only [List.flatMap_append, List.flatMap_cons, List.length_append, framed]
      omega)
    rw [List.length_map] at g1
    refine ⟨l, b', z, g1, g2, g3, ?_⟩
    rw [g5, List.map_map]
    refine List.map_congr_left fun x hxm => ?_
    rcases C91_sent fs os readable_enc h ((T).canon ((T).abs x)) (hl x hxm) with ⟨_, e⟩ | ⟨e, _⟩
    · exact e
    · exact absurd (ElemTy.fits_canon T _ (ElemTy.fits_abs T x (ElemTy.reach_inv T h (hx x hxm)))) e
  · exact nomatch hA

end

/-! ## Examples -/

namespace FramedSample

/-- `int32 a = 1; repeated uint32 r = 2;` of at most 2 elements. -/
abbrev fields : Fields := .plain 1 (.scalar .int32) (.repeated 2 2 (.scalar .uint32) .nil)
abbrev ty : ElemTy := .msg fields .nil

example : ty.WF := by simp [ElemTy.WF, Fields.WF, Oneofs.WF, Fields.numbers, Oneofs.numbers]

/-- A message; an invalid tag; three elements, too many; one that after a value for `a` has another
one of the wrong wire type; no bytes; a message. -/
def stream : List (List Byte) := [[0x08, 1], [0x07], [0x12, 3, 1, 2, 3], [0x08, 5, 0x0A, 0], [], [0x12, 2, 7, 8]]

abbrev Seen : Type := Error × (BitVec 32 × List (BitVec 32) × Unit) × Unit
def shown (e : Error) (a : BitVec 32) (r : List (BitVec 32)) : Seen := (e, (a, r, ()), ())

/-- What is received for each of them alone. -/
example : (stream.map (alone fields .nil) : List Seen) =
    [shown .noErrors 1 [], shown .invalidWiretype 0 [], shown .arrayFull 0 [1, 2], shown .invalidWiretype 5 [],
      shown .noErrors 0 [], shown .noErrors 0 [7, 8]] := by decide +kernel

/-- And for all of them in one buffer. -/
def received : Option (List Seen × List Byte) :=
  match getFrames ty 30 6 (ReadFixed.holding 40 (stream.flatMap framed ++ [77])) ty.cls.init with
  | .ok (l, b, _) => some (l.map fun r => (r.1, ty.abs r.2), b.unread)
  | _ => none

def expected : List Seen := stream.map (alone fields .nil)

example : (received.getD ([], [])).1 = expected ∧ (received.getD ([], [])).2 = [77] := by decide +kernel

/-- Without the sizes: the second one ends everything. -/
example : (match ty.cls.deserialize 30 (ReadFixed.holding 40 stream.flatten) ty.cls.init with
    | .ok (e, _, y) => some ((e, ty.abs y) : Seen) | _ => none) = some (shown .invalidWiretype 1 []) := by decide +kernel

end FramedSample

end EP
