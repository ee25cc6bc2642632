import Verif.Props.Malformed
import Verif.Props.Held
import Verif.Proof.HeldSlot

/-!
# C25 and C39 for every object

An element received by a repeated field is decoded into the leftover whose place it takes
(`Slot.array`: the elements in use and the leftovers of the array of a field).  With this the result is
known for every object, and it is seen that C25 and C39 hold exactly if the leftovers are blank.
-/

namespace EP
open Spec

section
variable {β : Type} [ReadBuffer β] (M : ReadModel β) (fs : Fields) (os : Oneofs)
local notation "T" => ElemTy.msg fs os

/-- **C39**, what happens for every object: each element received is merged into the leftover whose
place it takes; the other fields and the oneofs are unchanged. -/
theorem C39_held {num cap : Nat} {t : ElemTy} (s : Slot fs num (.rep cap) t) (x : (T).Obj) (b : β)
    (ys hs' : List t.Held) (fuel : Nat) (h : (T).WF) (hsc : t.isScalar = false) (hx : (T).Reach x)
    (hb : M.Inv b) (hf : (M.view b).length < fuel) (hp : Into num t (M.view b) (s.array x).2 ys hs') :
    ∃ b' y, (T).cls.deserialize fuel b x = .ok (.noErrors, b', y) ∧
      s.array y = ((s.array x).1 ++ ys, hs') ∧
      (T).abs y = (s.put ((T).abs x).1 (List.append (α := t.Val) (s.get ((T).abs x).1) (ys.map t.seen)),
        ((T).abs x).2) := by
  obtain ⟨b', y, fuel', h1, h2, h3, h4, h5, h6, h7⟩ := s.onward_into M h hsc hp x (ElemTy.reach_inv T h hx)
    (s.array x).1 rfl fuel b [] hb (List.append_nil _).symm hf
  obtain ⟨b'', k1, _⟩ := tagLoop_end M (MsgObj.step (fs.cls 0) os.cls fuel') fuel' (x := y) h3 h4 (by omega)
  refine ⟨b'', y, h2 _ k1, h6, h7.trans ?_⟩
  have e : ((((s.array x).1 ++ ys).map t.seen : List t.Val)) =
      List.append (α := t.Val) (s.get ((T).abs x).1) (ys.map t.seen) := by
    rw [List.map_append]
    exact congrArg (fun l => List.append (α := t.Val) l (ys.map t.seen)) (s.get_array x).symm
  exact congrArg (fun v => (s.put ((T).abs x).1 v, ((T).abs x).2)) e

/-- **C25**, what happens for every object: `ARRAY_FULL` when the leftovers are used up; the elements
received until then are there, the other fields and the oneofs are unchanged. -/
theorem C25_held {num cap : Nat} {t : ElemTy} (s : Slot fs num (.rep cap) t) (x : (T).Obj) (b : β)
    (pre tg r : List Byte) (ys : List t.Held) (fuel : Nat) (h : (T).WF) (hsc : t.isScalar = false)
    (hx : (T).Reach x) (hb : M.Inv b) (hf : (M.view b).length < fuel) (hv : M.view b = pre ++ (tg ++ r))
    (hp : Into num t pre (s.array x).2 ys []) (ht : Varint 32 tg (8 * num + 2)) :
    ∃ b' y, (T).cls.deserialize fuel b x = .ok (.arrayFull, b', y) ∧
      s.array y = ((s.array x).1 ++ ys, []) ∧
      (T).abs y = (s.put ((T).abs x).1 (List.append (α := t.Val) (s.get ((T).abs x).1) (ys.map t.seen)),
        ((T).abs x).2) := by
  obtain ⟨b', y, fuel', h1, h2, h3, h4, h5, h6, h7⟩ := s.onward_into M h hsc hp x (ElemTy.reach_inv T h hx)
    (s.array x).1 rfl fuel b (tg ++ r) hb hv hf
  obtain ⟨b'', z, k1, _, _, k4, k5⟩ := s.full_array M h hsc y h5 fuel' b' tg r _ h6 h3 h4 ht (by omega)
  refine ⟨b'', z, h2 _ k1, k4.trans h6, (k5.trans h7).trans ?_⟩
  have e : ((((s.array x).1 ++ ys).map t.seen : List t.Val)) =
      List.append (α := t.Val) (s.get ((T).abs x).1) (ys.map t.seen) := by
    rw [List.map_append]
    exact congrArg (fun l => List.append (α := t.Val) l (ys.map t.seen)) (s.get_array x).symm
  exact congrArg (fun v => (s.put ((T).abs x).1 v, ((T).abs x).2)) e

/-- The leftovers of an array are blank. -/
def BlankRest (t : ElemTy) (hs : List t.Held) : Prop :=
  ∀ g ∈ hs, t.seen g = t.dflt ∧ t.Blank g

/-- Elements received into blank leftovers show what was sent. -/
theorem Elements.into {num : Nat} {t : ElemTy} {bs : List Byte} {ys : List t.Val}
    (hp : Elements num t bs ys) : ∀ hs : List t.Held, BlankRest t hs → (∀ g ∈ hs, t.Sized g) →
    ys.length ≤ hs.length →
    ∃ zs, Into num t bs hs zs (hs.drop ys.length) ∧ zs.map t.seen = ys := by
  induction hp with
  | nil => exact fun hs _ _ _ => ⟨[], .nil hs, rfl⟩
  | @cons c bs' v vs h1 h2 ih =>
    intro hs hbl hsz hl
    obtain ⟨tg, p, e1, e2, e3⟩ := h1
    cases hs with
    | nil => simp at hl
    | cons g hs =>
      obtain ⟨g1, g2⟩ := hbl g List.mem_cons_self
      obtain ⟨z, k1, k2, _⟩ := ElemTy.lift t p g v (by rw [g1]; exact e3)
        ⟨g2, hsz g List.mem_cons_self⟩
      obtain ⟨zs, k3, k4⟩ := ih hs (fun d hd => hbl d (List.mem_cons_of_mem _ hd))
        (fun d hd => hsz d (List.mem_cons_of_mem _ hd)) (by simpa using hl)
      refine ⟨z :: zs, ?_, by rw [List.map_cons, k2, k4]⟩
      rw [e2, List.append_assoc]
      exact .cons e1 k1 k3

/-- **C39** for every object whose array of this field has blank leftovers, whatever the other fields
hold. -/
theorem C39_blank_partial {num cap : Nat} {t : ElemTy} (s : Slot fs num (.rep cap) t) (x : (T).Obj)
    (b : β) (ys : List t.Val) (fuel : Nat) (h : (T).WF) (hsc : t.isScalar = false) (hx : (T).Reach x)
    (hbl : BlankRest t (s.array x).2) (hb : M.Inv b) (hf : (M.view b).length < fuel)
    (hfit : List.length (α := t.Val) (s.get ((T).abs x).1) + ys.length ≤ cap)
    (hp : Elements num t (M.view b) ys) :
    ∃ b' y, (T).cls.deserialize fuel b x = .ok (.noErrors, b', y) ∧
      (T).abs y = (s.put ((T).abs x).1 (List.append (α := t.Val) (s.get ((T).abs x).1) ys),
        ((T).abs x).2) := by
  have hl := s.array_length (ElemTy.reach_inv T h hx)
  have hg : List.length (α := t.Val) (s.get ((T).abs x).1) = (s.array x).1.length := by
    rw [s.get_array]; exact List.length_map ..
  obtain ⟨zs, h1, h2⟩ := Elements.into hp (s.array x).2 hbl (s.sized_array (ElemTy.reach_inv T h hx)) (by omega)
  obtain ⟨b', y, k1, _, k3⟩ := C39_held M fs os s x b zs _ fuel h hsc hx hb hf h1
  exact ⟨b', y, k1, by rw [k3, h2]⟩

/-- **C25** for every object whose array of this field has blank leftovers. -/
theorem C25_blank_partial {num cap : Nat} {t : ElemTy} (s : Slot fs num (.rep cap) t) (x : (T).Obj)
    (b : β) (ys : List t.Val) (fuel : Nat) (h : (T).WF) (hsc : t.isScalar = false) (hx : (T).Reach x)
    (hbl : BlankRest t (s.array x).2) (hb : M.Inv b) (hf : (M.view b).length < fuel)
    (hfull : cap < List.length (α := t.Val) (s.get ((T).abs x).1) + ys.length)
    (hp : Elements num t (M.view b) ys) :
    ∃ b' y, (T).cls.deserialize fuel b x = .ok (.arrayFull, b', y) ∧
      (T).abs y = (s.put ((T).abs x).1 (List.take (α := t.Val) cap
        (List.append (α := t.Val) (s.get ((T).abs x).1) ys)), ((T).abs x).2) := by
  have hi := ElemTy.reach_inv T h hx
  have hl := s.array_length hi
  have hg : List.length (α := t.Val) (s.get ((T).abs x).1) = (s.array x).1.length := by
    rw [s.get_array]; exact List.length_map ..
  have hle : List.length (α := t.Val) (s.get ((T).abs x).1) ≤ cap := s.length_le hi
  have hk : cap - List.length (α := t.Val) (s.get ((T).abs x).1) < ys.length := by omega
  obtain ⟨pre, c, post, e1, e2, tg, p, e3, e4, e5⟩ := Packed.split hp _ hk
  obtain ⟨htake, hlen⟩ := take_full (V := t.Val) (s.get ((T).abs x).1) ys cap hle hfull
  obtain ⟨zs, h1, h2⟩ := Elements.into e2 (s.array x).2 hbl (s.sized_array hi) (by omega)
  rw [List.drop_of_length_le (by omega)] at h1
  obtain ⟨b', y, k1, _, k3⟩ := C25_held M fs os s x b pre tg (p ++ post) zs fuel h hsc hx hb hf
    (by rw [e1, e4, List.append_assoc]) h1 e3
  refine ⟨b', y, k1, ?_⟩
  rw [k3, h2]
  exact congrArg (fun v => (s.put ((T).abs x).1 v, ((T).abs x).2)) htake

/-- The records of the elements `ys`, as an encoder writes them. -/
def elementRecords (num : Nat) (t : ElemTy) (ys : List t.Val) : List Byte :=
  (ys.map fun y => tag num .lengthDelimited ++ lenDelim (t.encode y)).flatten

theorem elementRecords_into {num : Nat} {t : ElemTy} (h : t.WF) (hn : num < 536870912)
    (hsc : t.isScalar = false) (ys : List t.Val) : ∀ hs : List t.Held, RoomList t.Room hs ys →
    (elementRecords num t ys).length < 4294967296 →
    Into num t (elementRecords num t ys) hs (List.zipWith t.absorb hs ys) (hs.drop ys.length) := by
  induction ys with
  | nil =>
    intro hs _ _
    rw [List.zipWith_nil_right]
    exact .nil hs
  | cons y ys ih =>
    intro hs hr hl
    cases hs with
    | nil => exact absurd hr.1 (by simp)
    | cons g hs =>
      have hw : ∀ bs, t.wrap bs = lenDelim bs := fun bs => by
        cases t with
        | scalar => exact nomatch hsc
        | str => rfl
        | msg => rfl
      unfold elementRecords at hl
      rw [List.map_cons, List.flatten_cons, List.length_append, List.length_append] at hl
      have hp := ElemTy.hpayload_encode readable_enc t h g y
        (hr.2 (g, y) List.mem_cons_self) (by rw [hw]; show (lenDelim (t.encode y)).length < _; omega)
      have hi := ih hs ⟨by simpa using hr.1, fun p hp => hr.2 p (List.mem_cons_of_mem _ hp)⟩
        (by unfold elementRecords; omega)
      rw [hw] at hp
      have := Into.cons (tag_spec num .lengthDelimited hn) hp hi
      unfold elementRecords at this ⊢
      rw [List.map_cons, List.flatten_cons, List.append_assoc]
      exact this

/-- **C39**, elements as an encoder writes them, received by any object: what is appended are the
leftovers with the elements merged into them. -/
theorem C39_received {num cap : Nat} {t : ElemTy} (s : Slot fs num (.rep cap) t) (x : (T).Obj) (b : β)
    (ys : List t.Val) (fuel : Nat) (h : (T).WF) (hsc : t.isScalar = false) (hx : (T).Reach x)
    (hb : M.Inv b) (hv : M.view b = elementRecords num t ys) (hf : (M.view b).length < fuel)
    (hroom : RoomList t.Room (s.array x).2 ys) :
    ∃ b' y, (T).cls.deserialize fuel b x = .ok (.noErrors, b', y) ∧
      (T).abs y = (s.put ((T).abs x).1 (List.append (α := t.Val) (s.get ((T).abs x).1)
        ((List.zipWith t.absorb (s.array x).2 ys).map t.seen)), ((T).abs x).2) := by
  have hl := M.view_lt b hb
  have hwf := s.wf (by have h' := h; simp only [ElemTy.WF] at h'; exact h'.1)
  have hn : num < 536870912 := by
    have h' := h
    simp only [ElemTy.WF] at h'
    exact (h'.2.2.2 num (List.mem_append_left _ s.mem)).2
  obtain ⟨b', y, k1, _, k3⟩ := C39_held M fs os s x b _ _ fuel h hsc hx hb hf
    (by rw [hv]; exact elementRecords_into hwf.1 hn hsc ys _ hroom (by rw [← hv]; omega))
  exact ⟨b', y, k1, k3⟩

end

/-- **C39**, exactly: what is appended are the elements that were sent, whichever they are, if and only
if the leftovers are blank. -/
theorem C39_blank_iff (t : ElemTy) (ht : t.isMsg = true) (hs : List t.Held) :
    (∀ ys, RoomList t.Room hs ys → (List.zipWith t.absorb hs ys).map t.seen = ys) ↔ BlankRest t hs := by
  constructor
  · intro h
    have := (Fields.blank_of (.repeated 1 0 t .nil) (((([] : List t.Held), hs), ()) : (List t.Held × List t.Held) × Unit)
      fun v hv => by
        refine Prod.ext ?_ rfl
        show List.map t.seen ([] ++ List.zipWith t.absorb hs v.1) = List.map t.seen [] ++ v.1
        rw [List.nil_append, List.map_nil, List.nil_append]
        exact h v.1 hv.1)
    exact this.1 ht
  · intro hb ys hr
    have := congrArg Prod.fst (Fields.seen_absorb (.repeated 1 0 t .nil)
      (((([] : List t.Held), hs), ()) : (List t.Held × List t.Held) × Unit) ((ys, ()) : List t.Val × Unit)
      ⟨fun _ => hb, trivial⟩ ⟨hr, trivial⟩)
    have : List.map t.seen ([] ++ List.zipWith t.absorb hs ys) = List.map t.seen [] ++ ys := this
    simpa using this

/-! ## Examples -/

/-- The object of `C18_false` has a leftover that is not blank; of `{}`, `{ b: 7 }` received, the first
shows the 5 that was left. -/
example : repMsg.Reach staleRep ∧ ¬ BlankRest (oneScalar 1 .int32) (repSlot.array (os := .nil) staleRep).2 ∧
    RoomList (oneScalar 1 .int32).Room (repSlot.array (os := .nil) staleRep).2
      [((0#32, ()), ()), ((7#32, ()), ())] ∧
    (List.zipWith (oneScalar 1 .int32).absorb (repSlot.array (os := .nil) staleRep).2
      [((0#32, ()), ()), ((7#32, ()), ())]).map (oneScalar 1 .int32).seen =
      ([((5#32, ()), ()), ((7#32, ()), ())] : List ((BitVec 32 × Unit) × Unit)) := by
  refine ⟨staleRep_reach, ?_, ⟨by decide, ?_⟩, rfl⟩
  · intro h
    have := (h (((5#32, ()), ()) : (oneScalar 1 .int32).Held) List.mem_cons_self).1
    have : (((5#32, ()), ()) : (BitVec 32 × Unit) × Unit) = ((0#32, ()), ()) := this
    exact absurd this (by decide)
  · intro p _
    exact ⟨⟨fun _ => trivial, trivial⟩, trivial⟩

/-- The same with a third element: the premises of `C25_held` can be met. -/
example : Into 1 (oneScalar 1 .int32) (elementRecords 1 (oneScalar 1 .int32)
      ([((0#32, ()), ()), ((7#32, ()), ())] : List ((BitVec 32 × Unit) × Unit)))
    (repSlot.array (os := .nil) staleRep).2
    ([((5#32, ()), ()), ((7#32, ()), ())] : List ((BitVec 32 × Unit) × Unit)) [] :=
  elementRecords_into (oneScalar_wf .int32) (by decide) rfl
    ([((0#32, ()), ()), ((7#32, ()), ())] : List ((BitVec 32 × Unit) × Unit)) _
    ⟨by decide, fun p _ => ⟨⟨fun _ => trivial, trivial⟩, trivial⟩⟩ (by decide +kernel)

end EP
