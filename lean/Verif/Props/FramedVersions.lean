import Verif.Props.Framed
import Verif.Props.ProtoVersions

/-!
# Messages in one buffer, for a program with another version: C95

C91 for two programs whose classes are of different versions of a declaration.
-/

namespace EP
open Gen Spec

section
variable (fs : Fields) (os : Oneofs)
local notation "T" => ElemTy.msg fs os

/-- What is received for bytes alone is what `deserialize` gives for a buffer with these bytes. -/
theorem alone_read (h : (T).WF) (p : List Byte) (hl : p.length < 4294967296) :
    ∃ (M : ReadModel (Section ReadFixed)) (s : Section ReadFixed), M.Inv s ∧ M.view s = p ∧
      ∃ e s' y, (T).cls.deserialize (p.length + 1) s (T).cls.init = .ok (e, s', y) ∧ (e, (T).abs y) = alone fs os p := by
  have hv : (ReadFixed.model p.length hl).view (ReadFixed.holding p.length p) = p ++ [] := by
    rw [List.append_nil]
    exact ReadFixed.holding_view ..
  have hB := ReadFixed.holding_inv p.length hl p (Nat.le_refl _)
  obtain ⟨k1, k2⟩ := Section.new_frame (ReadFixed.model p.length hl) _ p [] hB hv
  refine ⟨Section.frame (ReadFixed.model p.length hl) [], Section.new (ReadFixed.holding p.length p) p.length, k1, k2, ?_⟩
  obtain ⟨q1, q2⟩ := C64_section (ReadFixed.model p.length hl) fs os (T).cls.init _ p.length (p.length + 1) h .init hB
    (by rw [hv]; simp) (Nat.lt_succ_self _)
  have hh : (T).held (T).cls.init = (T).fresh := (ElemTy.init_held T h).init_abs
  rw [hv, List.take_left' rfl, hh] at q1 q2
  unfold alone
  unfold Agrees at q2
  cases hq : parseMessage fs os true p (T).fresh with
  | ok v r =>
    rw [hq] at q2
    obtain ⟨s, y, w1, _, _, w4⟩ := q2
    exact ⟨_, s, y, w1, by rw [w4]⟩
  | fail e v =>
    rw [hq] at q2
    obtain ⟨_, s, y, w1, _, w4⟩ := q2
    exact ⟨_, s, y, w1, by rw [w4]⟩
  | overrun => exact absurd hq q1

/-- What a program should receive of a message in which there is the value `v` for it: this value if it fits, otherwise
`ARRAY_FULL`. -/
def Received (v : (T).Val) (r : Error × (T).Val) : Prop :=
  ((T).Fits v ∧ r = (.noErrors, v)) ∨ (¬ (T).Fits v ∧ r.1 = .arrayFull)

end

section
variable {fs fs' : Fields} {os os' : Oneofs}
local notation "S" => ElemTy.msg fs os
local notation "T" => ElemTy.msg fs' os'

/-- **C95**, one message from a program with the newer version. -/
theorem C95_from_newer (o : (T).Older) (e : o.old = S) (h : (T).WF) (h' : (S).WF) (v : (T).Val)
    (hl : ((T).encode v).length < 2 ^ 32) : Received fs os (o.shownAs e v) (alone fs os ((T).encode v)) := by
  obtain ⟨M, s, g1, g2, r, s', y, g3, g4⟩ := alone_read fs os h' _ hl
  rw [← g4]
  rcases older_receiver M o e h h' v s _ g1 g2 (by rw [g2]; exact Nat.lt_succ_self _) with ⟨k1, b, z, k2, _, k3⟩ | ⟨k1, b, z, k2⟩
  · cases g3.symm.trans k2
    exact Or.inl ⟨k1, by rw [k3]⟩
  · cases g3.symm.trans k2
    exact Or.inr ⟨k1, rfl⟩

/-- **C95**, one message from a program with the older version. -/
theorem C95_from_older (o : (T).Older) (e : o.old = S) (h : (T).WF) (v : (S).Val)
    (hl : ((S).encode v).length < 2 ^ 32) : Received fs' os' (o.liftedAs e v) (alone fs' os' ((S).encode v)) := by
  obtain ⟨M, s, g1, g2, r, s', y, g3, g4⟩ := alone_read fs' os' h _ hl
  rw [← g4]
  rcases newer_receiver M o e h v s _ g1 g2 (by rw [g2]; exact Nat.lt_succ_self _) with ⟨k1, b, z, k2, _, k3⟩ | ⟨k1, b, z, k2⟩
  · cases g3.symm.trans k2
    exact Or.inl ⟨k1, by rw [k3]⟩
  · cases g3.symm.trans k2
    exact Or.inr ⟨k1, rfl⟩

end

/-- What is written with `putFrames` of `T` is read with `getFrames` of `S`: for each message of which `v` is the value,
`seen v`, if this fits. -/
def Streams (S T : ElemTy) (seen : T.Val → S.Val) (received : S.Val → Error × S.Val → Prop) : Prop :=
  ∀ (ω β : Type) [WriteBuffer ω] [ReadBuffer β] (W : WriteModel ω) (M : ReadModel β) (xs : List T.Obj) (w w' : ω)
    (room fuel : Nat) (b : β) (y : S.Obj) (rest : List Byte), (∀ x ∈ xs, T.Reach x) → W.Rep w [] room →
    putFrames T xs w = .ok (.noErrors, w') → (∀ x ∈ xs, (T.encode (T.canon (T.abs x))).length < 2 ^ 32) → S.Reach y →
    M.Inv b → (∀ c n, W.Rep w' c n → M.view b = c ++ rest) → (M.view b).length < fuel →
    ∃ l b' z, getFrames S fuel xs.length b y = .ok (l, b', z) ∧ M.Inv b' ∧ M.view b' = rest ∧ l.length = xs.length ∧
      ∀ r ∈ xs.zip l, received (seen (T.canon (T.abs r.1))) (r.2.1, S.abs r.2.2)

section
variable {fs fs' : Fields} {os os' : Oneofs}
local notation "S" => ElemTy.msg fs os
local notation "T" => ElemTy.msg fs' os'

/-- If every message is received as it should be, so is a stream of them. -/
theorem streams_of {seen : (T).Val → (S).Val} (h : (T).WF) (h' : (S).WF)
    (hs : ∀ v, ((T).encode v).length < 2 ^ 32 → Received fs os (seen v) (alone fs os ((T).encode v))) :
    Streams S T seen (Received fs os) := by
  intro ω β _ _ W M xs w w' room fuel b y rest hx hw hp hl hy hb hv hf
  have hA := C91_put_all W fs' os' xs w [] room h hx hw hl
  rw [hp] at hA
  rcases hA with ⟨_, hA⟩ | ⟨hA, _⟩
  · have hv := hv _ _ hA
    rw [List.nil_append] at hv
    have hv' : M.view b = (xs.map fun x => (T).encode ((T).canon ((T).abs x))).flatMap framed ++ rest := by
      rw [hv, List.flatMap_map]
    obtain ⟨l, b', z, g1, g2, g3, _, g5⟩ := C91_stream M fs os _ y b rest fuel h' (ElemTy.reach_inv S h' hy) hb hv' (by
      intro p hp
      refine Nat.lt_of_le_of_lt ?_ hf
      rw [hv']
      obtain ⟨s, t, e⟩ := List.append_of_mem hp
      rw [e]
      simp only [List.flatMap_append, List.flatMap_cons, List.length_append, framed]
      omega)
    rw [List.length_map] at g1
    refine ⟨l, b', z, g1, g2, g3, by simpa using congrArg List.length g5, ?_⟩
    rw [List.map_map] at g5
    clear g1 hv hv' hA hp hf
    induction xs generalizing l with
    | nil => exact fun r hr => nomatch hr
    | cons x xs ih =>
      cases l with
      | nil => exact nomatch g5
      | cons a l =>
        rw [List.map_cons, List.map_cons] at g5
        obtain ⟨e1, e2⟩ := List.cons.inj g5
        intro r hr
        rcases List.mem_cons.mp hr with hr | hr
        · subst hr
          show Received fs os _ (a.1, (S).abs a.2)
          rw [e1]
          exact hs _ (hl x (List.mem_cons_self ..))
        · exact ih (fun q hq => hx q (List.mem_cons_of_mem _ hq)) (fun q hq => hl q (List.mem_cons_of_mem _ hq)) l e2 r hr
  · exact nomatch hA

/-- **C95**: two versions of a declaration.  Each message of a stream written with one is received with the other as it
would be alone, and one that is too large for the receiver does not disturb those after it. -/
theorem C95_streams (o : (T).Older) (e : o.old = S) (h : (T).WF) (h' : (S).WF) :
    Streams S T (o.shownAs e) (Received fs os) ∧ Streams T S (o.liftedAs e) (Received fs' os') :=
  ⟨streams_of h h' fun v hl => C95_from_newer o e h h' v hl, streams_of h' h fun v hl => C95_from_older o e h v hl⟩

end

section
variable {old new : List (Str × List MsgDesc)} {P P' : Str → List Str} {own : Str} {l m : MsgDesc} {args args' : List Nat}
  {E E' : Types} {K K' : Class}
local notation "S" => ElemTy.msg (Class.fs K) (Class.os K)
local notation "T" => ElemTy.msg (Class.fs K') (Class.os K')

/-- **C95**, for two versions of `.proto` files. -/
theorem C95_files (hN : NewerFiles old new) (hU : Usable old P own l args) (hU' : Usable new P' own m args')
    (hK : IsClass old P own l args E K) (hK' : IsClass new P' own m args' E' K') :
    ∃ (o : (T).Older) (e : o.old = S),
      Streams S T (o.shownAs e) (Received K.fs K.os) ∧ Streams T S (o.liftedAs e) (Received K'.fs K'.os) := by
  obtain ⟨o, e⟩ := C92_types hN hU.ordered.fields hU'.ordered.fields hK.type hK'.type
  exact ⟨o, e, C95_streams o e hK'.implements.wf hK.implements.wf⟩

end

/-! ## Examples -/

namespace FramedSample

/-- `int32 a = 1; bytes note = 5; repeated uint32 r = 2;`: `note` was added, and there may be 4 elements instead of 2. -/
abbrev laterFields : Fields := .plain 1 (.scalar .int32) (.plain 5 (.str 8) (.repeated 2 4 (.scalar .uint32) .nil))
abbrev later : ElemTy := .msg laterFields .nil

/-- `fields` is an older version of it. -/
def was : later.Older :=
  .msg (.plain 1 (.scalar .int32) (.newPlain 5 (.str 8) (.repeated 2 4 2 (.scalar .uint32) .nil))) .nil

theorem was_old : was.old = ty := rfl
example : later.WF := by simp [ElemTy.WF, Fields.WF, Oneofs.WF, Fields.numbers, Oneofs.numbers]

/-- A note; three elements; two elements and a note. -/
def sent : List later.Val :=
  [((1#32, [1#8, 2#8], [], ()), ()), ((2#32, [], [7#32, 8#32, 9#32], ()), ()), ((3#32, [5#8], [4#32, 6#32], ()), ())]

/-- What a program with `fields` should receive: the second one is too large for it. -/
example : sent.map was.shown = ([((1#32, [], ()), ()), ((2#32, [7#32, 8#32, 9#32], ()), ()), ((3#32, [4#32, 6#32], ()), ())] :
    List ty.Val) := rfl

/-- What it receives. -/
def receivedOlder : Option (List Seen × List Byte) :=
  match getFrames ty 30 3 (ReadFixed.holding 60 ((sent.map later.encode).flatMap framed ++ [77])) ty.cls.init with
  | .ok (l, b, _) => some (l.map fun r => (r.1, ty.abs r.2), b.unread)
  | _ => none

example : (receivedOlder.getD ([], [])).1 = [shown .noErrors 1 [], shown .arrayFull 2 [7, 8], shown .noErrors 3 [4, 6]] ∧
    (receivedOlder.getD ([], [])).2 = [77] := by decide +kernel

end FramedSample

end EP
