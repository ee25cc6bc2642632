import Verif.Proof.Steady
import Verif.Props.Spared
import Verif.Props.Cut
import Verif.Props.Interop
import Verif.Props.Values

/-!
# For which declarations: C23, C24, C38, C52 and C62

What is said elsewhere of single fields and objects decides which declarations are free of these faults.
-/

namespace EP
open Spec

section
variable (fs : Fields) (os : Oneofs)
local notation "T" => ElemTy.msg fs os

theorem slot_number {num : Nat} {c : Card} {t : ElemTy} (h : (T).WF) (s : Slot fs num c t) : num < 536870912 := by
  simp only [ElemTy.WF] at h
  exact (h.2.2.2 num (List.mem_append_left _ s.mem)).2

theorem member_number {num : Nat} {a : Alts} {t : ElemTy} (h : (T).WF) (s : OneofSlot os a) (m : Member a num t) :
    num < 536870912 := by
  simp only [ElemTy.WF] at h
  exact (h.2.2.2 num (List.mem_append_right _ (s.mem m.mem))).2

theorem tag_short (num : Nat) (wt : WireType) (h : num < 536870912) : (tag num wt).length ≤ 5 :=
  varint_length_le 5 _ (by have : wireNumber wt < 8 := by cases wt <;> decide
                           omega) (by decide)

/-- A wire type that is another one. -/
def otherWire : WireType → WireType
  | .varint => .fixed32
  | _ => .varint

theorem otherWire_ne (wt : WireType) : otherWire wt ≠ wt := by cases wt <;> decide

/-- **C23**, the declarations: a field of the wrong wire type always leaves everything as it was if and only if there is neither an
`optional` field nor a oneof. -/
theorem C23_declarations (h : (T).WF) : C23_Statement fs os ↔
    (∀ num t, Slot fs num .opt t → False) ∧ (∀ a num t, OneofSlot os a → Member a num t → False) := by
  constructor
  · intro hC
    refine ⟨fun num t s => ?_, fun a num t s m => ?_⟩
    · have hn := slot_number fs os h s
      have hbl : (tag num (otherWire (Card.wire .opt t))).length < 2 ^ 32 := by have := tag_short num (otherWire (Card.wire .opt t)) hn; omega
      have hb := ReadFixed.holding_inv _ hbl _ (Nat.le_refl _)
      have hview := (ReadFixed.holding_view _ hbl (tag num (otherWire (Card.wire .opt t)))).trans (List.append_nil _).symm
      obtain ⟨b1, y1, e1, _, i1⟩ := C23_field_iff (ReadFixed.model _ hbl) fs os s (T).cls.init _ _ [] 1 _ h .init hb hview
        (tag_spec num _ hn) (by decide) (otherWire_ne _)
      obtain ⟨b2, y2, e2, _, i2⟩ := hC _ (ReadFixed.model _ hbl) (T).cls.init _ _ [] 1 num _ h .init hb hview
        (tag_spec num _ hn) (by decide) (Or.inl ⟨.opt, t, s, otherWire_ne _⟩)
      rw [e1] at e2
      cases e2
      refine i1.mp i2 ?_
      have e := s.get_abs 0 (MsgObj.presence (T).cls.init).bit (fs.cls 0).init
      have hp : (MsgObj.presence (T).cls.init).bit (s.bit 0) = false := Presence.init_bit fs.nOptional _
      exact e.trans (congrArg (fun p => Card.observe .opt t p _) hp)
    · have hn := member_number fs os h s m
      obtain ⟨x, hx, hl⟩ := lift_member (fs := fs) h s m .init
      have hbl : (tag num (otherWire t.wire)).length < 2 ^ 32 := by have := tag_short num (otherWire t.wire) hn; omega
      have hb := ReadFixed.holding_inv _ hbl _ (Nat.le_refl _)
      have hview := (ReadFixed.holding_view _ hbl (tag num (otherWire t.wire))).trans (List.append_nil _).symm
      obtain ⟨b1, y1, e1, _, i1⟩ := C23_member_iff (ReadFixed.model _ hbl) fs os s m x _ _ [] 1 _ h hx hb hview
        (tag_spec num _ hn) (by decide) (otherWire_ne _)
      obtain ⟨b2, y2, e2, _, i2⟩ := hC _ (ReadFixed.model _ hbl) x _ _ [] 1 num _ h hx hb hview
        (tag_spec num _ hn) (by decide) (Or.inr ⟨a, t, s, m, otherWire_ne _⟩)
      rw [e1] at e2
      cases e2
      have := (s.get_abs x.oneofs).symm.trans (i1.mp i2)
      have hl' : (s.state x.oneofs).live = some (m.injState t.cls.init) := hl
      rw [hl'] at this
      exact nomatch this
  · rintro ⟨h1, h2⟩ β _ M x b tg r fuel num wt _ hx hb hv ht hf hor
    rcases hor with ⟨c, t, s, hwt⟩ | ⟨a, t, s, m, _⟩
    · obtain ⟨b', y, e1, e2, e3⟩ := C23_field_iff M fs os s x b tg r fuel wt h hx hb hv ht hf hwt
      refine ⟨b', y, e1, e2, e3.mpr ?_⟩
      cases c with
      | single => exact id
      | opt => exact (h1 num t s).elim
      | rep => exact id
    · exact (h2 a num t s m).elim

/-- **C24**, the declarations: a string that is too long always leaves what there was if and only if no string is a member of a
oneof. -/
theorem C24_declarations (h : (T).WF) : C24_Statement fs os ↔ ∀ a num cap, OneofSlot os a → Member a num (.str cap) → False := by
  constructor
  · intro hC a num cap s m
    have hn := member_number fs os h s m
    have hw := h
    simp only [ElemTy.WF] at hw
    have hwa := s.wf hw.2.1 (List.nodup_append.mp hw.2.2.1).2.1
    have hcap : cap < 2147483648 := by
      have := m.wf hwa.1
      simp only [ElemTy.WF] at this
      omega
    obtain ⟨x, hx, hl⟩ := lift_member (fs := fs) h s m .init
    have hbl : (tag num .lengthDelimited ++ (varint (cap + 1) ++ [])).length < 2 ^ 32 := by
      have := tag_short num .lengthDelimited hn
      have := varint_length_le 5 (cap + 1) (by omega) (by decide)
      simp only [List.length_append, List.length_nil]
      omega
    have hb := ReadFixed.holding_inv _ hbl _ (Nat.le_refl _)
    have hview := ReadFixed.holding_view _ hbl (tag num .lengthDelimited ++ (varint (cap + 1) ++ []))
    have hp := varint_spec 32 (cap + 1) (by decide) (by omega)
    obtain ⟨b1, y1, e1, i1⟩ := C24_member_iff (ReadFixed.model _ hbl) fs os s m x _ _ _ [] (cap + 1)
      ((tag num .lengthDelimited ++ (varint (cap + 1) ++ [])).length + 1) h hx hb hview
      (tag_spec num .lengthDelimited hn) hp (by omega) (by rw [hview]; omega)
    obtain ⟨b3, y3, e3, i3⟩ := C24_too_long_member_partial (ReadFixed.model _ hbl) fs os s m x _ _ _ [] (cap + 1)
      ((tag num .lengthDelimited ++ (varint (cap + 1) ++ [])).length + 1) h hx hb hview
      (tag_spec num .lengthDelimited hn) hp (by omega) (by rw [hview]; omega)
    obtain ⟨b2, y2, e2, i2⟩ := (hC _ (ReadFixed.model _ hbl) x _ _ _ []
      ((tag num .lengthDelimited ++ (varint (cap + 1) ++ [])).length + 1) num cap (cap + 1) h hx hb hview
      (tag_spec num .lengthDelimited hn) hp (by omega) (by rw [hview]; omega)).2 a s m
    rw [e1] at e2 e3
    cases e2
    cases e3
    have i4 : (T).abs y1 = (T).abs x := by
      have i5 := congrArg Prod.snd i3
      have i6 : s.put ((T).abs x).2 none = ((T).abs x).2 := by
        have k1 := (s.put_get ((T).abs y1).2).symm
        have k2 : s.get ((T).abs y1).2 = none := (congrArg s.get i5).trans (s.get_put _ _)
        have k3 : s.get ((T).abs x).2 = none := i2.symm.trans k2
        rw [← k3]
        exact s.put_get _
      exact i3.trans (Prod.ext rfl i6)
    have := (s.get_abs x.oneofs).symm.trans (i1.mp i4)
    have hl' : (s.state x.oneofs).live = some (m.injState (ElemTy.str cap).cls.init) := hl
    rw [hl'] at this
    exact nomatch this
  · intro h2 β _ M x b tg p r fuel num cap n _ hx hb hv ht hp hc hf
    refine ⟨fun s => ?_, fun a s m => (h2 a num cap s m).elim⟩
    obtain ⟨b', y, e1, e2⟩ := C24_too_long_partial M fs os s x b tg p r n fuel h hx hb hv ht hp hc hf
    exact ⟨b', y, e1, by rw [e2]⟩

/-- **C38**, the declarations: damaged packed data is never accepted if and only if there is no repeated field of scalars. -/
theorem C38_declarations (h : (T).WF) : C38_Statement fs os ↔ ∀ num cap sc, Slot fs num (.rep cap) (.scalar sc) → False := by
  constructor
  · intro hC num cap sc s
    have hn := slot_number fs os h s
    have hlong : ∀ c ∈ ([0xFF, 0xFF, 0xFF, 0xFF, 0xFF] : List Byte), cont c = true := by decide
    have hbl : (tag num .lengthDelimited ++ (([0xFF, 0xFF, 0xFF, 0xFF, 0xFF] : List Byte) ++ [])).length < 2 ^ 32 := by
      have := tag_short num .lengthDelimited hn
      simp only [List.length_append, List.length_nil, List.length_cons]
      omega
    have hb := ReadFixed.holding_inv _ hbl _ (Nat.le_refl _)
    have hview := ReadFixed.holding_view _ hbl (tag num .lengthDelimited ++ (([0xFF, 0xFF, 0xFF, 0xFF, 0xFF] : List Byte) ++ []))
    have hf : (tag num .lengthDelimited ++ (([0xFF, 0xFF, 0xFF, 0xFF, 0xFF] : List Byte) ++ [])).length < 12 := by
      have := tag_short num .lengthDelimited hn
      simp only [List.length_append, List.length_nil, List.length_cons]
      omega
    obtain ⟨b1, y1, e1, i1, v1, _⟩ := C38_length_accepted (ReadFixed.model _ hbl) fs os s (T).cls.init _ _ _ [] 12 h .init hb
      (by rw [hview]; exact hf) hview (tag_spec num .lengthDelimited hn) rfl hlong
    obtain ⟨b2, k1, _⟩ := tagLoop_end (ReadFixed.model _ hbl) (MsgObj.step (fs.cls 0) os.cls 11) 11 (x := y1) i1 v1 (by decide)
    exact hC _ (ReadFixed.model _ hbl) (T).cls.init _ _ _ 12 num cap sc ⟨s⟩ h .init hb (by rw [hview]; exact hf) hview
      (tag_spec num .lengthDelimited hn) (Or.inl ⟨.overlongVarint, Or.inr ⟨⟨_, [], rfl, rfl, hlong⟩, rfl⟩⟩) _ _ _ (e1 _ k1) rfl
  · intro hn β _ M x b tg r fuel num cap sc s
    exact (s.elim (hn num cap sc)).elim

/-- **C52**, the declarations: reading a member is always defined if and only if there is no oneof. -/
theorem C52_declarations (h : (T).WF) : C52_Statement fs os ↔ ∀ a num t, OneofSlot os a → Member a num t → False := by
  constructor
  · intro hC a num t s m
    obtain ⟨z, _, hz⟩ := (C28_get s m (T).cls.init h .init).1
      ((C52_iff fs os s m (T).cls.init h .init).1.mp (hC a num t s m _ h .init))
    have e := (s.get_abs os.cls.init).symm.trans hz
    rw [s.state_init] at e
    exact nomatch e
  · intro hn a num t s m
    exact (hn a num t s m).elim

/-- **C62**, the declarations: both packed and unpacked elements are always understood if and only if no repeated field of scalars
has room for one. -/
theorem C62_declarations (h : (T).WF) : C62_Statement fs os ↔ ∀ num cap sc, Slot fs num (.rep cap) (.scalar sc) → cap = 0 := by
  constructor
  · intro hC num cap sc s
    have hn := slot_number fs os h s
    refine Classical.byContradiction fun hc => ?_
    have hbl : (tag num sc.wire ++ sc.enc sc.zero).length < 2 ^ 32 := by
      have := tag_short num sc.wire hn
      have := sc.enc_maxLen sc.zero
      have : sc.maxLen ≤ 10 := by cases sc <;> decide
      simp only [List.length_append]
      omega
    have hb := ReadFixed.holding_inv _ hbl _ (Nat.le_refl _)
    have hview := ReadFixed.holding_view _ hbl (tag num sc.wire ++ sc.enc sc.zero)
    obtain ⟨b1, y1, e1, _⟩ := C62_unpacked_refused_partial (ReadFixed.model _ hbl) fs os s (T).cls.init _ _ _
      ((tag num sc.wire ++ sc.enc sc.zero).length + 1) h .init hb hview (tag_spec num _ hn) (by omega)
    have g0 : s.get ((T).abs (T).cls.init).1 = ([] : List sc.Val) :=
      (s.get_abs 0 (MsgObj.presence (T).cls.init).bit (fs.cls 0).init).trans (by rw [s.state_init]; rfl)
    obtain ⟨b2, y2, e2, _⟩ := hC _ (ReadFixed.model _ hbl) (T).cls.init _ num cap
      ((tag num sc.wire ++ sc.enc sc.zero).length + 1) sc s _ _ [sc.zero] h .init hb (by rw [hview]; omega) hview
      (by rw [g0]; exact Nat.pos_of_ne_zero hc) (Or.inr ⟨tag_spec num _ hn, sc.zero, sc.payload_enc _, rfl⟩)
    rw [e1] at e2
    exact nomatch e2
  · intro h0 β _ M x b num cap fuel sc s tg p ys _ hx hb hf hv hfit hor
    rcases hor with ⟨ht, body, hd, hp⟩ | ⟨_, y, _, rfl⟩
    · exact C62_packed_partial M fs os s x b tg p body ys fuel h hx hb hf hv hfit ht hd hp
    · have := h0 num cap sc s
      rw [List.length_singleton] at hfit
      omega

end

/-! ## Examples -/

namespace RefusedExample

/-- `message M { string a = 1; repeated string b = 2; repeated int32 c = 3; }`, the last without room. -/
def fields : Fields := .plain 1 (.str 8) (.repeated 2 2 (.str 8) (.repeated 3 0 (.scalar .int32) .nil))

/-- A string in a oneof. -/
def oneofs : Oneofs := .cons (.cons 4 (.str 5) .nil) .nil

theorem wf : (ElemTy.msg fields .nil).WF := by
  refine ⟨⟨⟨by decide, by decide⟩, by decide, ⟨by decide, by decide⟩, by decide, trivial, trivial⟩, trivial, ?_, ?_⟩ <;> decide

theorem wf' : (ElemTy.msg fields oneofs).WF := by
  refine ⟨⟨⟨by decide, by decide⟩, by decide, ⟨by decide, by decide⟩, by decide, trivial, trivial⟩,
    ⟨⟨⟨by decide, by decide⟩, trivial⟩, trivial⟩, ?_, ?_⟩ <;> decide

example : C23_Statement fields .nil := by
  refine (C23_declarations _ _ wf).mpr ⟨fun _ _ s => ?_, fun _ _ _ s _ => by cases s⟩
  cases s with
  | afterPlain _ _ s => cases s with
    | afterRepeated _ _ _ s => cases s with
      | afterRepeated _ _ _ s => cases s

example : C24_Statement fields .nil := (C24_declarations _ _ wf).mpr fun _ _ _ s _ => by cases s

example : ¬ C23_Statement fields oneofs ∧ ¬ C24_Statement fields oneofs :=
  ⟨fun h => ((C23_declarations _ _ wf').mp h).2 _ _ _ (.here _ _) (.here 4 (.str 5) .nil),
   fun h => (C24_declarations _ _ wf').mp h _ _ _ (.here _ _) (.here 4 (.str 5) .nil)⟩

example : C52_Statement fields .nil ∧ ¬ C52_Statement fields oneofs :=
  ⟨(C52_declarations _ _ wf).mpr fun _ _ _ s _ => (by cases s),
   fun h => (C52_declarations _ _ wf').mp h _ _ _ (.here _ _) (.here 4 (.str 5) .nil)⟩

example : C62_Statement fields oneofs ∧ ¬ C38_Statement fields oneofs := by
  refine ⟨(C62_declarations _ _ wf').mpr fun _ _ _ s => ?_, fun h => (C38_declarations _ _ wf').mp h 3 0 .int32
    (.afterPlain _ _ (.afterRepeated _ _ _ (.repeated _ _ _ _)))⟩
  cases s with
  | afterPlain _ _ s => cases s with
    | afterRepeated _ _ _ s => cases s with
      | repeated => rfl
      | afterRepeated _ _ _ s => cases s

end RefusedExample

end EP
