import Verif.Spec.Observe

/-!
# The fields and oneofs of a declaration

`Slot fs num c t` says that field `num` is declared in `fs`; `get` and `put` read and replace its value
in the value of the message.  `OneofSlot` and `Member` do the same for oneofs.
-/

namespace EP

/-- How a field is declared. -/
inductive Card where
  | single
  | opt
  | rep (cap : Nat)

/-- The value of a field. -/
def Card.Val : Card → ElemTy → Type
  | .single, t => t.Val
  | .opt, t => Option t.Val
  | .rep _, t => List t.Val

/-- The default value of a field. -/
def Card.dflt : (c : Card) → (t : ElemTy) → c.Val t
  | .single, t => t.dflt
  | .opt, _ => none
  | .rep _, _ => []

/-- Field `num`, of type `t`, is declared in `fs`. -/
inductive Slot : Fields → Nat → Card → ElemTy → Type where
  | plain (num : Nat) (t : ElemTy) (rest : Fields) : Slot (.plain num t rest) num .single t
  | optional (num : Nat) (t : ElemTy) (rest : Fields) : Slot (.optional num t rest) num .opt t
  | repeated (num cap : Nat) (t : ElemTy) (rest : Fields) :
      Slot (.repeated num cap t rest) num (.rep cap) t
  | afterPlain {num : Nat} {c : Card} {t : ElemTy} {rest : Fields} (m : Nat) (u : ElemTy)
      (s : Slot rest num c t) : Slot (.plain m u rest) num c t
  | afterOptional {num : Nat} {c : Card} {t : ElemTy} {rest : Fields} (m : Nat) (u : ElemTy)
      (s : Slot rest num c t) : Slot (.optional m u rest) num c t
  | afterRepeated {num : Nat} {c : Card} {t : ElemTy} {rest : Fields} (m k : Nat) (u : ElemTy)
      (s : Slot rest num c t) : Slot (.repeated m k u rest) num c t

namespace Slot

/-- The value of the field. -/
def get : {fs : Fields} → {num : Nat} → {c : Card} → {t : ElemTy} → Slot fs num c t → fs.Val → c.Val t
  | _, _, _, _, .plain _ _ _, v => v.1
  | _, _, _, _, .optional _ _ _, v => v.1
  | _, _, _, _, .repeated _ _ _ _, v => v.1
  | _, _, _, _, .afterPlain _ _ s, v => s.get v.2
  | _, _, _, _, .afterOptional _ _ s, v => s.get v.2
  | _, _, _, _, .afterRepeated _ _ _ s, v => s.get v.2

/-- The value with another value for the field. -/
def put : {fs : Fields} → {num : Nat} → {c : Card} → {t : ElemTy} → Slot fs num c t → fs.Val → c.Val t →
    fs.Val
  | _, _, _, _, .plain _ _ _, v, w => (w, v.2)
  | _, _, _, _, .optional _ _ _, v, w => (w, v.2)
  | _, _, _, _, .repeated _ _ _ _, v, w => (w, v.2)
  | _, _, _, _, .afterPlain _ _ s, v, w => (v.1, s.put v.2 w)
  | _, _, _, _, .afterOptional _ _ s, v, w => (v.1, s.put v.2 w)
  | _, _, _, _, .afterRepeated _ _ _ s, v, w => (v.1, s.put v.2 w)

theorem get_put {fs : Fields} {num : Nat} {c : Card} {t : ElemTy} (s : Slot fs num c t) (v : fs.Val)
    (w : c.Val t) : s.get (s.put v w) = w := by
  induction s with
  | plain => rfl
  | optional => rfl
  | repeated => rfl
  | afterPlain _ _ s ih => exact ih v.2 w
  | afterOptional _ _ s ih => exact ih v.2 w
  | afterRepeated _ _ _ s ih => exact ih v.2 w

theorem put_get {fs : Fields} {num : Nat} {c : Card} {t : ElemTy} (s : Slot fs num c t) (v : fs.Val) :
    s.put v (s.get v) = v := by
  induction s with
  | plain => rfl
  | optional => rfl
  | repeated => rfl
  | afterPlain _ _ s ih => exact congrArg (Prod.mk v.1) (ih v.2)
  | afterOptional _ _ s ih => exact congrArg (Prod.mk v.1) (ih v.2)
  | afterRepeated _ _ _ s ih => exact congrArg (Prod.mk v.1) (ih v.2)

theorem get_dflt {fs : Fields} {num : Nat} {c : Card} {t : ElemTy} (s : Slot fs num c t) :
    s.get fs.dflt = c.dflt t := by
  induction s with
  | plain => rfl
  | optional => rfl
  | repeated => rfl
  | afterPlain _ _ s ih => exact ih
  | afterOptional _ _ s ih => exact ih
  | afterRepeated _ _ _ s ih => exact ih

theorem mem {fs : Fields} {num : Nat} {c : Card} {t : ElemTy} (s : Slot fs num c t) :
    num ∈ fs.numbers := by
  induction s with
  | plain => exact List.mem_cons_self ..
  | optional => exact List.mem_cons_self ..
  | repeated => exact List.mem_cons_self ..
  | afterPlain _ _ s ih => exact List.mem_cons_of_mem _ ih
  | afterOptional _ _ s ih => exact List.mem_cons_of_mem _ ih
  | afterRepeated _ _ _ s ih => exact List.mem_cons_of_mem _ ih

/-- Replacing one field leaves the fields with other numbers alone. -/
theorem get_put_ne {fs : Fields} {num num' : Nat} {c c' : Card} {t t' : ElemTy} (s : Slot fs num c t)
    (s' : Slot fs num' c' t') (h : num ≠ num') (v : fs.Val) (w : c'.Val t') :
    s.get (s'.put v w) = s.get v := by
  induction s with
  | plain => cases s' with
    | plain => exact absurd rfl h
    | afterPlain => rfl
  | optional => cases s' with
    | optional => exact absurd rfl h
    | afterOptional => rfl
  | repeated => cases s' with
    | repeated => exact absurd rfl h
    | afterRepeated => rfl
  | afterPlain _ _ s ih => cases s' with
    | plain => rfl
    | afterPlain _ _ s' => exact ih s' h v.2
  | afterOptional _ _ s ih => cases s' with
    | optional => rfl
    | afterOptional _ _ s' => exact ih s' h v.2
  | afterRepeated _ _ _ s ih => cases s' with
    | repeated => rfl
    | afterRepeated _ _ _ s' => exact ih s' h v.2

end Slot

/-- Every declared number has a slot. -/
theorem Fields.exists_slot : (fs : Fields) → (num : Nat) → num ∈ fs.numbers →
    ∃ c t, Nonempty (Slot fs num c t)
  | .nil, _, h => nomatch h
  | .plain n t rest, num, h => by
    rcases List.mem_cons.mp h with rfl | h
    · exact ⟨_, _, ⟨.plain _ _ _⟩⟩
    · obtain ⟨c, u, ⟨s⟩⟩ := Fields.exists_slot rest num h
      exact ⟨c, u, ⟨.afterPlain _ _ s⟩⟩
  | .optional n t rest, num, h => by
    rcases List.mem_cons.mp h with rfl | h
    · exact ⟨_, _, ⟨.optional _ _ _⟩⟩
    · obtain ⟨c, u, ⟨s⟩⟩ := Fields.exists_slot rest num h
      exact ⟨c, u, ⟨.afterOptional _ _ s⟩⟩
  | .repeated n cap t rest, num, h => by
    rcases List.mem_cons.mp h with rfl | h
    · exact ⟨_, _, ⟨.repeated _ _ _ _⟩⟩
    · obtain ⟨c, u, ⟨s⟩⟩ := Fields.exists_slot rest num h
      exact ⟨c, u, ⟨.afterRepeated _ _ _ s⟩⟩

/-- A value is determined by the values of its fields. -/
theorem Fields.ext_slots : (fs : Fields) → fs.numbers.Nodup → (u v : fs.Val) →
    (∀ num c t (s : Slot fs num c t), s.get u = s.get v) → u = v
  | .nil, _, _, _, _ => rfl
  | .plain n t rest, h, u, v, hs =>
    Prod.ext (hs _ _ _ (.plain n t rest)) (Fields.ext_slots rest (List.nodup_cons.mp h).2 u.2 v.2
      fun num c t s => hs num c t (.afterPlain _ _ s))
  | .optional n t rest, h, u, v, hs =>
    Prod.ext (hs _ _ _ (.optional n t rest)) (Fields.ext_slots rest (List.nodup_cons.mp h).2 u.2 v.2
      fun num c t s => hs num c t (.afterOptional _ _ s))
  | .repeated n cap t rest, h, u, v, hs =>
    Prod.ext (hs _ _ _ (.repeated n cap t rest)) (Fields.ext_slots rest (List.nodup_cons.mp h).2 u.2 v.2
      fun num c t s => hs num c t (.afterRepeated _ _ _ s))

/-! ## Oneofs -/

/-- `a` is one of the oneofs. -/
inductive OneofSlot : Oneofs → Alts → Type where
  | here (a : Alts) (rest : Oneofs) : OneofSlot (.cons a rest) a
  | after {a : Alts} {rest : Oneofs} (a' : Alts) (s : OneofSlot rest a) : OneofSlot (.cons a' rest) a

namespace OneofSlot

/-- The value of the oneof: nothing, or the member that is set. -/
def get : {os : Oneofs} → {a : Alts} → OneofSlot os a → os.Val → Option a.Val
  | _, _, .here _ _, v => v.1
  | _, _, .after _ s, v => s.get v.2

def put : {os : Oneofs} → {a : Alts} → OneofSlot os a → os.Val → Option a.Val → os.Val
  | _, _, .here _ _, v, w => (w, v.2)
  | _, _, .after _ s, v, w => (v.1, s.put v.2 w)

theorem get_put {os : Oneofs} {a : Alts} (s : OneofSlot os a) (v : os.Val) (w : Option a.Val) :
    s.get (s.put v w) = w := by
  induction s with
  | here => rfl
  | after _ s ih => exact ih v.2 w

theorem get_dflt {os : Oneofs} {a : Alts} (s : OneofSlot os a) : s.get os.dflt = none := by
  induction s with
  | here => rfl
  | after _ s ih => exact ih

theorem mem {os : Oneofs} {a : Alts} (s : OneofSlot os a) {num : Nat} (h : num ∈ a.numbers) :
    num ∈ os.numbers := by
  induction s with
  | here => exact List.mem_append_left _ h
  | after _ s ih => exact List.mem_append_right _ (ih h)

/-- Replacing one oneof leaves the others alone. -/
theorem get_put_ne {os : Oneofs} {a a' : Alts} (s : OneofSlot os a) (s' : OneofSlot os a') {num : Nat}
    (hnum : num ∈ a.numbers) (hne : num ∉ a'.numbers)
    (v : os.Val) (w : Option a'.Val) :
    s.get (s'.put v w) = s.get v := by
  induction s with
  | here => cases s' with
    | here => exact absurd hnum hne
    | after => rfl
  | after _ s ih => cases s' with
    | here => rfl
    | after _ s' => exact ih s' hnum v.2

end OneofSlot

theorem Oneofs.exists_slot : (os : Oneofs) → (num : Nat) → num ∈ os.numbers →
    ∃ a, num ∈ a.numbers ∧ Nonempty (OneofSlot os a)
  | .nil, _, h => nomatch h
  | .cons a rest, num, h => by
    rcases List.mem_append.mp h with h | h
    · exact ⟨a, h, ⟨.here _ _⟩⟩
    · obtain ⟨a', h', ⟨s⟩⟩ := Oneofs.exists_slot rest num h
      exact ⟨a', h', ⟨.after _ s⟩⟩

/-- `num`, of type `t`, is a member of the oneof `a`. -/
inductive Member : Alts → Nat → ElemTy → Type where
  | here (num : Nat) (t : ElemTy) (rest : Alts) : Member (.cons num t rest) num t
  | after {num : Nat} {t : ElemTy} {rest : Alts} (m : Nat) (u : ElemTy) (s : Member rest num t) :
      Member (.cons m u rest) num t

namespace Member

/-- The oneof with this member set. -/
def inj : {a : Alts} → {num : Nat} → {t : ElemTy} → Member a num t → t.Val → a.Val
  | _, _, _, .here _ _ _, v => .inl v
  | _, _, _, .after _ _ s, v => .inr (s.inj v)

theorem mem {a : Alts} {num : Nat} {t : ElemTy} (s : Member a num t) : num ∈ a.numbers := by
  induction s with
  | here => exact List.mem_cons_self ..
  | after _ _ s ih => exact List.mem_cons_of_mem _ ih

end Member

theorem Alts.exists_member : (a : Alts) → (num : Nat) → num ∈ a.numbers →
    ∃ t, Nonempty (Member a num t)
  | .nil, _, h => nomatch h
  | .cons n t rest, num, h => by
    rcases List.mem_cons.mp h with rfl | h
    · exact ⟨_, ⟨.here _ _ _⟩⟩
    · obtain ⟨t', ⟨s⟩⟩ := Alts.exists_member rest num h
      exact ⟨t', ⟨.after _ _ s⟩⟩

/-! ## The data members of the generated class -/

/-- The class of the data member of a field. -/
abbrev Card.cls : Card → ElemTy → FieldClass
  | .single, t => t.cls
  | .opt, t => t.cls
  | .rep cap, t => repeatedClass t.cls cap

/-- What the data member holds. -/
def Card.MVal : Card → ElemTy → Type
  | .single, t => t.Val
  | .opt, t => t.Val
  | .rep _, t => List t.Val

abbrev Card.spec : (c : Card) → (t : ElemTy) → ClassSpec (c.cls t) (c.MVal t)
  | .single, t => t.spec
  | .opt, t => t.spec
  | .rep cap, t => repSpec t.spec cap

/-- The value of the field, from the presence flag and the data member. -/
def Card.observe : (c : Card) → (t : ElemTy) → Bool → c.MVal t → c.Val t
  | .single, _, _, v => v
  | .opt, _, p, v => if p then some v else none
  | .rep _, _, _, v => v

namespace Slot

/-- The data member. -/
def state : {fs : Fields} → {num : Nat} → {c : Card} → {t : ElemTy} → Slot fs num c t → (idx : Nat) →
    (fs.cls idx).State → (c.cls t).State
  | _, _, _, _, .plain _ _ _, _, x => x.1
  | _, _, _, _, .optional _ _ _, _, x => x.1
  | _, _, _, _, .repeated _ _ _ _, _, x => x.1
  | _, _, _, _, .afterPlain _ _ s, idx, x => s.state idx x.2
  | _, _, _, _, .afterOptional _ _ s, idx, x => s.state (idx + 1) x.2
  | _, _, _, _, .afterRepeated _ _ _ s, idx, x => s.state idx x.2

def setState : {fs : Fields} → {num : Nat} → {c : Card} → {t : ElemTy} → Slot fs num c t → (idx : Nat) →
    (fs.cls idx).State → (c.cls t).State → (fs.cls idx).State
  | _, _, _, _, .plain _ _ _, _, x, w => (w, x.2)
  | _, _, _, _, .optional _ _ _, _, x, w => (w, x.2)
  | _, _, _, _, .repeated _ _ _ _, _, x, w => (w, x.2)
  | _, _, _, _, .afterPlain _ _ s, idx, x, w => (x.1, s.setState idx x.2 w)
  | _, _, _, _, .afterOptional _ _ s, idx, x, w => (x.1, s.setState (idx + 1) x.2 w)
  | _, _, _, _, .afterRepeated _ _ _ s, idx, x, w => (x.1, s.setState idx x.2 w)

/-- The value of the field in the enum `presence::fields` (for optional fields). -/
def bit : {fs : Fields} → {num : Nat} → {c : Card} → {t : ElemTy} → Slot fs num c t → (idx : Nat) → Nat
  | _, _, _, _, .plain _ _ _, idx => idx
  | _, _, _, _, .optional _ _ _, idx => idx
  | _, _, _, _, .repeated _ _ _ _, idx => idx
  | _, _, _, _, .afterPlain _ _ s, idx => s.bit idx
  | _, _, _, _, .afterOptional _ _ s, idx => s.bit (idx + 1)
  | _, _, _, _, .afterRepeated _ _ _ s, idx => s.bit idx

end Slot

/-- The data member of the oneof. -/
def OneofSlot.state : {os : Oneofs} → {a : Alts} → OneofSlot os a → os.cls.State → OneofObj a.cls.U
  | _, _, .here _ _, x => x.1
  | _, _, .after _ s, x => s.state x.2

def OneofSlot.setState : {os : Oneofs} → {a : Alts} → OneofSlot os a → os.cls.State → OneofObj a.cls.U →
    os.cls.State
  | _, _, .here _ _, x, w => (w, x.2)
  | _, _, .after _ s, x, w => (x.1, s.setState x.2 w)

namespace Member

/-- The value of the member, if it is the one that is set. -/
def proj : {a : Alts} → {num : Nat} → {t : ElemTy} → Member a num t → a.Val → Option t.Val
  | _, _, _, .here _ _ _, .inl v => some v
  | _, _, _, .here _ _ _, .inr _ => none
  | _, _, _, .after _ _ _, .inl _ => none
  | _, _, _, .after _ _ s, .inr v => s.proj v

/-- The union with this member live. -/
def injState : {a : Alts} → {num : Nat} → {t : ElemTy} → Member a num t → t.Obj → a.cls.U
  | _, _, _, .here _ _ _, x => .inl x
  | _, _, _, .after _ _ s, x => .inr (s.injState x)

/-- The member object, if it is the live one. -/
def projState : {a : Alts} → {num : Nat} → {t : ElemTy} → Member a num t → a.cls.U → Option t.Obj
  | _, _, _, .here _ _ _, .inl x => some x
  | _, _, _, .here _ _ _, .inr _ => none
  | _, _, _, .after _ _ _, .inl _ => none
  | _, _, _, .after _ _ s, .inr u => s.projState u

/-- The object the code works on when it is to decode into or hand out this member: the live one, or
a newly constructed one. -/
def current {a : Alts} {num : Nat} {t : ElemTy} (m : Member a num t) (o : OneofObj a.cls.U) : t.Obj :=
  (o.live.bind m.projState).getD t.cls.init

end Member

end EP
