import Verif.Props.Safety
import Verif.Proof.Record
import Verif.Proof.Truncate

/-!
# Malformed input: C23–C26, C36, C38, C39

`T` is any well formed declaration `message { fs os }`, `x` any object of it a program can have and
`b` any read buffer that keeps the promises of the interface.  `s : Slot fs num c t` says that field
`num` of type `t` is declared in `fs` with cardinality `c`.
-/

namespace EP
open Spec

section
variable {β : Type} [ReadBuffer β] (M : ReadModel β) (fs : Fields) (os : Oneofs)
local notation "T" => ElemTy.msg fs os

/-! ## C23 -/

/-- **C23**, full statement: a known number with another wire type. -/
def C23_Statement : Prop :=
  ∀ (β : Type) [ReadBuffer β] (M : ReadModel β) (x : (T).Obj) (b : β) (tg r : List Byte) (fuel num : Nat)
    (wt : WireType), (T).WF → (T).Reach x → M.Inv b → M.view b = tg ++ r →
    Varint 32 tg (8 * num + wireNumber wt) → 0 < fuel →
    ((∃ c t, ∃ _ : Slot fs num c t, wt ≠ c.wire t) ∨
     (∃ a t, ∃ (_ : OneofSlot os a) (_ : Member a num t), wt ≠ t.wire)) →
    ∃ b' y, (T).cls.deserialize fuel b x = .ok (.invalidWiretype, b', y) ∧ M.view b' = r ∧
      (T).abs y = (T).abs x

/-- **C23**, fields: `INVALID_WIRETYPE`, nothing is consumed after the tag, the data member is not
touched, and nothing else changes, except that an optional field is marked present. -/
theorem C23_field_partial {num : Nat} {c : Card} {t : ElemTy} (s : Slot fs num c t) (x : (T).Obj) (b : β)
    (tg r : List Byte) (fuel : Nat) (wt : WireType) (h : (T).WF) (hx : (T).Reach x) (hb : M.Inv b)
    (hv : M.view b = tg ++ r) (ht : Varint 32 tg (8 * num + wireNumber wt)) (hf : 0 < fuel)
    (hwt : wt ≠ c.wire t) :
    ∃ b' y, (T).cls.deserialize fuel b x = .ok (.invalidWiretype, b', y) ∧ M.Inv b' ∧ M.view b' = r ∧
      s.member (os := os) y = s.member (os := os) x ∧
      (T).abs y = (s.put ((T).abs x).1 (c.observe t true (c.stored t (s.get ((T).abs x).1))),
        ((T).abs x).2) := by
  have hi := ElemTy.reach_inv T h hx
  obtain ⟨b₁, h1, h2, h3⟩ := deserialize_first M fuel b x tg r num wt hb hv ht hf
  obtain ⟨f, f1, f2⟩ := s.step h hi fuel wt b₁
  rw [c.wrong_wire t fuel b₁ wt _ hwt, Res.ok_bind] at f1
  refine ⟨b₁, _, h3 _ _ _ (by simp) f1, h1, h2, (f2 _).1, ?_⟩
  rw [(f2 _).2.1, s.stored h hi]

/-- **C23** for fields that are not optional, and optional fields that are present: the value of the
message is unchanged. -/
theorem C23_unchanged_partial {num : Nat} {c : Card} {t : ElemTy} (s : Slot fs num c t) (x : (T).Obj)
    (b : β) (tg r : List Byte) (fuel : Nat) (wt : WireType) (h : (T).WF) (hx : (T).Reach x)
    (hb : M.Inv b) (hv : M.view b = tg ++ r) (ht : Varint 32 tg (8 * num + wireNumber wt))
    (hf : 0 < fuel) (hwt : wt ≠ c.wire t)
    (hpresent : c.observe t true (c.stored t (s.get ((T).abs x).1)) = s.get ((T).abs x).1) :
    ∃ b' y, (T).cls.deserialize fuel b x = .ok (.invalidWiretype, b', y) ∧ M.view b' = r ∧
      (T).abs y = (T).abs x := by
  obtain ⟨b', y, h1, _, h3, _, h5⟩ := C23_field_partial M fs os s x b tg r fuel wt h hx hb hv ht hf hwt
  refine ⟨b', y, h1, h3, ?_⟩
  rw [h5, hpresent, s.put_get]
  rfl

/-- **C23**, members of a oneof: `INVALID_WIRETYPE`, nothing is consumed after the tag, but the oneof is
unset. -/
theorem C23_member_partial {num : Nat} {a : Alts} {t : ElemTy} (s : OneofSlot os a) (m : Member a num t)
    (x : (T).Obj) (b : β)
    (tg r : List Byte) (fuel : Nat) (wt : WireType) (h : (T).WF) (hx : (T).Reach x) (hb : M.Inv b)
    (hv : M.view b = tg ++ r) (ht : Varint 32 tg (8 * num + wireNumber wt)) (hf : 0 < fuel)
    (hwt : wt ≠ t.wire) :
    ∃ b' y, (T).cls.deserialize fuel b x = .ok (.invalidWiretype, b', y) ∧ M.Inv b' ∧ M.view b' = r ∧
      (T).abs y = (((T).abs x).1, s.put ((T).abs x).2 none) := by
  have hi := ElemTy.reach_inv T h hx
  obtain ⟨b₁, h1, h2, h3⟩ := deserialize_first M fuel b x tg r num wt hb hv ht hf
  have f1 := (m.step s h hi fuel wt b₁).1
  rw [t.wrong_wire fuel b₁ wt _ hwt, Res.ok_bind] at f1
  dsimp only at f1
  rw [if_neg (by simp)] at f1
  exact ⟨b₁, _, h3 _ _ _ (by simp) f1, h1, h2, s.abs_set x _⟩

/-! ## C24 -/

/-- **C24**, full statement, for fields and members of oneofs that are strings (or bytes): a declared
length `n` above the maximum is rejected and the value of the field is kept. -/
def C24_Statement : Prop :=
  ∀ (β : Type) [ReadBuffer β] (M : ReadModel β) (x : (T).Obj) (b : β) (tg p r : List Byte)
    (fuel num cap n : Nat), (T).WF → (T).Reach x → M.Inv b → M.view b = tg ++ (p ++ r) →
    Varint 32 tg (8 * num + 2) → Varint 32 p n → cap < n → (M.view b).length < fuel →
    (∀ s : Slot fs num .single (.str cap), ∃ b' y, (T).cls.deserialize fuel b x = .ok (.arrayFull, b', y) ∧
      s.get ((T).abs y).1 = s.get ((T).abs x).1) ∧
    (∀ (a : Alts) (s : OneofSlot os a) (_ : Member a num (.str cap)), ∃ b' y,
      (T).cls.deserialize fuel b x = .ok (.arrayFull, b', y) ∧
      s.get ((T).abs y).2 = s.get ((T).abs x).2)

/-- A string field, whatever its cardinality (not repeated). -/
theorem slot_tidy_str {fs : Fields} {os : Oneofs} {num cap : Nat} {c : Card} (s : Slot fs num c (.str cap))
    {x : (ElemTy.msg fs os).Obj} (hx : (ElemTy.msg fs os).Reach x) : s.Tidy x := Or.inl ⟨hx, by cases c <;> rfl⟩

/-- **C24**, too long: `ARRAY_FULL`, and the content is kept; nothing else changes. -/
theorem C24_too_long_partial {num cap : Nat} (s : Slot fs num .single (.str cap)) (x : (T).Obj) (b : β)
    (tg p r : List Byte) (n fuel : Nat) (h : (T).WF) (hx : (T).Reach x) (hb : M.Inv b)
    (hv : M.view b = tg ++ (p ++ r)) (ht : Varint 32 tg (8 * num + 2)) (hp : Varint 32 p n)
    (hn : cap < n) (hf : (M.view b).length < fuel) :
    ∃ b' y, (T).cls.deserialize fuel b x = .ok (.arrayFull, b', y) ∧ (T).abs y = (T).abs x := by
  obtain ⟨b', y, v, h1, _, h3, h4⟩ := s.decode_fail M h x (slot_tidy_str s hx) fuel b tg (p ++ r)
    .lengthDelimited .arrayFull (· = s.get ((T).abs x).1) hb hv ht
    (Or.inr ⟨rfl, Or.inr ⟨p, r, n, rfl, hp, Or.inl ⟨hn, rfl, rfl⟩⟩⟩) hf
  refine ⟨b', y, h1, ?_⟩
  rw [h4, h3]
  show (s.put _ (s.get _), _) = _
  rw [s.put_get]
  rfl

/-- The same for an optional string: the content is kept (the field is marked present). -/
theorem C24_too_long_optional_partial {num cap : Nat} (s : Slot fs num .opt (.str cap)) (x : (T).Obj)
    (b : β) (tg p r : List Byte) (n fuel : Nat) (h : (T).WF) (hx : (T).Reach x) (hb : M.Inv b)
    (hv : M.view b = tg ++ (p ++ r)) (ht : Varint 32 tg (8 * num + 2)) (hp : Varint 32 p n)
    (hn : cap < n) (hf : (M.view b).length < fuel) :
    ∃ b' y, (T).cls.deserialize fuel b x = .ok (.arrayFull, b', y) ∧
      (T).abs y = (s.put ((T).abs x).1 (some (Option.getD (s.get ((T).abs x).1) [])), ((T).abs x).2) := by
  obtain ⟨b', y, v, h1, _, h3, h4⟩ := s.decode_fail M h x (slot_tidy_str s hx) fuel b tg (p ++ r)
    .lengthDelimited .arrayFull (· = Option.getD (s.get ((T).abs x).1) []) hb hv ht
    (Or.inr ⟨rfl, Or.inr ⟨p, r, n, rfl, hp, Or.inl ⟨hn, rfl, rfl⟩⟩⟩) hf
  exact ⟨b', y, h1, by rw [h4, h3]; rfl⟩

/-- The same for a string in a oneof: `ARRAY_FULL`, but the content is lost: the oneof is unset. -/
theorem C24_too_long_member_partial {num cap : Nat} {a : Alts} (s : OneofSlot os a)
    (m : Member a num (.str cap)) (x : (T).Obj) (b : β) (tg p r : List Byte) (n fuel : Nat) (h : (T).WF)
    (hx : (T).Reach x) (hb : M.Inv b) (hv : M.view b = tg ++ (p ++ r)) (ht : Varint 32 tg (8 * num + 2))
    (hp : Varint 32 p n) (hn : cap < n) (hf : (M.view b).length < fuel) :
    ∃ b' y, (T).cls.deserialize fuel b x = .ok (.arrayFull, b', y) ∧
      (T).abs y = (((T).abs x).1, s.put ((T).abs x).2 none) := by
  obtain ⟨b', y, h1, _, h3⟩ := m.decode_fail M s h x (ElemTy.reach_inv T h hx) trivial fuel b tg (p ++ r)
    .lengthDelimited .arrayFull hb hv ht
    (Or.inr ⟨rfl, Or.inr ⟨p, r, n, rfl, hp, Or.inl ⟨hn, rfl, trivial⟩⟩⟩) hf
  exact ⟨b', y, h1, h3⟩

/-- **C24**, bytes missing: `END_OF_BUFFER`; the field holds the bytes there were. -/
theorem C24_short_partial {num cap : Nat} (s : Slot fs num .single (.str cap)) (x : (T).Obj) (b : β)
    (tg p r : List Byte) (n fuel : Nat) (h : (T).WF) (hx : (T).Reach x) (hb : M.Inv b)
    (hv : M.view b = tg ++ (p ++ r)) (ht : Varint 32 tg (8 * num + 2)) (hp : Varint 32 p n)
    (hn : n ≤ cap) (hr : r.length < n) (hf : (M.view b).length < fuel) :
    ∃ b' y, (T).cls.deserialize fuel b x = .ok (.endOfBuffer, b', y) ∧
      (T).abs y = (s.put ((T).abs x).1 r, ((T).abs x).2) := by
  obtain ⟨b', y, v, h1, _, h3, h4⟩ := s.decode_fail M h x (slot_tidy_str s hx) fuel b tg (p ++ r)
    .lengthDelimited .endOfBuffer (· = r) hb hv ht
    (Or.inr ⟨rfl, Or.inr ⟨p, r, n, rfl, hp, Or.inr ⟨hn, hr, rfl, rfl⟩⟩⟩) hf
  exact ⟨b', y, h1, by rw [h4, h3]; rfl⟩

/-- The same for an optional string. -/
theorem C24_short_optional_partial {num cap : Nat} (s : Slot fs num .opt (.str cap)) (x : (T).Obj) (b : β)
    (tg p r : List Byte) (n fuel : Nat) (h : (T).WF) (hx : (T).Reach x) (hb : M.Inv b)
    (hv : M.view b = tg ++ (p ++ r)) (ht : Varint 32 tg (8 * num + 2)) (hp : Varint 32 p n)
    (hn : n ≤ cap) (hr : r.length < n) (hf : (M.view b).length < fuel) :
    ∃ b' y, (T).cls.deserialize fuel b x = .ok (.endOfBuffer, b', y) ∧
      (T).abs y = (s.put ((T).abs x).1 (some r), ((T).abs x).2) := by
  obtain ⟨b', y, v, h1, _, h3, h4⟩ := s.decode_fail M h x (slot_tidy_str s hx) fuel b tg (p ++ r)
    .lengthDelimited .endOfBuffer (· = r) hb hv ht
    (Or.inr ⟨rfl, Or.inr ⟨p, r, n, rfl, hp, Or.inr ⟨hn, hr, rfl, rfl⟩⟩⟩) hf
  exact ⟨b', y, h1, by rw [h4, h3]; rfl⟩

/-- **C24**, all there: the content is exactly those bytes, whatever it was before; nothing else changes,
and decoding goes on with what follows. -/
theorem C24_exact_partial {num cap : Nat} (s : Slot fs num .single (.str cap)) (x : (T).Obj) (b : β)
    (tg p body rest : List Byte) (fuel : Nat) (h : (T).WF) (hx : (T).Reach x) (hb : M.Inv b)
    (hv : M.view b = tg ++ ((p ++ body) ++ rest)) (ht : Varint 32 tg (8 * num + 2))
    (hp : Varint 32 p body.length) (hn : body.length ≤ cap) (hf : (M.view b).length < fuel) :
    ∃ b' y, Onward fs os fuel b x b' y ∧ M.Inv b' ∧ M.view b' = rest ∧
      (T).abs y = (s.put ((T).abs x).1 body, ((T).abs x).2) := by
  obtain ⟨hi, hc⟩ := (slot_tidy_str s hx).inv_clean h
  obtain ⟨b', y, h1, h2, h3, _, _, h6⟩ := s.onward M h x hi hc fuel b tg (p ++ body) rest body hb hv ht
    ⟨⟨p, hp, rfl⟩, hn⟩ hf
  exact ⟨b', y, h1, h2, h3, h6⟩

/-- The same for an optional string, which becomes present. -/
theorem C24_exact_optional_partial {num cap : Nat} (s : Slot fs num .opt (.str cap)) (x : (T).Obj) (b : β)
    (tg p body rest : List Byte) (fuel : Nat) (h : (T).WF) (hx : (T).Reach x) (hb : M.Inv b)
    (hv : M.view b = tg ++ ((p ++ body) ++ rest)) (ht : Varint 32 tg (8 * num + 2))
    (hp : Varint 32 p body.length) (hn : body.length ≤ cap) (hf : (M.view b).length < fuel) :
    ∃ b' y, Onward fs os fuel b x b' y ∧ M.Inv b' ∧ M.view b' = rest ∧
      (T).abs y = (s.put ((T).abs x).1 (some body), ((T).abs x).2) := by
  obtain ⟨hi, hc⟩ := (slot_tidy_str s hx).inv_clean h
  obtain ⟨b', y, h1, h2, h3, _, _, h6⟩ := s.onward M h x hi hc fuel b tg (p ++ body) rest body hb hv ht
    ⟨⟨p, hp, rfl⟩, hn⟩ hf
  exact ⟨b', y, h1, h2, h3, h6⟩

/-- The same for a string in a oneof, which becomes the member that is set. -/
theorem C24_exact_member_partial {num cap : Nat} {a : Alts} (s : OneofSlot os a)
    (m : Member a num (.str cap)) (x : (T).Obj) (b : β)
    (tg p body rest : List Byte) (fuel : Nat) (h : (T).WF) (hx : (T).Reach x) (hb : M.Inv b)
    (hv : M.view b = tg ++ ((p ++ body) ++ rest)) (ht : Varint 32 tg (8 * num + 2))
    (hp : Varint 32 p body.length) (hn : body.length ≤ cap) (hf : (M.view b).length < fuel) :
    ∃ b' y, Onward fs os fuel b x b' y ∧ M.Inv b' ∧ M.view b' = rest ∧
      (T).abs y = (((T).abs x).1, s.put ((T).abs x).2 (some (m.inj body))) := by
  obtain ⟨b', z, h1, h2, h3, _, _, h6⟩ := m.onward M s h x (ElemTy.reach_inv T h hx) trivial fuel b tg
    (p ++ body) rest body hb hv ht ⟨⟨p, hp, rfl⟩, hn⟩ hf
  exact ⟨b', _, h1, h2, h3, h6⟩

/-! ## C25, C39 -/

/-- `bs` are records of field `num`, one for each of the elements `ys`. -/
def Elements (num : Nat) (t : ElemTy) (bs : List Byte) (ys : List t.Val) : Prop :=
  Packed (fun bs y => ∃ tg p, Varint 32 tg (8 * num + 2) ∧ bs = tg ++ p ∧ t.Payload p t.dflt y) bs ys

theorem Packed.split {V : Type} {P : List Byte → V → Prop} {bs : List Byte} {ys : List V}
    (h : Packed P bs ys) (k : Nat) (hk : k < ys.length) :
    ∃ pre c post, bs = pre ++ (c ++ post) ∧ Packed P pre (ys.take k) ∧ P c ys[k] := by
  induction h generalizing k with
  | nil => exact absurd hk (Nat.not_lt_zero _)
  | @cons c bs' v vs h1 h2 ih =>
    cases k with
    | zero => exact ⟨[], c, bs', rfl, .nil, h1⟩
    | succ k =>
      obtain ⟨pre, d, post, e1, e2, e3⟩ := ih k (by simpa using hk)
      exact ⟨c ++ pre, d, post, by rw [e1, List.append_assoc], .cons h1 e2, e3⟩

theorem take_full {V : Type} (u ys : List V) (cap : Nat) (hle : u.length ≤ cap)
    (hfull : cap < u.length + ys.length) :
    u.append (ys.take (cap - u.length)) = (u.append ys).take cap ∧
    u.length + (ys.take (cap - u.length)).length = cap := by
  constructor
  · simp only [List.append_eq, List.take_append]
    rw [List.take_of_length_le hle]
  · rw [List.length_take]; omega

/-- Records of elements that fit. -/
theorem Elements.records {num cap : Nat} {t : ElemTy} {bs : List Byte} {ys : List t.Val}
    (hs : t.isScalar = false) (h : Elements num t bs ys) (u : List t.Val) (hl : u.length + ys.length ≤ cap) :
    SlotRecords num (.rep cap) t bs u (u ++ ys) := by
  induction h generalizing u with
  | nil => rw [List.append_nil]; exact .nil _
  | @cons c bs' v vs h1 h2 ih =>
    obtain ⟨tg, p, e1, e2, e3⟩ := h1
    subst e2
    have := ih (u ++ [v]) (by simp at hl ⊢; omega)
    rw [List.append_assoc] at this
    rw [List.append_assoc]
    refine SlotRecords.cons (c := .rep cap) (t := t) (v := (u ++ [v] : List t.Val)) e1 ⟨?_, ?_⟩ this
    · show (u ++ [v]).length ≤ cap
      simp at hl ⊢; omega
    · rw [hs]
      exact ⟨v, e3, rfl⟩

/-- **C25**, full statement: records with more elements than fit. -/
def C25_Statement : Prop :=
  ∀ (β : Type) [ReadBuffer β] (M : ReadModel β) (x : (T).Obj) (b : β) (tg r : List Byte)
    (fuel num cap : Nat) (t : ElemTy) (s : Slot fs num (.rep cap) t) (ys : List t.Val),
    (T).WF → (T).Reach x → M.Inv b → (M.view b).length < fuel →
    cap < List.length (α := t.Val) (s.get ((T).abs x).1) + ys.length →
    (if t.isScalar then
      ∃ body, M.view b = tg ++ r ∧ Varint 32 tg (8 * num + 2) ∧ Delimited r body ∧
        Packed (fun b y => t.Payload b t.dflt y) body ys
    else Elements num t (M.view b) ys) →
    ∃ b' y, (T).cls.deserialize fuel b x = .ok (.arrayFull, b', y) ∧
      s.get ((T).abs y).1 = List.take (α := t.Val) cap
        (List.append (α := t.Val) (s.get ((T).abs x).1) ys)

/-- **C25**, packed arrays: `ARRAY_FULL`, and the elements that fit are appended. -/
theorem C25_packed_partial {num cap : Nat} {sc : ScalarTy} (s : Slot fs num (.rep cap) (.scalar sc))
    (x : (T).Obj) (b : β) (tg r body : List Byte) (ys : List sc.Val) (fuel : Nat) (h : (T).WF)
    (hx : (T).Reach x) (hb : M.Inv b) (hf : (M.view b).length < fuel)
    (hfull : cap < List.length (α := sc.Val) (s.get ((T).abs x).1) + ys.length)
    (hv : M.view b = tg ++ r) (ht : Varint 32 tg (8 * num + 2)) (hd : Delimited r body)
    (hp : Packed (fun b y => sc.Payload b y) body ys) :
    ∃ b' y, (T).cls.deserialize fuel b x = .ok (.arrayFull, b', y) ∧
      (T).abs y = (s.put ((T).abs x).1 (List.take (α := sc.Val) cap
        (List.append (α := sc.Val) (s.get ((T).abs x).1) ys)), ((T).abs x).2) := by
  have hi := ElemTy.reach_inv T h hx
  have hle : List.length (α := sc.Val) (s.get ((T).abs x).1) ≤ cap := by
    exact s.length_le hi
  generalize hu : s.get ((T).abs x).1 = u at *
  have hk : cap - List.length (α := sc.Val) u < ys.length := by omega
  obtain ⟨pre, c, post, e1, e2, e3⟩ := hp.split _ hk
  obtain ⟨p, hp1, hp2⟩ := hd
  obtain ⟨b', y, v, h1, _, h3, h4⟩ := s.decode_fail M h x (Or.inl ⟨hx, rfl⟩) fuel b tg r
    .lengthDelimited .arrayFull (· = (List.take (α := sc.Val) cap (List.append (α := sc.Val) u ys))) hb hv ht
    (Or.inr ⟨rfl, p, body, body.length, pre, c ++ post, ys.take (cap - List.length (α := sc.Val) u), hp2, hp1,
      by rw [List.take_length, e1], e2, by
        rw [hu]; exact Nat.le_of_eq (take_full (V := sc.Val) u ys cap hle hfull).2, by
        rw [hu]; exact (take_full (V := sc.Val) u ys cap hle hfull).1, Or.inr ⟨by
        rw [hu]; exact (take_full (V := sc.Val) u ys cap hle hfull).2, rfl, c, post, _, rfl, e3⟩⟩) hf
  exact ⟨b', y, h1, by rw [h4, h3]; rfl⟩

/-- **C25**, arrays of strings, and arrays of messages of objects only used to receive: `ARRAY_FULL`, and
the elements that fit are appended. -/
theorem C25_elements_partial {num cap : Nat} {t : ElemTy} (s : Slot fs num (.rep cap) t)
    (x : (T).Obj) (b : β) (ys : List t.Val) (fuel : Nat) (h : (T).WF)
    (hs : t.isScalar = false) (hx : s.Tidy x) (hb : M.Inv b) (hf : (M.view b).length < fuel)
    (hfull : cap < List.length (α := t.Val) (s.get ((T).abs x).1) + ys.length)
    (hp : Elements num t (M.view b) ys) :
    ∃ b' y, (T).cls.deserialize fuel b x = .ok (.arrayFull, b', y) ∧
      (T).abs y = (s.put ((T).abs x).1 (List.take (α := t.Val) cap
        (List.append (α := t.Val) (s.get ((T).abs x).1) ys)), ((T).abs x).2) := by
  obtain ⟨hi, hc⟩ := hx.inv_clean h
  have hle : List.length (α := t.Val) (s.get ((T).abs x).1) ≤ cap := s.length_le hi
  generalize hu : s.get ((T).abs x).1 = u at *
  have hk : cap - List.length (α := t.Val) u < ys.length := by omega
  obtain ⟨pre, c, post, e1, e2, tg, p, e3, e4, e5⟩ := Packed.split hp _ hk
  obtain ⟨htake, hl⟩ := take_full (V := t.Val) u ys cap hle hfull
  obtain ⟨b', y, v, h1, _, h3, h4⟩ := s.decode_fail_after M h
    (Elements.records hs e2 u (Nat.le_of_eq hl)) x hi hc hu fuel b tg (p ++ post) .lengthDelimited .arrayFull
    (· = (List.take (α := t.Val) cap (List.append (α := t.Val) u ys))) hb
    (by rw [e1, e4, List.append_assoc]) e3
    (Or.inr ⟨rfl, by
      rw [hs]
      exact Or.inl ⟨(List.length_append (α := t.Val)).trans hl, rfl, htake⟩⟩) hf
  exact ⟨b', y, h1, by rw [h4, h3]; rfl⟩

/-- **C25**, any object and any bytes: the length never exceeds the maximum. -/
theorem C25_length {num cap : Nat} {t : ElemTy} (s : Slot fs num (.rep cap) t) (x y : (T).Obj) (b b' : β)
    (fuel : Nat) (e : Error) (h : (T).WF) (hx : (T).Reach x) (hb : M.Inv b)
    (hd : (T).cls.deserialize fuel b x = .ok (e, b', y)) :
    List.length (α := t.Val) (s.get ((T).abs y).1) ≤ cap :=
  s.length_le ((C20_no_ub M fs os x b fuel h hx hb).2 e b' y hd).1

/-- **C39**, full statement: records of elements are appended, whatever the object was used for
before. -/
def C39_Statement : Prop :=
  ∀ (β : Type) [ReadBuffer β] (M : ReadModel β) (x : (T).Obj) (b : β)
    (fuel num cap : Nat) (t : ElemTy) (s : Slot fs num (.rep cap) t) (ys : List t.Val),
    (T).WF → (T).Reach x → t.isMsg = true → M.Inv b → (M.view b).length < fuel →
    List.length (α := t.Val) (s.get ((T).abs x).1) + ys.length ≤ cap → Elements num t (M.view b) ys →
    ∃ b' y, (T).cls.deserialize fuel b x = .ok (.noErrors, b', y) ∧
      s.get ((T).abs y).1 = List.append (α := t.Val) (s.get ((T).abs x).1) ys

/-- **C39** for objects only used to receive (and arrays of strings of any object): the elements are
appended and the other fields and the oneofs are unchanged. -/
theorem C39_append_partial {num cap : Nat} {t : ElemTy} (s : Slot fs num (.rep cap) t) (x : (T).Obj)
    (b : β) (ys : List t.Val) (fuel : Nat) (h : (T).WF) (hs : t.isScalar = false) (hx : s.Tidy x)
    (hb : M.Inv b) (hf : (M.view b).length < fuel)
    (hfit : List.length (α := t.Val) (s.get ((T).abs x).1) + ys.length ≤ cap)
    (hp : Elements num t (M.view b) ys) :
    ∃ b' y, (T).cls.deserialize fuel b x = .ok (.noErrors, b', y) ∧
      s.get ((T).abs y).1 = List.append (α := t.Val) (s.get ((T).abs x).1) ys ∧
      (∀ num' c' t' (s' : Slot fs num' c' t'), num' ≠ num → s'.get ((T).abs y).1 = s'.get ((T).abs x).1) ∧
      ((T).abs y).2 = ((T).abs x).2 := by
  obtain ⟨hi, hc⟩ := hx.inv_clean h
  obtain ⟨b', y, h1, h2, h3, h4⟩ := s.decode_all M h (Elements.records hs hp _ hfit) x hi hc rfl fuel b hb rfl hf
  exact ⟨b', y, h1, h2, h3, h4⟩

/-! ## C26 -/

/-- **C26**, full statement: the input ends inside a record. -/
def C26_Statement : Prop :=
  ∀ (β : Type) [ReadBuffer β] (M : ReadModel β) (x : (T).Obj) (v w : (T).Val) (b : β)
    (pre cut rest : List Byte) (fuel : Nat), (T).WF → (T).Reach x → M.Inv b →
    Records fs os pre ((T).abs x) v →
    RecordStep (fs.numbers ++ os.numbers) fs.Record os.Record (cut ++ rest) v w →
    cut ≠ [] → rest ≠ [] → M.view b = pre ++ cut → (M.view b).length < fuel →
    ∀ e b' y, (T).cls.deserialize fuel b x = .ok (e, b', y) → e ≠ .noErrors

/-- **C26** if the input ends inside a scalar, a string, a length or an unknown scalar, at any depth of
nesting (`Truncated`): `END_OF_BUFFER`. -/
theorem C26_truncated_partial (x : (T).Obj) (b : β) (fuel : Nat) (h : (T).WF) (hx : (T).Tidy x)
    (hb : M.Inv b) (hcut : Truncated fs os (M.view b) ((T).abs x)) (hf : (M.view b).length < fuel) :
    ∃ b' y, (T).cls.deserialize fuel b x = .ok (.endOfBuffer, b', y) := by
  obtain ⟨hi, hc⟩ := hx.inv_clean h
  obtain ⟨⟨e', b', y⟩, h1, h2, _⟩ := (ElemTy.body_law T h β M fuel b x .endOfBuffer (fun _ => True) hi hc hb
    hcut.fail hf).exists
  dsimp only at h2
  subst h2
  exact ⟨b', y, h1⟩

/-- **C26** is false for every declaration: input that ends inside a tag is accepted, and the object is
not changed. -/
theorem C26_tag_accepted (x : (T).Obj) (b : β) (fuel : Nat) (hb : M.Inv b) (hf : 0 < fuel)
    (hcut : CutVarint 5 (M.view b)) :
    ∃ b', (T).cls.deserialize fuel b x = .ok (.noErrors, b', x) := by
  obtain ⟨⟨q, b'⟩, h1, h2, _⟩ := (tag_cut M b hb hcut).exists
  dsimp only at h2
  subst h2
  exact ⟨b', deserialize_tag_error fs os fuel b b' x .endOfBuffer hf h1⟩

/-! ## C36 -/

/-- **C36**, full statement: unknown fields of every valid wire type, groups included, are skipped;
truncated ones are errors. -/
def C36_Statement : Prop :=
  ∀ (β : Type) [ReadBuffer β] (M : ReadModel β) (x : (T).Obj) (b : β) (tg p : List Byte)
    (fuel num : Nat) (wt : WireType), (T).WF → (T).Reach x → M.Inv b → 0 < num →
    num ∉ fs.numbers ++ os.numbers → Varint 32 tg (8 * num + wireNumber wt) →
    M.view b = tg ++ p → (M.view b).length < fuel →
    (UnknownPayload wt p ∨ (wt = .startGroup ∧ Group num p) →
      ∃ b', (T).cls.deserialize fuel b x = .ok (.noErrors, b', x)) ∧
    (∀ rest, rest ≠ [] → UnknownPayload wt (p ++ rest) → ∀ e b' y,
      (T).cls.deserialize fuel b x = .ok (e, b', y) → e ≠ .noErrors)

/-- **C36**: an unknown varint, fixed32, fixed64 or length-delimited field is skipped exactly, the object
is not changed and decoding goes on with what follows. -/
theorem C36_skipped_partial (x : (T).Obj) (b : β) (tg p rest : List Byte) (fuel num : Nat) (wt : WireType)
    (h : (T).WF) (hb : M.Inv b) (h0 : 0 < num) (hn : num ∉ fs.numbers ++ os.numbers)
    (ht : Varint 32 tg (8 * num + wireNumber wt)) (hp : UnknownPayload wt p)
    (hv : M.view b = tg ++ (p ++ rest)) (hf : 0 < fuel) :
    ∃ b', Onward fs os fuel b x b' x ∧ M.Inv b' ∧ M.view b' = rest :=
  unknown_onward M h x fuel b tg p rest wt h0 hn hb hv ht hp hf

/-- **C36**: a truncated unknown varint, fixed32 or fixed64 field, or one that ends inside its length, is
an error, and the object is not changed. -/
theorem C36_truncated_partial (x : (T).Obj) (b : β) (tg q : List Byte) (fuel num : Nat) (wt : WireType)
    (h : (T).WF) (hb : M.Inv b) (h0 : 0 < num) (hn : num ∉ fs.numbers ++ os.numbers)
    (ht : Varint 32 tg (8 * num + wireNumber wt)) (hq : UnknownCut wt q) (hv : M.view b = tg ++ q)
    (hf : 0 < fuel) :
    ∃ b', (T).cls.deserialize fuel b x = .ok (.endOfBuffer, b', x) := by
  obtain ⟨b', h1, _⟩ := unknown_fail M h x fuel b tg q wt .endOfBuffer h0 hn hb hv ht (.of_cut hq) hf
  exact ⟨b', h1⟩

/-- **C36**: of a group only the tags are skipped: whatever is inside is decoded as if it were outside. -/
theorem C36_group_partial (x : (T).Obj) (b : β) (tg rest : List Byte) (fuel num : Nat) (wt : WireType)
    (h : (T).WF) (hb : M.Inv b) (h0 : 0 < num) (hn : num ∉ fs.numbers ++ os.numbers)
    (ht : Varint 32 tg (8 * num + wireNumber wt)) (hwt : wt = .startGroup ∨ wt = .endGroup)
    (hv : M.view b = tg ++ rest) (hf : 0 < fuel) :
    ∃ b', Onward fs os fuel b x b' x ∧ M.Inv b' ∧ M.view b' = rest := by
  obtain ⟨b₁, h1, h2, h3⟩ := onward_of_step M fuel b x tg rest num wt hb hv ht hf
  refine ⟨b₁, h3 b₁ x ?_, h1, h2⟩
  rw [unknown_step h fuel x hn h0]
  rcases hwt with rfl | rfl <;> rfl

/-! ## C38 -/

/-- **C38**, full statement: the length cannot be read, or the contents end inside an element. -/
def C38_Statement : Prop :=
  ∀ (β : Type) [ReadBuffer β] (M : ReadModel β) (x : (T).Obj) (b : β) (tg r : List Byte)
    (fuel num cap : Nat) (sc : ScalarTy), Nonempty (Slot fs num (.rep cap) (.scalar sc)) →
    (T).WF → (T).Reach x → M.Inv b → (M.view b).length < fuel →
    M.view b = tg ++ r → Varint 32 tg (8 * num + 2) →
    ((∃ e, BadVarint 32 r e) ∨
     (∃ good cut rest ys v, Delimited r (good ++ cut) ∧ Packed (fun b y => sc.Payload b y) good ys ∧
        cut ≠ [] ∧ rest ≠ [] ∧ sc.Payload (cut ++ rest) v)) →
    ∀ e b' y, (T).cls.deserialize fuel b x = .ok (e, b', y) → e ≠ .noErrors

/-- **C38** for an element that is no varint: `OVERLONG_VARINT`, and the elements before it are
appended. -/
theorem C38_overlong_partial {num cap : Nat} {sc : ScalarTy} (s : Slot fs num (.rep cap) (.scalar sc))
    (x : (T).Obj) (b : β) (tg r good rem : List Byte) (ys : List sc.Val) (fuel : Nat) (h : (T).WF)
    (hx : (T).Reach x) (hb : M.Inv b) (hf : (M.view b).length < fuel)
    (hv : M.view b = tg ++ r) (ht : Varint 32 tg (8 * num + 2)) (hd : Delimited r (good ++ rem))
    (hp : Packed (fun b y => sc.Payload b y) good ys) (hbad : sc.Bad rem .overlongVarint)
    (hfit : List.length (α := sc.Val) (s.get ((T).abs x).1) + ys.length ≤ cap) :
    ∃ b' y, (T).cls.deserialize fuel b x = .ok (.overlongVarint, b', y) ∧
      (T).abs y = (s.put ((T).abs x).1 (List.append (α := sc.Val) (s.get ((T).abs x).1) ys),
        ((T).abs x).2) := by
  obtain ⟨p, hp1, hp2⟩ := hd
  obtain ⟨b', y, v, h1, _, h3, h4⟩ := s.decode_fail M h x (Or.inl ⟨hx, rfl⟩) fuel b tg r
    .lengthDelimited .overlongVarint (· = (List.append (α := sc.Val) (s.get ((T).abs x).1) ys)) hb hv ht
    (Or.inr ⟨rfl, p, good ++ rem, (good ++ rem).length, good, rem, ys, hp2, hp1,
      by rw [List.take_length], hp, hfit, rfl, Or.inl ⟨⟨hbad, trivial⟩, by simp⟩⟩) hf
  exact ⟨b', y, h1, by rw [h4, h3]; rfl⟩

end

/-! ## What is false of the code -/

local notation "M8" => ReadFixed.model 8 (by omega)
local notation "hold" => ReadFixed.holding 8

/-- `message { optional uint32 a = 1; }` -/
abbrev oneOptional : ElemTy := .msg (.optional 1 (.scalar .uint32) .nil) .nil

theorem oneOptional_wf : oneOptional.WF := by
  simp [ElemTy.WF, Fields.WF, Oneofs.WF, Fields.numbers, Oneofs.numbers]

/-- **C23** is false: the tag `0D` (field 1 as fixed32) makes the absent optional field present. -/
theorem C23_false : ¬ ∀ fs os, C23_Statement fs os := by
  intro h
  obtain ⟨b', y, h1, _, h3⟩ := h _ _ ReadFixed M8 oneOptional.cls.init (hold [0x0D]) [0x0D] [] 9 1 .fixed32
    oneOptional_wf .init (ReadFixed.holding_inv _ _ _ (by decide)) (ReadFixed.holding_view _ _ _)
    (by decide) (by decide) (Or.inl ⟨.opt, _, .optional 1 (.scalar .uint32) .nil, by decide⟩)
  have e : oneOptional.cls.deserialize 9 (hold [0x0D]) oneOptional.cls.init =
    .ok (.invalidWiretype, ⟨8, [0x0D, 0, 0, 0, 0, 0, 0, 0], 1, 1⟩, ⟨[1#32], (0#32, ()), ()⟩) := rfl
  rw [e] at h1
  cases h1
  have : ((some 0#32, ()), ()) = ((none, ()), ()) := h3
  exact absurd this (by decide)

/-- `message { oneof o { string a = 1 [maxLength = 4]; } }` -/
abbrev oneOneof : ElemTy := .msg .nil (.cons (.cons 1 (.str 4) .nil) .nil)

theorem oneOneof_wf : oneOneof.WF := by
  simp [ElemTy.WF, Fields.WF, Oneofs.WF, Alts.WF, Fields.numbers, Oneofs.numbers, Alts.numbers]

/-- An object in which `a` is `"ab"`. -/
def abOneof : oneOneof.Obj :=
  ⟨[], (), (⟨1, some (.inl ⟨2, [0x61, 0x62, 0, 0]⟩)⟩, ())⟩

theorem abOneof_reach : oneOneof.Reach abOneof :=
  oneOneof.reach_decoded (Source.holding 8 (by omega) [0x0A, 0x02, 0x61, 0x62] (by decide)) 9
    (e := .noErrors) (b := ⟨8, [0x0A, 0x02, 0x61, 0x62, 0, 0, 0, 0], 4, 4⟩) .init rfl

/-- **C24** is false: a string of length 5 sent to that object is rejected, but `"ab"` is lost. -/
theorem C24_false : ¬ ∀ fs os, C24_Statement fs os := by
  intro h
  obtain ⟨b', y, h1, h3⟩ := (h _ _ ReadFixed M8 abOneof (hold [0x0A, 0x05]) [0x0A] [0x05] [] 9 1 4 5
    oneOneof_wf abOneof_reach (ReadFixed.holding_inv _ _ _ (by decide)) (ReadFixed.holding_view _ _ _)
    (by decide) (by decide) (by decide) (by decide)).2 _ (.here _ _) (.here _ _ _)
  have e : oneOneof.cls.deserialize 9 (hold [0x0A, 0x05]) abOneof =
    .ok (.arrayFull, ⟨8, [0x0A, 0x05, 0, 0, 0, 0, 0, 0], 2, 2⟩, ⟨[], (), (⟨0, none⟩, ())⟩) := rfl
  rw [e] at h1
  cases h1
  have : (none : Option (List Byte ⊕ Empty)) = some (.inl [0x61, 0x62]) := h3
  exact nomatch this

/-- The slot of field 1 of `repMsg`. -/
def repSlot : Slot (.repeated 1 2 (oneScalar 1 .int32) .nil) 1 (.rep 2) (oneScalar 1 .int32) := .repeated _ _ _ _

/-- The element `{}`. -/
def emptyElem : (oneScalar 1 .int32).Val := ((0#32, ()), ())

theorem emptyElem_record : ∃ tg p, Varint 32 tg (8 * 1 + 2) ∧ [0x0A, 0x00] = tg ++ p ∧
    (oneScalar 1 .int32).Payload p (oneScalar 1 .int32).dflt emptyElem :=
  ⟨[0x0A], [0x00], by decide, rfl, [], ⟨[0x00], by decide, rfl⟩, .nil _⟩

/-- **C25** is false: three elements `{}` sent to an array of two that held `{a = 5}` before. -/
theorem C25_false : ¬ ∀ fs os, C25_Statement fs os := by
  intro h
  obtain ⟨b', y, h1, h3⟩ := h _ _ ReadFixed M8 staleRep (hold [0x0A, 0x00, 0x0A, 0x00, 0x0A, 0x00]) [] [] 9 1 2
    _ repSlot [emptyElem, emptyElem, emptyElem]
    repMsg_wf staleRep_reach (ReadFixed.holding_inv _ _ _ (by decide)) (by decide) (by decide)
    (by
      rw [ReadFixed.holding_view]
      exact Packed.cons (bs := [0x0A, 0x00]) (bs' := [0x0A, 0x00, 0x0A, 0x00]) emptyElem_record
        (.cons (bs := [0x0A, 0x00]) (bs' := [0x0A, 0x00]) emptyElem_record
          (.cons (bs := [0x0A, 0x00]) (bs' := []) emptyElem_record .nil)))
  have e : repMsg.cls.deserialize 9 (hold [0x0A, 0x00, 0x0A, 0x00, 0x0A, 0x00]) staleRep =
    .ok (.arrayFull, ⟨8, [0x0A, 0, 0x0A, 0, 0x0A, 0, 0, 0], 6, 5⟩,
      ⟨[], (⟨2, [repElem 5, repElem 0]⟩, ()), ()⟩) := rfl
  rw [e] at h1
  cases h1
  have : [((5#32, ()), ()), ((0#32, ()), ())] = [((0#32, ()), ()), ((0#32, ()), ())] := h3
  exact absurd this (by decide)

/-- **C39** is false: an element `{}` sent to an array that held `{a = 5}` before becomes `{a = 5}`. -/
theorem C39_false : ¬ ∀ fs os, C39_Statement fs os := by
  intro h
  obtain ⟨b', y, h1, h3⟩ := h _ _ ReadFixed M8 staleRep (hold [0x0A, 0x00]) 9 1 2 _ repSlot [emptyElem]
    repMsg_wf staleRep_reach rfl (ReadFixed.holding_inv _ _ _ (by decide)) (by decide) (by decide)
    (by
      rw [ReadFixed.holding_view]
      exact Packed.cons (bs := [0x0A, 0x00]) (bs' := []) emptyElem_record .nil)
  rw [staleRep_decode] at h1
  cases h1
  have : [((5#32, ()), ())] = [((0#32, ()), ())] := h3
  exact absurd this (by decide)

/-- **C26** is false: `80` is the first byte of the tag of field 16; it is accepted. -/
theorem C26_false : ¬ ∀ fs os, C26_Statement fs os := by
  intro h
  refine h (.plain 16 (.scalar .uint32) .nil) .nil ReadFixed M8 (oneScalar 16 .uint32).cls.init _
    ((5#32, ()), ()) (hold [0x80]) [] [0x80] [0x01, 0x05] 9
    (by simp [ElemTy.WF, Fields.WF, Oneofs.WF, Fields.numbers, Oneofs.numbers])
    .init (ReadFixed.holding_inv _ _ _ (by decide)) (.nil _) ?_ (by decide) (by decide)
    (ReadFixed.holding_view _ _ _) (by decide) .noErrors ⟨8, [0x80, 0, 0, 0, 0, 0, 0, 0], 1, 1⟩ _ rfl rfl
  exact ⟨16, .varint, [0x80, 0x01], [0x05], by decide, rfl, Or.inl ⟨Or.inl ⟨rfl, rfl, ⟨5, by decide, rfl⟩, rfl⟩, rfl⟩⟩

/-- `message { Inner a = 1; }`, `message Inner { int32 a = 1; int32 b = 2; }` -/
abbrev nestedMsg : ElemTy :=
  .msg (.plain 1 (.msg (.plain 1 (.scalar .int32) (.plain 2 (.scalar .int32) .nil)) .nil) .nil) .nil

/-- Input that ends between the fields of a nested message is accepted as well: `0A 04 08 05` for
`0A 04 08 05 10 07`. -/
theorem C26_nested_accepted : ∃ b y, nestedMsg.cls.deserialize 9 (hold [0x0A, 0x04, 0x08, 0x05])
    nestedMsg.cls.init = .ok (.noErrors, b, y) ∧ nestedMsg.abs y = ((((5#32, 0#32, ()), ()), ()), ()) :=
  ⟨_, _, rfl, rfl⟩

/-- `message { repeated uint32 a = 1 [maxLength = 3]; }` -/
abbrev onePacked : ElemTy := .msg (.repeated 1 3 (.scalar .uint32) .nil) .nil

theorem onePacked_wf : onePacked.WF := by
  simp [ElemTy.WF, Fields.WF, Oneofs.WF, Fields.numbers, Oneofs.numbers]

/-- Input that ends inside a packed array is accepted as well: `0A 03 05 AC` for `0A 03 05 AC 02`. -/
theorem C26_packed_accepted : ∃ b y, onePacked.cls.deserialize 9 (hold [0x0A, 0x03, 0x05, 0xAC])
    onePacked.cls.init = .ok (.noErrors, b, y) ∧ onePacked.abs y = (([5#32], ()), ()) :=
  ⟨_, _, rfl, rfl⟩

/-- Input that ends inside an unknown length-delimited field: what there is of its contents is decoded
as fields of the message.  `12 03 08 05` sets field 1. -/
theorem C26_unknown_accepted : ∃ b, (oneScalar 1 .int32).cls.deserialize 9 (hold [0x12, 0x03, 0x08, 0x05])
    (oneScalar 1 .int32).cls.init = .ok (.noErrors, b, repElem 5) := ⟨_, rfl⟩

/-- **C36** is false: the group `13 08 05 14` with number 2, which contains a field 1, sets field 1 of the
message. -/
theorem C36_false : ¬ ∀ fs os, C36_Statement fs os := by
  intro h
  obtain ⟨b', h1⟩ := (h _ _ ReadFixed M8 (oneScalar 1 .int32).cls.init (hold [0x13, 0x08, 0x05, 0x14]) [0x13]
    [0x08, 0x05, 0x14] 9 2 .startGroup (oneScalar_wf .int32) .init
    (ReadFixed.holding_inv _ _ _ (by decide)) (by decide) (by decide) (by decide)
    (ReadFixed.holding_view _ _ _) (by decide)).1
    (Or.inr ⟨rfl, .field (k := 1) (wt := .varint) (tg := [0x08]) (p := [0x05]) (rest := [0x14]) (by decide)
      (by decide) (by show IsVarint 10 [0x05]; decide) (.stop (by decide))⟩)
  have e : (oneScalar 1 .int32).cls.deserialize 9 (hold [0x13, 0x08, 0x05, 0x14])
      (oneScalar 1 .int32).cls.init =
    .ok (.noErrors, ⟨8, [0x13, 0x08, 0x05, 0x14, 0, 0, 0, 0], 4, 4⟩, repElem 5) := rfl
  rw [e] at h1
  injection h1 with h1
  have h2 : repElem 5 = repElem 0 := congrArg (fun p => p.2.2) h1
  have : (5#32, ()) = (0#32, ()) := congrArg MsgObj.fields h2
  exact absurd this (by decide)

/-- The other half is false as well: the unknown field `12 03 08 05 07` cut before the last byte is accepted, and
field 1 is set from its contents. -/
theorem C36_truncated_false : ¬ ∀ fs os, C36_Statement fs os := by
  intro h
  exact (h _ _ ReadFixed M8 (oneScalar 1 .int32).cls.init (hold [0x12, 0x03, 0x08, 0x05]) [0x12]
    [0x03, 0x08, 0x05] 9 2 .lengthDelimited (oneScalar_wf .int32) .init
    (ReadFixed.holding_inv _ _ _ (by decide)) (by decide) (by decide) (by decide)
    (ReadFixed.holding_view _ _ _) (by decide)).2 [0x07] (by decide)
    ⟨[0x08, 0x05, 0x07], [0x03], by decide, rfl⟩ .noErrors
    ⟨8, [0x12, 0x03, 0x08, 0x05, 0, 0, 0, 0], 4, 4⟩ (repElem 5) rfl rfl

/-- **C38** is false: the contents `05 AC` end inside an element; they are accepted. -/
theorem C38_false : ¬ ∀ fs os, C38_Statement fs os := by
  intro h
  exact h _ _ ReadFixed M8 onePacked.cls.init (hold [0x0A, 0x02, 0x05, 0xAC]) [0x0A] [0x02, 0x05, 0xAC] 9 1 3 .uint32
    ⟨.repeated _ _ _ _⟩ onePacked_wf .init
    (ReadFixed.holding_inv _ _ _ (by decide)) (by decide) (ReadFixed.holding_view _ _ _) (by decide)
    (Or.inr ⟨[0x05], [0xAC], [0x02], [5#32], 300#32, ⟨[0x02], by decide, rfl⟩,
      Packed.cons (bs := [0x05]) (bs' := []) ⟨5, by decide, rfl⟩ .nil, by decide, by decide, ⟨300, by decide, rfl⟩⟩) .noErrors
    ⟨8, [0x0A, 0x02, 0x05, 0xAC, 0, 0, 0, 0], 4, 4⟩ ⟨[], (⟨1, [5#32, 0#32, 0#32]⟩, ()), ()⟩ rfl rfl

/-- The other half is false as well: a length that is no varint is accepted. -/
theorem C38_length_false : ¬ ∀ fs os, C38_Statement fs os := by
  intro h
  exact h _ _ ReadFixed M8 onePacked.cls.init (hold [0x0A, 0xFF, 0xFF, 0xFF, 0xFF, 0xFF]) [0x0A]
    [0xFF, 0xFF, 0xFF, 0xFF, 0xFF] 9 1 3 .uint32
    ⟨.repeated _ _ _ _⟩ onePacked_wf .init
    (ReadFixed.holding_inv _ _ _ (by decide)) (by decide) (ReadFixed.holding_view _ _ _) (by decide)
    (Or.inl ⟨.overlongVarint, Or.inr ⟨⟨[0xFF, 0xFF, 0xFF, 0xFF, 0xFF], [], rfl, rfl, by decide⟩, rfl⟩⟩) .noErrors
    ⟨8, [0x0A, 0xFF, 0xFF, 0xFF, 0xFF, 0xFF, 0, 0], 6, 6⟩ _ rfl rfl

/-! ## The hypotheses are satisfiable -/

namespace Sample

/-- Field `a`, `b`, `c`, `d` and `f` of the sample declaration, and member `i` of its oneof. -/
def slotA : Slot fields 1 .single (.scalar .int32) := .plain _ _ _
def slotB : Slot fields 2 .opt (.scalar .uint32) := .afterPlain _ _ (.optional _ _ _)
def slotC : Slot fields 3 (.rep 3) (.scalar .uint32) := .afterPlain _ _ (.afterOptional _ _ (.repeated _ _ _ _))
def slotD : Slot fields 4 .single (.str 8) :=
  .afterPlain _ _ (.afterOptional _ _ (.afterRepeated _ _ _ (.plain _ _ _)))
def slotF : Slot fields 6 (.rep 2) inner := .afterPlain _ _ (.afterOptional _ _ (.afterRepeated _ _ _
  (.afterPlain _ _ (.afterPlain _ _ (.repeated _ _ _ _)))))
def memberI : Member (.cons 8 (.scalar .boolean) (.cons 9 (.str 4) (.cons 100 inner .nil))) 9 (.str 4) :=
  .after _ _ (.here _ _ _)

/-- C23: the tag `0D` is field 1 with wire type 5. -/
example : ∃ b' y, outer.cls.deserialize 9 (hold [0x0D, 0x05]) outer.cls.init = .ok (.invalidWiretype, b', y) ∧
    (M8).view b' = [0x05] ∧ outer.abs y = outer.abs outer.cls.init :=
  C23_unchanged_partial M8 _ _ slotA _ _ [0x0D] [0x05] 9 .fixed32 outer_wf .init
    (ReadFixed.holding_inv _ _ _ (by decide)) (ReadFixed.holding_view _ _ _) (by decide) (by decide)
    (by decide) rfl

/-- C23: `48` is field 9 with wire type 0. -/
example (x : outer.Obj) (hx : outer.Reach x) : ∃ b' y,
    outer.cls.deserialize 9 (hold [0x48, 0x05]) x = .ok (.invalidWiretype, b', y) ∧
    (M8).Inv b' ∧ (M8).view b' = [0x05] ∧
    outer.abs y = ((outer.abs x).1, oneof.put (outer.abs x).2 none) :=
  C23_member_partial M8 _ _ oneof memberI _ _ [0x48] [0x05] 9 .varint outer_wf hx
    (ReadFixed.holding_inv _ _ _ (by decide)) (ReadFixed.holding_view _ _ _) (by decide) (by decide)
    (by decide)

/-- C24: a string of 9 bytes for `d`, of 4 bytes of which one is there, and of 2 bytes. -/
example (x : outer.Obj) (hx : outer.Reach x) :
    (∃ b' y, outer.cls.deserialize 9 (hold [0x22, 0x09, 0x61]) x = .ok (.arrayFull, b', y) ∧
      outer.abs y = outer.abs x) ∧
    (∃ b' y, outer.cls.deserialize 9 (hold [0x22, 0x04, 0x61]) x = .ok (.endOfBuffer, b', y) ∧
      outer.abs y = (slotD.put (outer.abs x).1 [0x61], (outer.abs x).2)) ∧
    (∃ b' y, Onward fields oneofs 9 (hold [0x22, 0x02, 0x61, 0x00, 0x08]) x b' y ∧ (M8).Inv b' ∧
      (M8).view b' = [0x08] ∧ outer.abs y = (slotD.put (outer.abs x).1 [0x61, 0x00], (outer.abs x).2)) :=
  ⟨C24_too_long_partial M8 _ _ slotD x _ [0x22] [0x09] [0x61] 9 9 outer_wf hx
    (ReadFixed.holding_inv _ _ _ (by decide)) (ReadFixed.holding_view _ _ _) (by decide) (by decide)
    (by decide) (by decide),
   C24_short_partial M8 _ _ slotD x _ [0x22] [0x04] [0x61] 4 9 outer_wf hx
    (ReadFixed.holding_inv _ _ _ (by decide)) (ReadFixed.holding_view _ _ _) (by decide) (by decide)
    (by decide) (by decide) (by decide),
   C24_exact_partial M8 _ _ slotD x _ [0x22] [0x02] [0x61, 0x00] [0x08] 9 outer_wf hx
    (ReadFixed.holding_inv _ _ _ (by decide)) (ReadFixed.holding_view _ _ _) (by decide) (by decide)
    (by decide) (by decide)⟩

/-- C24: a string of 5 bytes for member `i`. -/
example (x : outer.Obj) (hx : outer.Reach x) :
    ∃ b' y, outer.cls.deserialize 9 (hold [0x4A, 0x05, 0x61]) x = .ok (.arrayFull, b', y) ∧
      outer.abs y = ((outer.abs x).1, oneof.put (outer.abs x).2 none) :=
  C24_too_long_member_partial M8 _ _ oneof memberI x _ [0x4A] [0x05] [0x61] 5 9 outer_wf hx
    (ReadFixed.holding_inv _ _ _ (by decide)) (ReadFixed.holding_view _ _ _) (by decide) (by decide)
    (by decide) (by decide)

/-- C25: four elements for `c`, of which three fit. -/
example : ∃ b' y, outer.cls.deserialize 9 (hold [0x1A, 0x04, 0x01, 0x02, 0x03, 0x04]) outer.cls.init =
      .ok (.arrayFull, b', y) ∧
    outer.abs y = (slotC.put (outer.abs outer.cls.init).1 [1#32, 2#32, 3#32], (outer.abs outer.cls.init).2) :=
  C25_packed_partial M8 _ _ slotC _ _ [0x1A] [0x04, 0x01, 0x02, 0x03, 0x04] [0x01, 0x02, 0x03, 0x04]
    [1#32, 2#32, 3#32, 4#32] 9 outer_wf .init
    (ReadFixed.holding_inv _ _ _ (by decide)) (by decide) (by decide) (ReadFixed.holding_view _ _ _)
    (by decide) ⟨[0x04], by decide, rfl⟩
    (.cons (bs := [0x01]) ⟨1, by decide, rfl⟩ (.cons (bs := [0x02]) ⟨2, by decide, rfl⟩
      (.cons (bs := [0x03]) ⟨3, by decide, rfl⟩ (.cons (bs := [0x04]) ⟨4, by decide, rfl⟩ .nil))))

theorem elemF : ∃ tg p, Varint 32 tg (8 * 6 + 2) ∧ [0x32, 0x00] = tg ++ p ∧
    inner.Payload p inner.dflt inner.dflt :=
  ⟨[0x32], [0x00], by decide, rfl, [], ⟨[0x00], by decide, rfl⟩, .nil _⟩

/-- C25, C39: three elements for `f`, of which two fit; two elements. -/
example : (∃ b' y, outer.cls.deserialize 9 (hold [0x32, 0x00, 0x32, 0x00, 0x32, 0x00]) outer.cls.init =
      .ok (.arrayFull, b', y) ∧
    outer.abs y = (slotF.put (outer.abs outer.cls.init).1 [inner.dflt, inner.dflt],
      (outer.abs outer.cls.init).2)) ∧
    ∃ b' y, outer.cls.deserialize 9 (hold [0x32, 0x00, 0x32, 0x00]) outer.cls.init =
      .ok (.noErrors, b', y) ∧ slotF.get (outer.abs y).1 = [inner.dflt, inner.dflt] := by
  refine ⟨C25_elements_partial M8 _ _ slotF _ _ [inner.dflt, inner.dflt, inner.dflt] 9 outer_wf rfl
    (Or.inr (Or.inr .init)) (ReadFixed.holding_inv _ _ _ (by decide)) (by decide) (by decide) ?_, ?_⟩
  · rw [ReadFixed.holding_view]
    exact Packed.cons (bs := [0x32, 0x00]) (bs' := [0x32, 0x00, 0x32, 0x00]) elemF
      (.cons (bs := [0x32, 0x00]) (bs' := [0x32, 0x00]) elemF
        (.cons (bs := [0x32, 0x00]) (bs' := []) elemF .nil))
  · obtain ⟨b', y, h1, h2, _⟩ := C39_append_partial M8 fields oneofs slotF outer.cls.init
      (hold [0x32, 0x00, 0x32, 0x00]) [inner.dflt, inner.dflt] 9
      outer_wf rfl (Or.inr (Or.inr .init)) (ReadFixed.holding_inv _ _ _ (by decide)) (by decide) (by decide) (by
        rw [ReadFixed.holding_view]
        exact Packed.cons (bs := [0x32, 0x00]) (bs' := [0x32, 0x00]) elemF
          (.cons (bs := [0x32, 0x00]) (bs' := []) elemF .nil))
    exact ⟨b', y, h1, h2⟩

/-- C36: the unknown field 11 is skipped; cut after the first byte of a varint it is an error; the group
with number 11. -/
example (x : outer.Obj) :
    (∃ b', Onward fields oneofs 9 (hold [0x5A, 0x02, 0x08, 0x05, 0x08]) x b' x ∧ (M8).Inv b' ∧
      (M8).view b' = [0x08]) ∧
    (∃ b', outer.cls.deserialize 9 (hold [0x58, 0x80]) x = .ok (.endOfBuffer, b', x)) ∧
    (∃ b', Onward fields oneofs 9 (hold [0x5B, 0x08, 0x05, 0x5C]) x b' x ∧ (M8).Inv b' ∧
      (M8).view b' = [0x08, 0x05, 0x5C]) :=
  ⟨C36_skipped_partial M8 _ _ x _ [0x5A] [0x02, 0x08, 0x05] [0x08] 9 11 .lengthDelimited outer_wf
    (ReadFixed.holding_inv _ _ _ (by decide)) (by decide) (by decide) (by decide)
    ⟨[0x08, 0x05], [0x02], by decide, rfl⟩ (ReadFixed.holding_view _ _ _) (by decide),
   C36_truncated_partial M8 _ _ x _ [0x58] [0x80] 9 11 .varint outer_wf
    (ReadFixed.holding_inv _ _ _ (by decide)) (by decide) (by decide) (by decide)
    ⟨[0x01], by decide, by show IsVarint 10 [0x80, 0x01]; decide⟩ (ReadFixed.holding_view _ _ _) (by decide),
   C36_group_partial M8 _ _ x _ [0x5B] [0x08, 0x05, 0x5C] 9 11 .startGroup outer_wf
    (ReadFixed.holding_inv _ _ _ (by decide)) (by decide) (by decide) (by decide) (Or.inl rfl)
    (ReadFixed.holding_view _ _ _) (by decide)⟩

/-- C26: the input ends inside field `a` of the nested message `e`, and inside a tag. -/
example : CutVarint 5 ((M8).view (hold [0xFF, 0x80])) ∧ Truncated fields oneofs [0x08, 0x05, 0x2A, 0x02, 0x08, 0xFF]
    (outer.abs outer.cls.init) := by
  rw [ReadFixed.holding_view]
  refine ⟨by unfold CutVarint; decide, ?_⟩
  refine ⟨[0x08, 0x05], [0x2A], [0x02, 0x08, 0xFF], 5, .lengthDelimited,
    (slotA.put (outer.abs outer.cls.init).1 5#32, (outer.abs outer.cls.init).2), rfl,
    .cons (bs := [0x08, 0x05]) (bs' := [])
      (v := (slotA.put (outer.abs outer.cls.init).1 5#32, (outer.abs outer.cls.init).2)) ⟨1, .varint, [0x08], [0x05], by decide, rfl,
      Or.inl ⟨Or.inl ⟨rfl, rfl, ⟨5, by decide, rfl⟩, rfl⟩, rfl⟩⟩ (.nil _), by decide, Or.inl ?_⟩
  refine Or.inr (Or.inr (Or.inr (Or.inr (Or.inl ⟨rfl, rfl, Or.inr ⟨[0x02], [0x08, 0xFF], 2, rfl, by decide,
    by decide, [], [0x08], [0xFF], 1, .varint, _, rfl, .nil _, by decide, Or.inl (Or.inl ⟨rfl, rfl, ?_⟩)⟩⟩))))
  exact ⟨[0x01], (-128 : BitVec 32), by decide, ⟨255, by decide, by decide⟩⟩

/-- C38: elements `5` and a varint of eleven bytes. -/
example (x : outer.Obj) (hx : outer.Reach x) (h : List.length (α := BitVec 32) (slotC.get (outer.abs x).1) ≤ 2) :
    ∃ b' y, outer.cls.deserialize 18 (ReadFixed.holding 16 ([0x1A, 0x06, 0x05, 0xFF, 0xFF, 0xFF, 0xFF, 0xFF])) x =
        .ok (.overlongVarint, b', y) ∧
      outer.abs y = (slotC.put (outer.abs x).1 (List.append (α := BitVec 32) (slotC.get (outer.abs x).1) [5#32]),
        (outer.abs x).2) :=
  C38_overlong_partial (ReadFixed.model 16 (by omega)) _ _ slotC x _ [0x1A]
    [0x06, 0x05, 0xFF, 0xFF, 0xFF, 0xFF, 0xFF] [0x05] [0xFF, 0xFF, 0xFF, 0xFF, 0xFF] [5#32] 18 outer_wf hx
    (ReadFixed.holding_inv _ _ _ (by decide)) (by rw [ReadFixed.holding_view]; decide)
    (ReadFixed.holding_view _ _ _) (by decide)
    ⟨[0x06], by decide, rfl⟩ (.cons (bs := [0x05]) ⟨5, by decide, rfl⟩ .nil)
    (Or.inr ⟨⟨[0xFF, 0xFF, 0xFF, 0xFF, 0xFF], [], rfl, rfl, by decide⟩, rfl⟩) (Nat.succ_le_succ h)

end Sample

end EP
