import Verif.Props.Decode
import Verif.Proof.Fail
import Verif.Proof.Slot

/-!
# Decoding arbitrary bytes: C20, C42–C44

`T` is any well formed declaration `message { fs os }`, `x` any object of it a program can have and
`b` any read buffer that keeps the promises of the interface.
-/

namespace EP
open Spec

section
variable {β : Type} [ReadBuffer β] (M : ReadModel β) (fs : Fields) (os : Oneofs)
local notation "T" => ElemTy.msg fs os

/-! ## C20 -/

/-- **C20**.  Whatever the bytes are (and after any number of steps): no undefined behaviour, and the
object left behind satisfies the class invariant — array lengths are within the maximum, of a oneof the
member named by the selector is alive and no other — and so its value fits the declaration. -/
theorem C20_no_ub (x : (T).Obj) (b : β) (fuel : Nat) (h : (T).WF) (hx : (T).Reach x) (hb : M.Inv b) :
    (T).cls.deserialize fuel b x ≠ .ub ∧
    ∀ e b' y, (T).cls.deserialize fuel b x = .ok (e, b', y) → (T).Inv y ∧ (T).Fits ((T).abs y) := by
  have hs := ElemTy.msg_safe fs os h M fuel b x hb (ElemTy.reach_inv T h hx)
  refine ⟨fun hu => ?_, fun e b' y hd => ?_⟩
  · rw [hu] at hs; exact hs
  · rw [hd] at hs
    exact ⟨hs.2.1, ElemTy.fits_abs T y hs.2.1⟩

/-- **C20**, every call.  No call of the interface on a reachable object has undefined behaviour, and
every object a program can have satisfies the class invariant. -/
theorem C20_api_no_ub (t : ElemTy) (x : t.Obj) (f : t.Obj → Res t.Obj) (R : t.Obj → Prop) (h : t.WF)
    (hx : t.Reach x) (hR : ∀ z, R z → t.Reach z) (hf : t.Api R f) :
    f x ≠ .ub ∧ ∀ y, f x = .ok y → t.Inv y ∧ t.Fits (t.abs y) := by
  have hs := ElemTy.api_law t h R f (fun z hz => ElemTy.reach_inv t h (hR z hz)) hf x
    (ElemTy.reach_inv t h hx)
  refine ⟨fun hu => ?_, fun y hd => ?_⟩
  · rw [hu] at hs; exact hs
  · rw [hd] at hs
    exact ⟨hs, ElemTy.fits_abs t y hs⟩

/-! ## C42 -/

/-- **C42**.  If the next record belongs to a member of the oneof `a`, and the `switch` of `deserialize`
fails on it, then `deserialize` reports that error, the oneof is unset afterwards (selector `NOT_SET`,
no live member) and everything else is as before the record. -/
theorem C42_failed_member {a : Alts} (s : OneofSlot os a) (x : (T).Obj) (b : β) (tg r : List Byte)
    (fuel num : Nat) (wt : WireType) (h : (T).WF) (hx : (T).Reach x) (hb : M.Inv b)
    (hnum : num ∈ a.numbers) (hv : M.view b = tg ++ r)
    (ht : Varint 32 tg (8 * num + wireNumber wt)) (hf : 0 < fuel) :
    ∃ b₁, M.Inv b₁ ∧ M.view b₁ = r ∧ ∀ e b₂ o, e ≠ .noErrors →
      a.cls.deserializeObj fuel num b₁ wt (s.member x) = .ok (e, b₂, o) →
      ∃ y, (T).cls.deserialize fuel b x = .ok (e, b₂, y) ∧
        s.member y = ⟨0, none⟩ ∧ (T).abs y = (((T).abs x).1, s.put ((T).abs x).2 none) := by
  obtain ⟨b₁, h1, h2, h3⟩ := deserialize_first M fuel b x tg r num wt hb hv ht hf
  refine ⟨b₁, h1, h2, fun e b₂ o he ho => ?_⟩
  have hst := s.step h hnum x fuel wt b₁
  rw [ho, Res.ok_bind] at hst
  refine ⟨_, h3 e b₂ _ he hst, ?_⟩
  have hi := ElemTy.reach_inv T h hx
  simp only [ElemTy.WF] at h
  have hn := List.nodup_append.mp h.2.2.1
  obtain ⟨w1, w2⟩ := s.wf h.2.1 hn.2.1
  have hs := deserializeObj_safe (Alts.base a w1 w2)
    (fun h0 => absurd (h.2.2.2 0 (List.mem_append_right _ (s.mem h0))).1 (by omega))
    (Alts.safe_law a w1 w2) M fuel num wt b₁ (s.member x) hnum (s.inv_state hi.2.2) h1
  rw [ho] at hs
  have ho := hs.2.2.2.2.2 he
  dsimp only at ho
  subst ho
  exact ⟨s.state_setState _ _, Prod.ext rfl (s.abs_setState _ _)⟩

theorem OneofSlot.fail {os : Oneofs} {a : Alts} (s : OneofSlot os a) {num : Nat} {wt : WireType}
    {r : List Byte} {e : Error} {w : os.Val} {K : os.Val → Prop} (hb : a.Fail num wt r (s.get w) e)
    (hK : K (s.put w none)) : os.Fail num wt r w e K := by
  induction s with
  | here => exact Or.inl ⟨hb, hK⟩
  | after _ s ih => exact Or.inr (ih hb hK)

/-- **C42** with the malformed payloads spelled out: well formed records, then a record of the oneof that
is malformed (`Alts.Fail`: wrong wire type, truncated, overlong, too large, or failing somewhere inside
a nested message).  For types without repeated messages and objects only used to receive. -/
theorem C42_malformed {a : Alts} (s : OneofSlot os a) (x : (T).Obj) (v : (T).Val) (b : β)
    (pre tg r : List Byte) (fuel num : Nat) (wt : WireType) (e : Error) (h : (T).WF) (hx : (T).Tidy x)
    (hb : M.Inv b) (hv : M.view b = pre ++ (tg ++ r))
    (hpre : Records fs os pre ((T).abs x) v) (ht : Varint 32 tg (8 * num + wireNumber wt))
    (hbad : a.Fail num wt r (s.get v.2) e) (hf : (M.view b).length < fuel) :
    ∃ b' y, (T).cls.deserialize fuel b x = .ok (e, b', y) ∧ e ≠ .noErrors ∧
      (T).abs y = (v.1, s.put v.2 none) := by
  obtain ⟨hi, hc⟩ := hx.inv_clean h
  have hO : os.Fail num wt r v.2 e (fun y => (v.1, y) = (v.1, s.put v.2 none)) := s.fail hbad rfl
  obtain ⟨⟨e', b', y⟩, h1, h2, h3, _, _, _, h7⟩ := (ElemTy.body_law T h β M fuel b x e
    (· = (v.1, s.put v.2 none)) hi hc hb ⟨pre, _, v, hv, hpre, Or.inr ⟨tg, r, _, rfl, ht,
      Or.inr ⟨num, wt, rfl, Or.inr (Or.inr (Or.inl hO))⟩⟩⟩ hf).exists
  dsimp only at h2 h7
  subst h2
  exact ⟨b', y, h1, h3, h7⟩

/-! ## C43 -/

/-- **C43**, wire types 6 and 7.  If the next tag has an invalid wire type, decoding stops with
`INVALID_WIRETYPE` and the object is exactly as it was. -/
theorem C43_wiretype (x : (T).Obj) (b : β) (tg r : List Byte) (n fuel : Nat) (hb : M.Inv b)
    (hv : M.view b = tg ++ r) (ht : Varint 32 tg n) (hn : 6 ≤ n % 8) (hf : 0 < fuel) :
    ∃ b', (T).cls.deserialize fuel b x = .ok (.invalidWiretype, b', x) ∧ M.Inv b' ∧ M.view b' = r := by
  obtain ⟨⟨q, b'⟩, h1, h2, h3, h4⟩ := (tag_invalid M b tg r n hb hv ht hn).exists
  dsimp only at h2 h3 h4
  subst h2
  exact ⟨b', deserialize_tag_error fs os fuel b b' x .invalidWiretype hf h1, h3, h4⟩

/-- **C43**, field number 0.  If the next tag has number 0, decoding stops with `INVALID_FIELD_ID` and the
object is exactly as it was. -/
theorem C43_number (x : (T).Obj) (b : β) (tg r : List Byte) (wt : WireType) (fuel : Nat) (h : (T).WF)
    (hb : M.Inv b) (hv : M.view b = tg ++ r) (ht : Varint 32 tg (wireNumber wt)) (hf : 0 < fuel) :
    ∃ b', (T).cls.deserialize fuel b x = .ok (.invalidFieldId, b', x) ∧ M.Inv b' ∧ M.view b' = r := by
  obtain ⟨b₁, h1, h2, h3⟩ := deserialize_first M fuel b x tg r 0 wt hb hv (by simpa using ht) hf
  refine ⟨b₁, h3 _ _ _ (by simp) ?_, h1, h2⟩
  simp only [ElemTy.WF] at h
  have hn := List.nodup_append.mp h.2.2.1
  have hpos : ∀ k ∈ os.numbers, 0 < k := fun k hk => (h.2.2.2 k (List.mem_append_right _ hk)).1
  unfold MsgObj.step
  rw [(Fields.dec_law fs 0 fs.nOptional h.1 hn.1 (by omega)).none β fuel 0 wt b₁ _ _
      (fun hm => absurd (h.2.2.2 0 (List.mem_append_left _ hm)).1 (by omega))]
  dsimp only
  rw [(Oneofs.dec_law os h.2.1 hn.2.1 hpos).none β fuel 0 wt b₁ _
      (fun hm => absurd (hpos 0 hm) (by omega))]
  rfl

/-- **C43** after any number of well formed records: the value is what these records made it. -/
theorem C43_after_records (x : (T).Obj) (v : (T).Val) (b : β) (pre tg r : List Byte) (n fuel : Nat)
    (h : (T).WF) (hx : (T).Tidy x) (hb : M.Inv b) (hv : M.view b = pre ++ (tg ++ r))
    (hpre : Records fs os pre ((T).abs x) v) (ht : Varint 32 tg n) (hn : 6 ≤ n % 8 ∨ n / 8 = 0)
    (hf : (M.view b).length < fuel) :
    ∃ b' y, (T).cls.deserialize fuel b x =
        .ok (if 6 ≤ n % 8 then .invalidWiretype else .invalidFieldId, b', y) ∧ (T).abs y = v := by
  obtain ⟨hi, hc⟩ := hx.inv_clean h
  obtain ⟨⟨e', b', y⟩, h1, h2, h3, _, _, _, h7⟩ := (ElemTy.body_law T h β M fuel b x
    (if 6 ≤ n % 8 then .invalidWiretype else .invalidFieldId) (· = v) hi hc hb
    ⟨pre, _, v, hv, hpre, Or.inr ⟨tg, r, n, rfl, ht, by
      by_cases h6 : 6 ≤ n % 8
      · rw [if_pos h6]; exact Or.inl ⟨h6, rfl, rfl⟩
      · rw [if_neg h6]
        obtain ⟨wt, hwt⟩ : ∃ wt, wireNumber wt = n % 8 := by
          have : n % 8 < 6 := by omega
          generalize n % 8 = k at this
          match k, this with
          | 0, _ => exact ⟨.varint, rfl⟩
          | 1, _ => exact ⟨.fixed64, rfl⟩
          | 2, _ => exact ⟨.lengthDelimited, rfl⟩
          | 3, _ => exact ⟨.startGroup, rfl⟩
          | 4, _ => exact ⟨.endGroup, rfl⟩
          | 5, _ => exact ⟨.fixed32, rfl⟩
        exact Or.inr ⟨0, wt, by omega, Or.inl ⟨rfl, rfl, rfl⟩⟩⟩⟩ hf).exists
  dsimp only at h2 h7
  subst h2
  exact ⟨b', y, h1, h7⟩

/-! ## C44 -/

/-- **C44**.  After `deserialize` of any bytes, whatever it returns, the object is one a program can have
(so every theorem about reachable objects applies), it satisfies the class invariant, and `clear()` makes
it equal to a new object, so that decoding afterwards gives exactly what it gives on a new object. -/
theorem C44_reuse (src : Source) (x y : (T).Obj) (fuel : Nat) (e : Error) (b' : src.β) (h : (T).WF)
    (hx : (T).Reach x) (hd : (T).cls.deserialize fuel src.buf x = .ok (e, b', y)) :
    (T).Reach y ∧ (T).Inv y ∧ ∃ z, (T).cls.clear y = .ok z ∧ (T).Reach z ∧
      ∀ (β : Type) [ReadBuffer β] (fuel' : Nat) (b : β),
        (T).cls.deserialize fuel' b z = (T).cls.deserialize fuel' b (T).cls.init := by
  have hy := ElemTy.reach_decoded T src fuel hx hd
  have hi := ElemTy.reach_inv T h hy
  exact ⟨hy, hi, _, (ElemTy.base T h).clear y hi, .init, fun _ _ _ _ => rfl⟩

end

/-! ## Examples -/

/-- C20, C44: malformed input for an object that holds something. -/
example : ∃ b y, (do
    let (_, _, x) ← Sample.outer.cls.deserialize 64 (ReadFixed.holding 64 Sample.bytes) Sample.outer.cls.init
    Sample.outer.cls.deserialize 64 (ReadFixed.holding 8 [0x32, 0x02, 0x12, 0xFF, 0xFF]) x) =
      .ok (.arrayFull, b, y) := ⟨_, _, rfl⟩

/-- The oneof of the sample declaration. -/
def Sample.oneof : OneofSlot Sample.oneofs
    (.cons 8 (.scalar .boolean) (.cons 9 (.str 4) (.cons 100 Sample.inner .nil))) := .here _ _

/-- C42: a member string that is too long, after a valid record for another member. -/
example : Sample.oneof.get Sample.value.2 ≠ none ∧
    (Alts.cons 8 (.scalar .boolean) (.cons 9 (.str 4) (.cons 100 Sample.inner .nil))).Fail 9
      .lengthDelimited [0x05, 0x61, 0x61, 0x61, 0x61, 0x61] (Sample.oneof.get Sample.value.2) .arrayFull := by
  refine ⟨by simp [Sample.oneof, Sample.value, OneofSlot.get], Or.inr (Or.inl ⟨rfl, Or.inr ⟨rfl, ?_⟩⟩)⟩
  exact Or.inr ⟨[0x05], _, 5, rfl, by decide, Or.inl ⟨by decide, rfl, trivial⟩⟩

/-- C43: tags with wire type 6 and with number 0. -/
example : Varint 32 [0x0E] 14 ∧ 6 ≤ 14 % 8 ∧ Varint 32 [0x82, 0x00] (wireNumber .lengthDelimited) := by
  decide

end EP
