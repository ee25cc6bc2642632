import Verif.Proof.Compare

/-!
# Comparing scalar fields

C55: the comparison operators of scalar fields compare the numbers the fields stand for.
-/

namespace EP

/-- C55.  For two scalar fields that can be compared, each of the six operators tells what the numbers the
fields stand for are like. -/
def C55_Statement (s t : ScalarTy) : Prop :=
  ScalarTy.comparable s t = true → ∀ (op : CmpOp) (a : s.Val) (b : t.Val),
    ScalarTy.compare op s t a b = op.holds (s.real a) (t.real b)

/-- Is a value of the type converted to an unsigned type when compared with one of the other type? -/
def ScalarTy.losesSign (s t : ScalarTy) : Bool :=
  match s.cInt, t.cInt with
  | some c, some d => c.isSigned && !(c.common d).isSigned
  | _, _ => false

/-- The value keeps its number when it is compared with one of the other type: it is not negative and made unsigned, and
if it becomes a floating point number, it is one. -/
def ScalarTy.Carried (s t : ScalarTy) (a : s.Val) : Prop :=
  (s.losesSign t = true → ∀ n, s.real a = some n → 0 ≤ n) ∧ (s.losesDigits t = true → ∃ v : t.Val, t.real v = s.real a)

theorem ScalarTy.floating_of {s : ScalarTy} (h : s.cInt = none) (he : s ≠ .enumeration) : s = .floatfixed ∨ s = .doublefixed := by
  cases s <;> first | exact absurd rfl he | exact .inl rfl | exact .inr rfl | exact nomatch h

/-- An integer that is a number of the other type is not changed. -/
theorem ScalarTy.mixed_exact {s t : ScalarTy} {c : CInt} (hs : s.cInt = some c) (ht : t = .floatfixed ∨ t = .doublefixed)
    (a : s.Val) (ha : s.losesDigits t = true → ∃ v : t.Val, t.real v = s.real a) (op : CmpOp) (b : t.Val) :
    ScalarTy.compare op s t a b = op.holds (s.real a) (t.real b) ∧
      ScalarTy.compare op t s b a = op.holds (t.real b) (s.real a) := by
  obtain ⟨z, n, h1, h2, _, h4, h5⟩ := ScalarTy.mixed hs ht a
  have hzn : z = n := by
    cases hl : s.losesDigits t with
    | false => exact h5 hl
    | true =>
      obtain ⟨v, hv⟩ := ha hl
      obtain ⟨w1, w2⟩ := h4 v n (hv.trans h1)
      have := w1 (Int.le_refl _)
      have := w2 (Int.le_refl _)
      omega
  rw [h1, ← hzn]
  exact h2 op b

/-- C55, as far as it is true: no negative value is converted to an unsigned type, and no integer to a floating point type
that does not have it. -/
theorem C55_compare_partial (s t : ScalarTy) (hc : ScalarTy.comparable s t = true) (op : CmpOp) (a : s.Val) (b : t.Val)
    (ha : s.Carried t a) (hb : t.Carried s b) : ScalarTy.compare op s t a b = op.holds (s.real a) (t.real b) := by
  have comm : ∀ c d : CInt, c.common d = d.common c := by intro c d; cases c <;> cases d <;> rfl
  have unsigned : ∀ (c : CInt) x, c.isSigned = false → 0 ≤ c.num x := by
    intro c x h; cases c <;> first | exact absurd h (by decide) | exact Int.natCast_nonneg _
  have hU : (0 : Int) < 2 ^ 1074 := Int.pow_pos (by decide)
  cases hs : s.cInt with
  | some c =>
    cases ht : t.cInt with
    | none =>
      refine (ScalarTy.mixed_exact hs (ScalarTy.floating_of ht ?_) a ha.2 op b).1
      rintro rfl
      cases s <;> first | exact absurd hc (by decide) | exact nomatch hs
    | some d =>
      obtain ⟨_, r1⟩ := ScalarTy.wide_num hs a
      obtain ⟨_, r2⟩ := ScalarTy.wide_num ht b
      have n1 := ScalarTy.wide_real hs a
      have n2 := ScalarTy.wide_real ht b
      have ha := ha.1
      have hb := hb.1
      unfold ScalarTy.losesSign at ha hb
      simp only [hs, ht, Bool.and_eq_true, Bool.not_eq_true'] at ha hb
      have pos : ∀ n : Int, 0 ≤ n * 2 ^ 1074 → 0 ≤ n := by
        intro n h
        refine Classical.byContradiction fun hn => ?_
        have : n * 2 ^ 1074 < 0 * 2 ^ 1074 := Int.mul_lt_mul_of_pos_right (by omega) hU
        rw [Int.zero_mul] at this
        omega
      unfold ScalarTy.compare
      simp only [hs, ht]
      rw [CInt.compare_num, n1, n2, CmpOp.holds_unit, CInt.convert_num (c := c) _ r1 ⟨d, .inl rfl⟩ ?_,
        CInt.convert_num (c := d) _ r2 ⟨c, .inr rfl⟩ ?_]
      · intro hk
        cases hd : d.isSigned with
        | false => exact unsigned d _ hd
        | true => exact pos _ (hb ⟨hd, comm c d ▸ hk⟩ _ n2)
      · intro hk
        cases hcs : c.isSigned with
        | false => exact unsigned c _ hcs
        | true => exact pos _ (ha ⟨hcs, hk⟩ _ n1)
  | none =>
    cases ht : t.cInt with
    | some d =>
      refine (ScalarTy.mixed_exact ht (ScalarTy.floating_of hs ?_) b hb.2 op a).2
      rintro rfl
      cases t <;> first | exact absurd hc (by decide) | exact nomatch ht
    | none =>
      by_cases he : s = .enumeration
      · subst he
        have he : t = .enumeration := by
          cases t <;> first | rfl | exact nomatch hc
        subst he
        show CInt.uint32.compare op _ _ = _
        rw [CInt.compare_num]
        have e : ∀ v : BitVec 32, CInt.uint32.num (v.setWidth 64) = (v.toNat : Int) := fun v => by
          simp only [CInt.num, BitVec.toNat_setWidth]
          rw [Nat.mod_eq_of_lt (by have := v.isLt; omega)]
        refine Eq.trans ?_ (CmpOp.holds_unit op _ _).symm
        exact congr (congrArg _ (congrArg some (e a))) (congrArg some (e b))
      · have het : t ≠ .enumeration := by
          rintro rfl
          cases s <;> first | exact he rfl | exact absurd hc (by decide)
        exact ScalarTy.floats op (ScalarTy.floating_of hs he) (ScalarTy.floating_of ht het) a b

/-- The condition is necessary: a value that does not keep its number is compared wrongly with some value. -/
theorem C55_values_partial (s t : ScalarTy) (a : s.Val) (ha : ¬ s.Carried t a) : ∃ b : t.Val, t.Carried s b ∧
    (∃ op, ScalarTy.compare op s t a b ≠ op.holds (s.real a) (t.real b)) ∧
    (∃ op, ScalarTy.compare op t s b a ≠ op.holds (t.real b) (s.real a)) := by
  have neg : ∀ (s t : ScalarTy), s.losesSign t = true → t.losesSign s = false ∧ s.losesDigits t = false ∧ t.losesDigits s = false := by
    intro s t
    cases s <;> cases t <;> decide
  have dig : ∀ (s t : ScalarTy), s.losesDigits t = true → s.losesSign t = false ∧ t.losesSign s = false ∧ t.losesDigits s = false ∧
      (t = .floatfixed ∨ t = .doublefixed) := by
    intro s t
    cases s <;> cases t <;> decide
  cases hl : s.losesDigits t with
  | true =>
    obtain ⟨e0, e1, e2, e3⟩ := dig s t hl
    cases hs : s.cInt with
    | none => unfold ScalarTy.losesDigits at hl; rw [hs] at hl; exact nomatch hl
    | some c =>
      obtain ⟨z, n, h1, h2, ⟨v, hv⟩, _, _⟩ := ScalarTy.mixed hs e3 a
      have hzn : z ≠ n := by
        rintro rfl
        exact ha ⟨fun h => absurd h (by rw [e0]; decide), fun _ => ⟨v, hv.trans h1.symm⟩⟩
      refine ⟨v, ⟨fun h' => absurd h' (by rw [e1]; decide), fun h' => absurd h' (by rw [e2]; decide)⟩, ⟨.eq, ?_⟩, .eq, ?_⟩
      · rw [(h2 .eq v).1, hv, h1]
        simp [CmpOp.holds, Ne.symm hzn]
      · rw [(h2 .eq v).2, hv, h1]
        simp [CmpOp.holds, hzn]
  | false =>
    cases hl' : s.losesSign t with
    | false => exact absurd ⟨fun h => absurd h (by rw [hl']; decide), fun h => absurd h (by rw [hl]; decide)⟩ ha
    | true =>
      -- compared with zero
      obtain ⟨e1, _, e3⟩ := neg s t hl'
      cases hs : s.cInt with
      | none => unfold ScalarTy.losesSign at hl'; rw [hs] at hl'; exact nomatch hl'
      | some c =>
        cases ht : t.cInt with
        | none => unfold ScalarTy.losesSign at hl'; rw [hs, ht] at hl'; exact nomatch hl'
        | some d =>
          have hk : (c.common d).isSigned = false := by
            unfold ScalarTy.losesSign at hl'
            rw [hs, ht] at hl'
            simp only [Bool.and_eq_true, Bool.not_eq_true'] at hl'
            exact hl'.2
          have hk' : (d.common c).isSigned = false := by
            rw [← hk]
            cases c <;> cases d <;> rfl
          obtain ⟨b, hb1, hb2⟩ : ∃ b : t.Val, t.wide b = 0 ∧ t.real b = some 0 := by
            cases t <;> first | exact ⟨false, by decide +kernel⟩ | exact ⟨(0 : BitVec 32), by decide +kernel⟩ |
              exact ⟨(0 : BitVec 64), by decide +kernel⟩ | exact nomatch ht
          have hlt : ∀ (k : CInt) x, k.isSigned = false → k.compare .lt x (k.convert 0) = false ∧ k.compare .gt (k.convert 0) x = false := by
            intro k x hk
            cases k <;> first | exact absurd hk (by decide) | simp [CInt.compare, CInt.convert, BitVec.ult]
          have hneg : ∃ n, s.real a = some n ∧ n < 0 := by
            refine Classical.byContradiction fun hno => ha ⟨fun _ n hn => ?_, fun h => absurd h (by rw [hl]; decide)⟩
            refine Classical.byContradiction fun h => hno ⟨n, hn, by omega⟩
          obtain ⟨n, hn, hn0⟩ := hneg
          refine ⟨b, ⟨fun h' => absurd h' (by rw [e1]; decide), fun h' => absurd h' (by rw [e3]; decide)⟩, ⟨.lt, ?_⟩, .gt, ?_⟩
          · unfold ScalarTy.compare
            simp only [hs, ht, hb1, hb2]
            rw [(hlt _ _ hk).1, hn]
            simp [CmpOp.holds, hn0]
          · unfold ScalarTy.compare
            simp only [hs, ht, hb1, hb2]
            rw [(hlt _ _ hk').2, hn]
            simp [CmpOp.holds, hn0]

/-- Whatever an integer is rounded to: what the operators say about it and a floating point number is right as far as less,
greater and different are concerned, and equal, at least and at most are never missed. -/
theorem C55_rounded_partial (s t : ScalarTy) (c : CInt) (hs : s.cInt = some c) (ht : t = .floatfixed ∨ t = .doublefixed)
    (a : s.Val) (b : t.Val) :
    (∀ op ∈ [CmpOp.lt, CmpOp.gt, CmpOp.ne], ScalarTy.compare op s t a b = true → op.holds (s.real a) (t.real b) = true) ∧
    (∀ op ∈ [CmpOp.le, CmpOp.ge, CmpOp.eq], op.holds (s.real a) (t.real b) = true → ScalarTy.compare op s t a b = true) := by
  obtain ⟨z, n, h1, h2, _, h4, _⟩ := ScalarTy.mixed hs ht a
  rw [h1]
  cases hy : t.real b with
  | none =>
    constructor <;> (intro op hop; rw [(h2 op b).1, hy]; simp only [List.mem_cons, List.not_mem_nil, or_false] at hop
                     rcases hop with rfl | rfl | rfl <;> simp [CmpOp.holds])
  | some y =>
    obtain ⟨w1, w2⟩ := h4 b y hy
    constructor <;> (intro op hop; rw [(h2 op b).1, hy]; simp only [List.mem_cons, List.not_mem_nil, or_false] at hop
                     rcases hop with rfl | rfl | rfl <;> simp only [CmpOp.holds, decide_eq_true_eq, bne_iff_ne, beq_iff_eq] <;> omega)

/-- Fields of the same type are compared correctly. -/
theorem C55_same (s : ScalarTy) : C55_Statement s s := by
  intro hc op a b
  have h : s.losesSign s = false ∧ s.losesDigits s = false := by cases s <;> decide
  refine C55_compare_partial s s hc op a b ⟨fun e => absurd e (by rw [h.1]; decide), fun e => absurd e (by rw [h.2]; decide)⟩
    ⟨fun e => absurd e (by rw [h.1]; decide), fun e => absurd e (by rw [h.2]; decide)⟩

/-- C55 is false: `int32` -1 equals `uint32` 4294967295. -/
theorem C55_sign_false : ¬ ∀ s t, C55_Statement s t := by
  intro h
  exact absurd (h .int32 .uint32 rfl .eq (BitVec.ofInt 32 (-1)) (0xFFFFFFFF : BitVec 32)) (by decide +kernel)

/-- ... and -1 is not less than 0. -/
theorem C55_order_false : ¬ ∀ s t, C55_Statement s t := by
  intro h
  exact absurd (h .sint64 .fixed64 rfl .lt (BitVec.ofInt 64 (-1)) (0 : BitVec 64)) (by decide +kernel)

/-- ... and `int32` 16777217 equals `float` 16777216. -/
theorem C55_float_false : ¬ ∀ s t, C55_Statement s t := by
  intro h
  exact absurd (h .int32 .floatfixed rfl .eq (16777217 : BitVec 32) (0x4B800000 : BitVec 32)) (by decide +kernel)

/-- Exactly which pairs of types are compared correctly for all values: those for which no signed integer (`bool`
is none) is converted to an unsigned type, no integer but `bool` to `float` and no integer of 64 bits to `double`. -/
theorem C55_types_partial (s t : ScalarTy) (hc : ScalarTy.comparable s t = true) :
    C55_Statement s t ↔ (s.losesSign t = true → s = .boolean) ∧ (t.losesSign s = true → t = .boolean) ∧
      s.losesDigits t = false ∧ t.losesDigits s = false := by
  constructor
  · intro hs
    have key : ∀ s t : ScalarTy, s ≠ .boolean → s.losesSign t = true ∨ s.losesDigits t = true →
        ∃ (a : s.Val) (b : t.Val) (op op' : CmpOp), ScalarTy.compare op s t a b ≠ op.holds (s.real a) (t.real b) ∧
          ScalarTy.compare op' t s b a ≠ op'.holds (t.real b) (s.real a) := by
      intro s t hb h
      cases s <;> cases t <;>
        first
          | exact absurd h (by decide)
          | exact absurd rfl (by assumption)
          | exact ⟨BitVec.ofInt 32 (-1), (0 : BitVec 32), .lt, .gt, by decide +kernel⟩
          | exact ⟨BitVec.ofInt 32 (-1), (0 : BitVec 64), .lt, .gt, by decide +kernel⟩
          | exact ⟨BitVec.ofInt 64 (-1), (0 : BitVec 64), .lt, .gt, by decide +kernel⟩
          | exact ⟨(16777217 : BitVec 32), (0x4B800000 : BitVec 32), .eq, .eq, by decide +kernel⟩
          | exact ⟨(16777217 : BitVec 64), (0x4B800000 : BitVec 32), .eq, .eq, by decide +kernel⟩
          | exact ⟨(9007199254740993 : BitVec 64), (0x4340000000000000 : BitVec 64), .eq, .eq, by decide +kernel⟩
    have bool : ∀ t : ScalarTy, ScalarTy.boolean.losesDigits t = false := by intro t; cases t <;> decide
    have kst := key s t
    have kts := key t s
    have no1 : ¬ (s ≠ .boolean ∧ (s.losesSign t = true ∨ s.losesDigits t = true)) := by
      rintro ⟨h1, h2⟩
      obtain ⟨a, b, op, _, h, _⟩ := key s t h1 h2
      exact h (hs hc op a b)
    have no2 : ¬ (t ≠ .boolean ∧ (t.losesSign s = true ∨ t.losesDigits s = true)) := by
      rintro ⟨h1, h2⟩
      obtain ⟨a, b, _, op, _, h⟩ := key t s h1 h2
      exact h (hs hc op b a)
    refine ⟨fun h => Decidable.byContradiction fun hb => no1 ⟨hb, .inl h⟩,
      fun h => Decidable.byContradiction fun hb => no2 ⟨hb, .inl h⟩, ?_, ?_⟩
    · by_cases hb : s = .boolean
      · rw [hb]; exact bool t
      · cases h : s.losesDigits t with
        | false => rfl
        | true => exact absurd ⟨hb, .inr h⟩ no1
    · by_cases hb : t = .boolean
      · rw [hb]; exact bool s
      · cases h : t.losesDigits s with
        | false => rfl
        | true => exact absurd ⟨hb, .inr h⟩ no2
  · rintro ⟨h1, h2, h3, h4⟩ _ op a b
    have bool : ∀ (s : ScalarTy), s = .boolean → ∀ (a : s.Val) n, s.real a = some n → 0 ≤ n := by
      intro s e a n hn
      subst e
      cases a <;> (injection hn with hn; subst hn; decide +kernel)
    exact C55_compare_partial s t hc op a b ⟨fun e => bool s (h1 e) a, fun e => absurd e (by rw [h3]; decide)⟩
      ⟨fun e => bool t (h2 e) b, fun e => absurd e (by rw [h4]; decide)⟩

/-- The condition is met by values of mixed signedness that are not negative, ... -/
example : ScalarTy.compare .gt .int32 .uint32 (7 : BitVec 32) (5 : BitVec 32) = true := by
  rw [C55_compare_partial .int32 .uint32 rfl .gt _ _
    ⟨fun _ n h => by injection h with h; subst h; decide +kernel, fun h => (nomatch h)⟩ ⟨fun h => (nomatch h), fun h => (nomatch h)⟩]
  decide +kernel

/-- ... by a negative `int64` with a `uint32`, ... -/
example : ScalarTy.compare .lt .int64 .uint32 (BitVec.ofInt 64 (-1)) (0 : BitVec 32) = true := by
  rw [(C55_types_partial .int64 .uint32 rfl).mpr (by decide) rfl]
  decide +kernel

/-- ... by 5 as `int64` with 5.5 as `float`, ... -/
example : ScalarTy.compare .lt .int64 .floatfixed (5 : BitVec 64) (0x40B00000 : BitVec 32) = true := by
  rw [C55_compare_partial .int64 .floatfixed rfl .lt _ _
    ⟨fun h => (nomatch h), fun _ => ⟨(0x40A00000 : BitVec 32), by decide +kernel⟩⟩ ⟨fun h => (nomatch h), fun h => (nomatch h)⟩]
  decide +kernel

/-- ... and floats are ordered as numbers: -1.5 < 0.25, -0.0 == 0.0, nothing is like NaN; 0.1 as `float` is more than as
`double`, the smallest positive `float` is a `double`, and infinity is infinity. -/
example : ScalarTy.compare .lt .floatfixed .floatfixed (0xBFC00000 : BitVec 32) (0x3E800000 : BitVec 32) = true ∧
    ScalarTy.compare .eq .floatfixed .floatfixed (0x80000000 : BitVec 32) (0 : BitVec 32) = true ∧
    ScalarTy.compare .eq .floatfixed .floatfixed (0x7FC00000 : BitVec 32) (0x7FC00000 : BitVec 32) = false ∧
    ScalarTy.compare .gt .floatfixed .doublefixed (0x3DCCCCCD : BitVec 32) (0x3FB999999999999A : BitVec 64) = true ∧
    ScalarTy.compare .eq .floatfixed .doublefixed (1 : BitVec 32) (0x36A0000000000000 : BitVec 64) = true ∧
    ScalarTy.compare .eq .doublefixed .floatfixed (0x7FF0000000000000 : BitVec 64) (0x7F800000 : BitVec 32) = true := by
  decide +kernel

/-- 2^64 - 1 is rounded to 2^64 (`double`): not less, and really less; but never greater. -/
example : ScalarTy.compare .lt .uint64 .doublefixed (0xFFFFFFFFFFFFFFFF : BitVec 64) (0x43F0000000000000 : BitVec 64) = false ∧
    ScalarTy.compare .gt .uint64 .doublefixed (0xFFFFFFFFFFFFFFFF : BitVec 64) (0x43F0000000000000 : BitVec 64) = false ∧
    CmpOp.lt.holds (ScalarTy.uint64.real (0xFFFFFFFFFFFFFFFF : BitVec 64)) (ScalarTy.doublefixed.real (0x43F0000000000000 : BitVec 64)) = true := by
  decide +kernel

end EP
