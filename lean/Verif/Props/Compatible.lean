import Verif.Props.Wire
import Verif.Proof.Cursor
import Verif.Proof.MaxSize
import Verif.Proof.Safety
import Verif.Spec.Compatible

/-!
# Changing the type of a field

C58: a field may be changed into one of a compatible type.
-/

namespace EP
open Spec

/-- A field of type `t` reads what a field of type `s` with the value `v` wrote as `w`. -/
def ReadsAs (s t : ScalarTy) (v : s.Val) (w : t.Val) : Prop :=
  ∀ (β : Type) [ReadBuffer β] (M : ReadModel β) (fuel : Nat) (b : β) (rest : List Byte) (old : t.Val),
    M.Inv b → M.view b = s.enc v ++ rest →
    ∃ b', (scalarClass t).deserialize fuel b old = .ok (.noErrors, b', w) ∧ M.Inv b' ∧ M.view b' = rest

/-- **C58**, full statement: what a field of a type wrote (by C07 these are the bytes `s.enc v`) is read by a field
of a compatible type (other than `float` and `double`) as the same number, cast to that type. -/
def C58_Statement (s t : ScalarTy) : Prop :=
  s.compatible t = true → s ≠ .floatfixed → s ≠ .doublefixed →
    ∀ (v : s.Val) (n : Int), s.number v = some n → ReadsAs s t v (t.cast n)

/-- The numbers for which it is true. -/
def ScalarTy.survives : (s t : ScalarTy) → Int → Prop
  | .int32, .int64, n => 0 ≤ n
  | .int32, .uint64, n => 0 ≤ n
  | .int64, .uint32, n => 0 ≤ n ∧ n < 2 ^ 35
  | .int64, .enumeration, n => 0 ≤ n ∧ n < 2 ^ 35
  | .uint64, .uint32, n => n < 2 ^ 35
  | .uint64, .enumeration, n => n < 2 ^ 35
  | .sint64, .sint32, n => 0 ≤ n ↔ 0 ≤ n.bmod (2 ^ 32)
  | _, .boolean, n => 0 ≤ n ∧ n < 128
  | _, _, _ => True

theorem readsAs_of_payload {s t : ScalarTy} {v : s.Val} {w : t.Val} (h : t.Payload (s.enc v) w) : ReadsAs s t v w := by
  intro β _ M fuel b rest old hb hv
  obtain ⟨⟨r, b'⟩, h1, h2, h3⟩ := (scalar_decode M t b _ rest w hb hv h).exists
  dsimp only at h2 h3
  subst h2
  refine ⟨b', ?_, h3⟩
  show t.deserialize b old = _
  unfold ScalarTy.deserialize
  rw [h1]
  rfl

theorem ofInt_toInt {k : Nat} (w : Nat) (x : BitVec k) (h : w ≤ k ∨ 0 ≤ x.toInt) :
    BitVec.ofInt w x.toInt = BitVec.ofNat w x.toNat := by
  rcases h with h | h
  · obtain ⟨j, rfl⟩ := Nat.exists_eq_add_of_le h
    rw [BitVec.toInt_eq_toNat_cond]
    split
    · exact BitVec.ofInt_natCast w _
    · apply BitVec.eq_of_toInt_eq
      rw [BitVec.toInt_ofInt, BitVec.toInt_ofNat', show ((2 ^ (w + j) : Nat) : Int) = ((2 ^ w : Nat) : Int) * ((2 ^ j : Nat) : Int) by
        rw [Nat.pow_add]; exact Int.natCast_mul _ _]
      exact Int.sub_mul_bmod_self_left ..
  · have e : x.toInt = (x.toNat : Int) := by
      rw [BitVec.toInt_eq_toNat_cond] at h ⊢
      split
      · rfl
      · rename_i hx
        rw [if_neg hx] at h
        have := x.isLt
        omega
    rw [e]
    exact BitVec.ofInt_natCast w _

theorem fixed_back (k : Nat) (v : BitVec (8 * k)) :
    BitVec.ofNat (8 * k) v.toNat = BitVec.ofNat (8 * k) (ofLittleEndian (littleEndian k v.toNat)) := by
  rw [ofLittleEndian_littleEndian, show (256 : Nat) = 2 ^ 8 from rfl, ← Nat.pow_mul, Nat.mod_eq_of_lt v.isLt]

theorem varint32_of_lt (n : Nat) (h : n < 2 ^ 35) : Varint 32 (varint n) (n % 2 ^ 32) :=
  ⟨isVarint_varint 5 n (by decide) h, by rw [groups_varint]⟩

/-- A field of one of the types with plain varints reads a varint as the number. -/
theorem payload_varint (t : ScalarTy) (ht : t.kind = 0) (n : Nat) (hn : n < 2 ^ 64)
    (h : t = .uint32 ∨ t = .enumeration → n < 2 ^ 35) (hb : t = .boolean → n < 128) :
    t.Payload (varint n) (t.cast n) := by
  cases t with
  | int32 => exact ⟨n, varint_spec 64 n (by decide) hn, BitVec.ofInt_natCast 32 n⟩
  | int64 => exact ⟨n, varint_spec 64 n (by decide) hn, BitVec.ofInt_natCast 64 n⟩
  | uint64 => exact ⟨n, varint_spec 64 n (by decide) hn, BitVec.ofInt_natCast 64 n⟩
  | uint32 =>
    refine ⟨n % 2 ^ 32, varint32_of_lt n (h (Or.inl rfl)), (BitVec.ofInt_natCast 32 n).trans ?_⟩
    apply BitVec.eq_of_toNat_eq; simp
  | enumeration =>
    refine ⟨n % 2 ^ 32, varint32_of_lt n (h (Or.inr rfl)), (BitVec.ofInt_natCast 32 n).trans ?_⟩
    apply BitVec.eq_of_toNat_eq; simp
  | boolean =>
    refine ⟨n, hb rfl, rfl, ?_⟩
    show decide ((n : Int) ≠ 0) = decide (n ≠ 0)
    simp
  | _ => exact absurd ht (by decide)

theorem cast_same (s : ScalarTy) (hf : s ≠ .floatfixed) (hd : s ≠ .doublefixed) (v : s.Val) (n : Int)
    (hn : s.number v = some n) : s.cast n = v := by
  have si : ∀ {k : Nat} (x : BitVec k), BitVec.ofInt k x.toInt = x := fun x => BitVec.ofInt_toInt
  have un : ∀ {k : Nat} (x : BitVec k), BitVec.ofInt k (x.toNat : Int) = x := fun x => by
    rw [BitVec.ofInt_natCast, BitVec.ofNat_toNat, BitVec.setWidth_eq]
  cases s <;> first
    | exact absurd rfl hf
    | exact absurd rfl hd
    | (cases hn; exact si _)
    | (cases hn; exact un _)
    | (cases hn; cases v <;> rfl)

theorem zigzag_bmod (n : Int) : zigzag (n.bmod (2 ^ 32)) = zigzag n % 2 ^ 32 ↔ (0 ≤ n ↔ 0 ≤ n.bmod (2 ^ 32)) := by
  have h1 : -2147483648 ≤ n.bmod (2 ^ 32) := Int.le_bmod (by decide)
  have h2 : n.bmod (2 ^ 32) < 2147483648 := Int.bmod_lt (by decide)
  obtain ⟨k, h3⟩ : ∃ k, n = n.bmod (2 ^ 32) + 4294967296 * k := by
    have := Int.dvd_self_sub_bmod (x := n) (m := 2 ^ 32)
    obtain ⟨k, hk⟩ := this
    refine ⟨k, ?_⟩
    have e : ((2 ^ 32 : Nat) : Int) = 4294967296 := rfl
    rw [e] at hk
    omega
  generalize n.bmod (2 ^ 32) = m at *
  unfold zigzag
  split <;> split <;> constructor <;> intro h <;> omega

/-- What the encoding of a number in a plain varint is. -/
theorem enc_raw (s : ScalarTy) (hk : s.kind = 0) (v : s.Val) (n : Int) (hn : s.number v = some n) :
    ∃ r : Nat, s.enc v = varint r ∧ r < 2 ^ 64 ∧ (0 ≤ n → (r : Int) = n) ∧
      (s = .int32 → BitVec.ofInt 32 n = BitVec.ofNat 32 r) ∧ (s ≠ .int64 → s ≠ .uint64 → r < 2 ^ 32) ∧
      (s = .int64 → ∀ w, w ≤ 64 → BitVec.ofInt w n = BitVec.ofNat w r) ∧ (s ≠ .int32 → s ≠ .int64 → 0 ≤ n) := by
  have nn : ∀ {k : Nat} (x : BitVec k), 0 ≤ x.toInt → (x.toNat : Int) = x.toInt := by
    intro k x h
    rw [BitVec.toInt_eq_toNat_cond] at h ⊢
    split
    · rfl
    · rename_i hx
      rw [if_neg hx] at h
      have := x.isLt
      omega
  cases s with
  | int32 =>
    cases hn
    have := BitVec.isLt (w := 32) v
    exact ⟨_, rfl, by omega, nn (k := 32) v, fun _ => ofInt_toInt 32 (k := 32) v (Or.inl (by omega)),
      fun _ _ => this, nofun, fun h => absurd rfl h⟩
  | int64 =>
    cases hn
    exact ⟨_, rfl, BitVec.isLt (w := 64) v, nn (k := 64) v, nofun, fun h => absurd rfl h,
      fun _ w hw => ofInt_toInt w (k := 64) v (Or.inl hw), fun _ h => absurd rfl h⟩
  | uint32 =>
    cases hn
    have := BitVec.isLt (w := 32) v
    exact ⟨_, rfl, by omega, fun _ => rfl, nofun, fun _ _ => this, nofun, fun _ _ => Int.natCast_nonneg _⟩
  | enumeration =>
    cases hn
    have := BitVec.isLt (w := 32) v
    exact ⟨_, rfl, by omega, fun _ => rfl, nofun, fun _ _ => this, nofun, fun _ _ => Int.natCast_nonneg _⟩
  | uint64 =>
    cases hn
    exact ⟨_, rfl, BitVec.isLt (w := 64) v, fun _ => rfl, nofun, fun _ h => absurd rfl h, nofun, fun _ _ => Int.natCast_nonneg _⟩
  | boolean =>
    cases hn
    refine ⟨_, rfl, ?_, ?_, nofun, ?_, nofun, ?_⟩ <;> cases v <;> decide
  | _ => exact absurd hk (by decide)

/-- **C58**, where it is true. -/
theorem C58_compatible_partial (s t : ScalarTy) (hc : s.compatible t = true) (hf : s ≠ .floatfixed)
    (hd : s ≠ .doublefixed) (v : s.Val) (n : Int) (hn : s.number v = some n) (hs : s.survives t n) :
    ReadsAs s t v (t.cast n) := by
  apply readsAs_of_payload
  by_cases hst : s = t
  · subst hst
    rw [cast_same s hf hd v n hn]
    exact s.payload_enc v
  have hk : s.kind = t.kind := beq_iff_eq.mp hc
  by_cases h0 : s.kind = 0
  · obtain ⟨r, h1, h2, h3, h4, h7, h5, h6⟩ := enc_raw s h0 v n hn
    rw [h1]
    have ht : t.kind = 0 := hk ▸ h0
    have key : t.cast n = t.cast r ∧ (t = .uint32 ∨ t = .enumeration → r < 2 ^ 35) ∧ (t = .boolean → r < 128) := by
      by_cases hnn : 0 ≤ n
      · have e := h3 hnn
        refine ⟨by rw [e], ?_, ?_⟩
        · intro ht
          by_cases hs1 : s = .int64
          · subst hs1
            rcases ht with rfl | rfl <;> have hs : 0 ≤ n ∧ n < 2 ^ 35 := hs <;> omega
          · by_cases hs2 : s = .uint64
            · subst hs2
              rcases ht with rfl | rfl <;> have hs : n < 2 ^ 35 := hs <;> omega
            · have := h7 hs1 hs2
              omega
        · rintro rfl
          have hs : 0 ≤ n ∧ n < 128 := by cases s <;> first | exact hs | exact absurd h0 (by decide)
          omega
      · have hi : s = .int32 ∨ s = .int64 := by
          by_cases hs1 : s = .int32
          · exact Or.inl hs1
          · by_cases hs2 : s = .int64
            · exact Or.inr hs2
            · exact absurd (h6 hs1 hs2) hnn
        rcases hi with rfl | rfl
        · have e := h4 rfl
          have := h7 (by decide) (by decide)
          cases t <;> first
            | exact absurd ht (by decide)
            | exact absurd hs hnn
            | exact absurd hs.1 hnn
            | exact ⟨e.trans (BitVec.ofInt_natCast 32 r).symm, fun _ => by omega, nofun⟩
        · have e := h5 rfl
          cases t <;> first
            | exact absurd ht (by decide)
            | exact absurd hs.1 hnn
            | exact ⟨(e 32 (by decide)).trans (BitVec.ofInt_natCast 32 r).symm, nofun, nofun⟩
            | exact ⟨(e 64 (by decide)).trans (BitVec.ofInt_natCast 64 r).symm, nofun, nofun⟩
    rw [key.1]
    exact payload_varint t ht r h2 key.2.1 key.2.2
  · cases s <;> cases t <;> first
      | exact absurd hk (by decide)
      | exact absurd rfl hst
      | exact absurd rfl h0
      | exact absurd rfl hf
      | exact absurd rfl hd
      | skip
    all_goals cases hn
    · -- sint32 as sint64
      have h : (BitVec.ofInt 64 (BitVec.toInt (n := 32) v)).toInt = BitVec.toInt (n := 32) v := by
        have := BitVec.toInt_lt (w := 32) (x := v)
        have := BitVec.le_toInt (w := 32) v
        rw [BitVec.toInt_ofInt, Int.bmod_eq_of_le] <;> omega
      show Varint 64 (varint (zigzag _)) (zigzag (BitVec.ofInt 64 _).toInt)
      rw [h]
      have := zigzag_lt (w := 32) (by decide) v
      exact varint_spec 64 _ (by decide) (by omega)
    · -- sint64 as sint32
      have hz := zigzag_lt (w := 64) (by decide) v
      refine ⟨zigzag (BitVec.toInt (n := 64) v), varint_spec 64 _ (by decide) hz, ?_⟩
      show zigzag (BitVec.ofInt 32 _).toInt = _
      rw [BitVec.toInt_ofInt]
      exact (zigzag_bmod _).mpr hs
    · exact ⟨littleEndian_length _ _, (BitVec.ofInt_natCast _ _).trans (fixed_back 8 v)⟩
    · exact ⟨littleEndian_length _ _, (ofInt_toInt 64 (k := 64) v (Or.inl (by omega))).trans (fixed_back 8 v)⟩
    · exact ⟨littleEndian_length _ _, (BitVec.ofInt_natCast _ _).trans (fixed_back 4 v)⟩
    · exact ⟨littleEndian_length _ _, (ofInt_toInt 32 (k := 32) v (Or.inl (by omega))).trans (fixed_back 4 v)⟩

/-- What `ReadsAs` says about a buffer with just the bytes of the value. -/
theorem ReadsAs.alone {s t : ScalarTy} {v : s.Val} {w : t.Val} (h : ReadsAs s t v w) (bs : List Byte) (hl : bs.length ≤ 16)
    (e : s.enc v = bs) (old : t.Val) :
    ∃ b', (scalarClass t).deserialize 16 (ReadFixed.holding 16 bs) old = .ok (.noErrors, b', w) ∧
      (ReadFixed.model 16 (by omega)).view b' = [] := by
  obtain ⟨b', h1, _, h2⟩ := h ReadFixed (ReadFixed.model 16 (by omega)) 16 (ReadFixed.holding 16 bs) [] old
    (ReadFixed.holding_inv _ _ _ hl) (by rw [List.append_nil, e]; exact ReadFixed.holding_view ..)
  exact ⟨b', h1, h2⟩

/-- What a field reads is determined. -/
theorem ReadsAs.unique {s t : ScalarTy} {v : s.Val} {w w' : t.Val} (h : ReadsAs s t v w) (h' : ReadsAs s t v w')
    (hl : (s.enc v).length ≤ 16) : w = w' := by
  obtain ⟨b, h1, _⟩ := h.alone _ hl rfl w
  obtain ⟨b', h2, _⟩ := h'.alone _ hl rfl w
  rw [h1] at h2
  injection h2 with h2
  injection h2 with _ h2
  injection h2

theorem decode_of_deserialize {t : ScalarTy} {b b' : ReadFixed} {old w : t.Val}
    (h : (scalarClass t).deserialize 16 b old = .ok (.noErrors, b', w)) : t.decode b = .ok (.ok w, b') := by
  have h : t.deserialize b old = _ := h
  unfold ScalarTy.deserialize at h
  cases hd : t.decode b with
  | ok p =>
    obtain ⟨r, b1⟩ := p
    rw [hd, Res.ok_bind] at h
    cases r with
    | ok x => cases h; rfl
    | error e =>
      injection h with h
      injection h with h
      exact absurd h (scalar_decode_error_ne t b _ hd e rfl)
  | ub => rw [hd] at h; exact nomatch h
  | diverge => rw [hd] at h; exact nomatch h

/-- A varint that `DeserializeVarint` for 32 bits reads whole has at most five bytes. -/
theorem varint32_short (M : ReadModel ReadFixed) (bs : List Byte) (b b' : ReadFixed) (x : BitVec 32)
    (hb : M.Inv b) (hv : M.view b = bs) (h : deserializeVarint 32 b = .ok (.ok x, b')) (he : M.view b' = []) :
    bs.length ≤ 5 := by
  rcases varint_cases (maxVarint 32) bs with ⟨b1, rest, e, h1⟩ | ⟨h1, hl⟩ | ⟨b1, rest, e, h1, hl⟩
  · have h2 := deserializeVarint_ok M 32 b1 rest h1 b hb (hv.trans e)
    rw [h] at h2
    obtain ⟨_, _, h2⟩ := h2
    have : rest = [] := h2.symm.trans he
    subst this
    rw [e, List.append_nil]
    exact h1.length_le
  · have h2 := deserializeVarint_short M 32 bs h1 hl b hb hv
    rw [h] at h2
    exact nomatch h2.1
  · have h2 := deserializeVarint_long M 32 (by decide) b1 rest h1 hl b hb (hv.trans e)
    rw [h] at h2
    exact nomatch h2.1

/-- What a reader of `uint32`, an enum or a `bool` needs of a varint to read it whole. -/
theorem whole_varint {s t : ScalarTy} {v : s.Val} {w : t.Val} {r : Nat} (h : ReadsAs s t v w) (e : s.enc v = varint r)
    (hr : r < 2 ^ 64) :
    (t = .uint32 ∨ t = .enumeration → r < 2 ^ 35) ∧ (t = .boolean → r < 128) := by
  have hl : (varint r).length ≤ 10 := varint_length_le 10 r (by omega) (by decide)
  have len : ∀ k, (varint r).length ≤ k → r < 128 ^ k := by
    intro k hk
    apply Classical.byContradiction
    intro hn
    have := varint_length_mono (128 ^ k) r (by omega)
    have h2 := varint_length_eq k (128 ^ k) (Nat.le_refl _) (by rw [Nat.pow_succ]; have := Nat.pow_pos (n := k) (show 0 < 128 by decide); omega)
    omega
  obtain ⟨b', h1, h2⟩ := h.alone _ (by omega : (varint r).length ≤ 16) e w
  have h1 := decode_of_deserialize h1
  have hb := ReadFixed.holding_inv 16 (by omega) (varint r) (by omega)
  have hv := ReadFixed.holding_view 16 (by omega) (varint r)
  refine ⟨?_, ?_⟩
  · rintro (rfl | rfl)
    · exact len 5 (varint32_short _ _ _ _ _ hb hv h1 h2)
    · exact len 5 (varint32_short _ _ _ _ _ hb hv h1 h2)
  · rintro rfl
    cases hc : varint r with
    | nil => exact absurd hc (varint_ne_nil r)
    | cons x rest =>
      rw [hc] at hb hv h1
      have h3 := deserializeBool_cons (ReadFixed.model 16 (by omega)) x rest _ hb hv
      rw [show deserializeBool _ = _ from h1] at h3
      have : rest = [] := h3.2.2.symm.trans h2
      exact len 1 (by rw [hc, this]; exact Nat.le_refl _)

/-- **C58**, exactly: a number written by a field of one type is read as it should be by a field of another, compatible
type if and only if it is one of those that `survives` lists. -/
theorem C58_compatible_iff (s t : ScalarTy) (hc : s.compatible t = true) (hf : s ≠ .floatfixed)
    (hd : s ≠ .doublefixed) (v : s.Val) (n : Int) (hn : s.number v = some n) :
    ReadsAs s t v (t.cast n) ↔ s.survives t n := by
  refine ⟨fun h => ?_, C58_compatible_partial s t hc hf hd v n hn⟩
  have hk : s.kind = t.kind := beq_iff_eq.mp hc
  by_cases h0 : s.kind = 0
  · obtain ⟨r, h1, h2, h3, h4, h7, h5, h6⟩ := enc_raw s h0 v n hn
    have ht : t.kind = 0 := hk ▸ h0
    have hw := whole_varint h h1 h2
    have hl : (s.enc v).length ≤ 16 := by
      rw [h1]; have := varint_length_le 10 r (by omega) (by decide); omega
    -- the value of a negative number in a varint
    have n32 : s = .int32 → n < 0 → (r : Int) = n + 2 ^ 32 := by
      rintro rfl hneg
      have e := congrArg BitVec.toNat (h4 rfl)
      have := h7 (by decide) (by decide)
      have hlo := BitVec.le_toInt (w := 32) v
      have e2 : n = BitVec.toInt (n := 32) v := (Option.some.inj hn).symm
      simp only [BitVec.toNat_ofNat, BitVec.toNat_ofInt] at e
      omega
    have n64 : s = .int64 → n < 0 → (r : Int) = n + 2 ^ 64 := by
      rintro rfl hneg
      have e := congrArg BitVec.toNat (h5 rfl 64 (by decide))
      have hlo := BitVec.le_toInt (w := 64) v
      have e2 : n = BitVec.toInt (n := 64) v := (Option.some.inj hn).symm
      simp only [BitVec.toNat_ofNat, BitVec.toNat_ofInt] at e
      omega
    have lo : s = .int64 → -2 ^ 63 ≤ n := by
      rintro rfl
      have hlo := BitVec.le_toInt (w := 64) v
      have e2 : n = BitVec.toInt (n := 64) v := (Option.some.inj hn).symm
      omega
    have lo32 : s = .int32 → -2 ^ 31 ≤ n := by
      rintro rfl
      have hlo := BitVec.le_toInt (w := 32) v
      have e2 : n = BitVec.toInt (n := 32) v := (Option.some.inj hn).symm
      omega
    have wide : s = .int32 → t = .int64 ∨ t = .uint64 → 0 ≤ n := by
      rintro rfl ht'
      apply Classical.byContradiction
      intro hneg
      have hr := n32 rfl (by omega)
      have hlo := lo32 rfl
      have hp := payload_varint t ht r h2 (by rcases ht' with rfl | rfl <;> nofun) (by rcases ht' with rfl | rfl <;> nofun)
      have hu := h.unique (readsAs_of_payload (by rw [h1]; exact hp)) hl
      rcases ht' with rfl | rfl <;>
      · have hu := congrArg BitVec.toNat (show BitVec.ofInt 64 n = BitVec.ofInt 64 (r : Int) from hu)
        simp only [BitVec.toNat_ofInt] at hu
        omega
    have narrow : t = .uint32 ∨ t = .enumeration → (s = .int64 → 0 ≤ n ∧ n < 2 ^ 35) ∧ (s = .uint64 → n < 2 ^ 35) := by
      intro ht'
      have hr := hw.1 ht'
      refine ⟨fun hs => ?_, fun hs => ?_⟩
      · by_cases hneg : n < 0
        · have := n64 hs hneg; have := lo hs; omega
        · have := h3 (by omega); omega
      · have := h3 (h6 (by rw [hs]; decide) (by rw [hs]; decide)); omega
    have bool : t = .boolean → 0 ≤ n ∧ n < 128 := by
      intro ht'
      have hr := hw.2 ht'
      by_cases hneg : n < 0
      · by_cases hs : s = .int32
        · have := n32 hs hneg; have := lo32 hs; omega
        · by_cases hs2 : s = .int64
          · have := n64 hs2 hneg; have := lo hs2; omega
          · have := h6 hs hs2; omega
      · have := h3 (by omega); omega
    cases s <;> first
      | exact absurd h0 (by decide)
      | skip
    all_goals cases t <;> first
      | exact absurd ht (by decide)
      | exact trivial
      | exact bool rfl
      | exact wide rfl (Or.inl rfl)
      | exact wide rfl (Or.inr rfl)
      | exact (narrow (Or.inl rfl)).1 rfl
      | exact (narrow (Or.inr rfl)).1 rfl
      | exact (narrow (Or.inl rfl)).2 rfl
      | exact (narrow (Or.inr rfl)).2 rfl
  · cases s <;> cases t <;> first
      | exact absurd hk (by decide)
      | exact absurd rfl h0
      | exact absurd rfl hf
      | exact absurd rfl hd
      | exact trivial
      | skip
    cases hn
    -- sint64 as sint32
    show 0 ≤ BitVec.toInt (n := 64) v ↔ _
    have hz := zigzag_lt (w := 64) (by decide) v
    have hm : zigzag (BitVec.toInt (n := 64) v) % 2 ^ 32 < 2 ^ 32 := Nat.mod_lt _ (by decide)
    have hu : (BitVec.ofInt 32 (unzigzag (zigzag (BitVec.toInt (n := 64) v) % 2 ^ 32))).toInt =
        unzigzag (zigzag (BitVec.toInt (n := 64) v) % 2 ^ 32) := unzigzag_range 32 _ (by decide) hm
    have hp : ScalarTy.sint32.Payload (ScalarTy.sint64.enc v)
        (BitVec.ofInt 32 (unzigzag (zigzag (BitVec.toInt (n := 64) v) % 2 ^ 32))) := by
      refine ⟨zigzag (BitVec.toInt (n := 64) v), varint_spec 64 _ (by decide) hz, ?_⟩
      exact (congrArg zigzag hu).trans (zigzag_unzigzag _)
    have hl : (ScalarTy.sint64.enc v).length ≤ 16 := by
      have := varint_length_le 10 (zigzag (BitVec.toInt (n := 64) v)) (by omega) (by decide)
      show (varint (zigzag (BitVec.toInt (n := 64) v))).length ≤ 16
      omega
    have e := congrArg (BitVec.toInt (n := 32)) (h.unique (readsAs_of_payload hp) hl)
    rw [hu] at e
    have e : (BitVec.ofInt 32 (BitVec.toInt (n := 64) v)).toInt = _ := e
    rw [BitVec.toInt_ofInt] at e
    exact (zigzag_bmod _).mp ((congrArg zigzag e).trans (zigzag_unzigzag _))

/-- An `int32` field that is changed into an `int64` one: the value `-1` is read as `4294967295`, without an error. -/
theorem C58_int32_int64_false : ¬ C58_Statement .int32 .int64 := by
  intro h
  obtain ⟨b', h1, _⟩ := (h rfl (by decide) (by decide) (BitVec.ofInt 32 (-1)) (-1) rfl).alone [255, 255, 255, 255, 15] (by decide)
    (by decide +kernel) 0#64
  have e : (scalarClass .int64).deserialize 16 (ReadFixed.holding 16 [255, 255, 255, 255, 15]) 0#64 =
    .ok (.noErrors, _, (4294967295#64 : BitVec 64)) := rfl
  rw [e] at h1
  injection h1 with h1
  injection h1 with _ h1
  injection h1 with _ h1
  exact absurd (h1 : 4294967295#64 = BitVec.ofInt 64 (-1)) (by decide)

/-- An `int64` field that is changed into an `uint32` one: the value `-1` is refused with `OVERLONG_VARINT`. -/
theorem C58_int64_uint32_false : ¬ C58_Statement .int64 .uint32 := by
  intro h
  obtain ⟨b', h1, _⟩ := (h rfl (by decide) (by decide) (BitVec.ofInt 64 (-1)) (-1) rfl).alone [255, 255, 255, 255, 255, 255, 255, 255, 255, 1] (by decide)
    (by decide +kernel) 0#32
  have e : (scalarClass .uint32).deserialize 16 (ReadFixed.holding 16 [255, 255, 255, 255, 255, 255, 255, 255, 255, 1]) 0#32 =
    .ok (.overlongVarint, _, (0#32 : BitVec 32)) := rfl
  rw [e] at h1
  injection h1 with h1
  injection h1 with h1 _
  exact absurd h1 (by decide)

/-- An `uint32` field that is changed into a `bool` one: the second byte of the value 300 stays behind in the buffer
and is taken for the next field. -/
theorem C58_uint32_boolean_false : ¬ C58_Statement .uint32 .boolean := by
  intro h
  obtain ⟨b', h1, h2⟩ := (h rfl (by decide) (by decide) (300#32) 300 rfl).alone [0xAC, 0x02] (by decide)
    (by decide +kernel) false
  have e : (scalarClass .boolean).deserialize 16 (ReadFixed.holding 16 [0xAC, 0x02]) false =
    .ok (.noErrors, ⟨16, [0xAC, 0x02] ++ List.replicate 14 0, 2, 1⟩, true) := rfl
  rw [e] at h1
  injection h1 with h1
  injection h1 with _ h1
  injection h1 with h1 _
  rw [← h1] at h2
  exact absurd h2 (by decide)

/-- A `sint64` field that is changed into a `sint32` one: the value `2^31` is read as 0, where a cast gives `-2^31`. -/
theorem C58_sint64_sint32_false : ¬ C58_Statement .sint64 .sint32 := by
  intro h
  obtain ⟨b', h1, _⟩ := (h rfl (by decide) (by decide) (BitVec.ofInt 64 (2 ^ 31)) (2 ^ 31) rfl).alone [128, 128, 128, 128, 16] (by decide)
    (by decide +kernel) 0#32
  have e : (scalarClass .sint32).deserialize 16 (ReadFixed.holding 16 [128, 128, 128, 128, 16]) 0#32 =
    .ok (.noErrors, _, (0#32 : BitVec 32)) := rfl
  rw [e] at h1
  injection h1 with h1
  injection h1 with _ h1
  injection h1 with _ h1
  exact absurd (h1 : 0#32 = BitVec.ofInt 32 (2 ^ 31)) (by decide)

theorem C58_false : ¬ ∀ s t, C58_Statement s t := fun h => C58_int32_int64_false (h _ _)

/-- `fixed32` to `sfixed32` is always right: 4294967295 is read as `-1`. -/
example : C58_Statement .fixed32 .sfixed32 := fun hc hf hd v n hn => C58_compatible_partial _ _ hc hf hd v n hn trivial
example : ScalarTy.sfixed32.cast 4294967295 = BitVec.ofInt 32 (-1) := rfl

/-- So is `uint32` to `uint64`, and to `int32`. -/
example : C58_Statement .uint32 .uint64 := fun hc hf hd v n hn => C58_compatible_partial _ _ hc hf hd v n hn trivial
example : C58_Statement .uint32 .int32 := fun hc hf hd v n hn => C58_compatible_partial _ _ hc hf hd v n hn trivial

/-- A `sint64` with the value `2^32 + 1` becomes a `sint32` with the value 1, as it should; one with the value
`2^32 - 1` does not become `-1`. -/
example : ReadsAs .sint64 .sint32 (BitVec.ofInt 64 (2 ^ 32 + 1)) (1#32) :=
  (C58_compatible_iff .sint64 .sint32 rfl (by decide) (by decide) (BitVec.ofInt 64 (2 ^ 32 + 1)) (2 ^ 32 + 1) rfl).mpr
    (by decide : (0 : Int) ≤ 2 ^ 32 + 1 ↔ 0 ≤ (2 ^ 32 + 1 : Int).bmod (2 ^ 32))
example : ¬ ReadsAs .sint64 .sint32 (BitVec.ofInt 64 (2 ^ 32 - 1)) (BitVec.ofInt 32 (-1)) := fun h =>
  absurd ((C58_compatible_iff .sint64 .sint32 rfl (by decide) (by decide) (BitVec.ofInt 64 (2 ^ 32 - 1)) (2 ^ 32 - 1) rfl).mp h)
    (by decide : ¬ ((0 : Int) ≤ 2 ^ 32 - 1 ↔ 0 ≤ (2 ^ 32 - 1 : Int).bmod (2 ^ 32)))

/-- An `int32` with the value 5 becomes an `int64` with the value 5. -/
example : ReadsAs .int32 .int64 (5#32) (5#64) :=
  C58_compatible_partial .int32 .int64 rfl (by decide) (by decide) (5#32) 5 rfl (by decide : (0 : Int) ≤ 5)

end EP
