import Verif.Model.WireFormatter
import Verif.Spec.Wire
import Verif.Proof.Contracts

/-! # The encoding functions of `WireFormatter` meet the wire format specification -/

namespace EP
open Spec

variable {ω : Type} [WriteBuffer ω]

theorem varint_lt {n : Nat} (h : n < 128) : varint n = [BitVec.ofNat 8 n] := by
  rw [varint]; simp [h]

theorem varint_ge {n : Nat} (h : 128 ≤ n) :
    varint n = BitVec.ofNat 8 (n % 128 + 128) :: varint (n / 128) := by
  rw [varint]; simp [Nat.not_lt.mpr h]

theorem varint_length_pos (n : Nat) : 0 < (varint n).length := by
  rw [varint]; split <;> simp

theorem varint_ne_nil (n : Nat) : varint n ≠ [] := by
  have := varint_length_pos n
  intro h; simp [h] at this

/-- Number of bytes of a varint. -/
theorem varint_length_le (k n : Nat) (h : n < 128 ^ k) (hk : 0 < k) : (varint n).length ≤ k := by
  induction k generalizing n with
  | zero => omega
  | succ k ih =>
    by_cases hn : n < 128
    · rw [varint_lt hn]; simp
    · rw [varint_ge (by omega)]
      have h' : n / 128 < 128 ^ k := by
        rw [Nat.div_lt_iff_lt_mul (by decide)]; rwa [Nat.pow_succ] at h
      have hk0 : 0 < k := by
        rcases k with _ | k
        · simp at h; omega
        · omega
      simpa using ih _ h' hk0

private theorem or128 : ∀ x : BitVec 8, x ||| 128#8 = BitVec.ofNat 8 (x.toNat % 128 + 128) := by
  decide

theorem low7_or (w : Nat) (hw : 8 ≤ w) (v : BitVec w) :
    (v ||| BitVec.ofNat w 0x80).setWidth 8 = BitVec.ofNat 8 (v.toNat % 128 + 128) := by
  rw [BitVec.setWidth_or]
  have h1 : BitVec.setWidth 8 (BitVec.ofNat w 128) = 128#8 := by
    apply BitVec.eq_of_toNat_eq
    have : 128 < 2 ^ w := Nat.lt_of_lt_of_le (by decide : 128 < 2 ^ 8) (Nat.pow_le_pow_right (by decide) hw)
    simp [Nat.mod_eq_of_lt this]
  rw [h1, or128]
  congr 1
  simp

/-- `SerializeVarint` appends the base-128 varint of the value, or a proper prefix of it. -/
theorem serializeVarint_loop_appends (M : WriteModel ω) {w : Nat} (hw : 8 ≤ w) (fuel : Nat)
    (v : BitVec w) (hv : v.toNat < 128 ^ fuel) (buf : ω) (c : List Byte) (room : Nat)
    (h : M.Rep buf c room) :
    AppendsT M false c room (varint v.toNat) (do
      let (value, buf) ← serializeVarintLoop (fuel + 1) v buf
      let (memoryFree, buf) ← WriteBuffer.push buf (value.setWidth 8)
      pure (pushError memoryFree, buf)) := by
  induction fuel generalizing v buf c room with
  | zero =>
    have h0 : v.toNat = 0 := by simpa using hv
    have hlt : ¬ (v.toNat ≥ 0x80) := by omega
    simp only [serializeVarintLoop, hlt, ↓reduceIte, Res.pure_eq, Res.ok_bind]
    rw [varint_lt (by omega)]
    have := AppendsT.push (M := M) (x := v.setWidth 8) h
    have hx : BitVec.setWidth 8 v = BitVec.ofNat 8 v.toNat := by
      apply BitVec.eq_of_toNat_eq; simp
    rw [← hx]
    exact this
  | succ fuel ih =>
    by_cases hlt : v.toNat ≥ 0x80
    · rw [varint_ge hlt]
      rw [show fuel + 1 + 1 = (fuel + 1) + 1 from rfl, serializeVarintLoop]
      simp only [hlt, ↓reduceIte]
      rw [low7_or w hw]
      by_cases hf : M.full buf
      · obtain ⟨hp, h0⟩ := M.push_full buf c room _ h hf
        rw [hp]
        simp only [Res.ok_bind, Bool.false_eq_true, ↓reduceIte, Res.pure_eq]
        obtain ⟨hp', _⟩ := M.push_full buf c room ((v >>> 7).setWidth 8) h hf
        rw [hp']
        simp only [AppendsT, Res.ok_bind, Res.Post_ok]
        right
        refine ⟨by simp [pushError], by simp; omega, 0, room, by simp, by simpa using h⟩
      · obtain ⟨buf', hp, hr⟩ := M.push_ok buf c room
          (BitVec.ofNat 8 (v.toNat % 128 + 128)) h hf
        rw [hp]
        simp only [Res.ok_bind, ↓reduceIte]
        have hdiv : (v >>> 7).toNat = v.toNat / 128 := by
          simp [Nat.shiftRight_eq_div_pow]
        have hv' : (v >>> 7).toNat < 128 ^ fuel := by
          rw [hdiv, Nat.div_lt_iff_lt_mul (by decide)]; rwa [Nat.pow_succ] at hv
        have := ih (v >>> 7) hv' buf' _ _ hr
        rw [hdiv] at this
        unfold AppendsT at this ⊢
        refine this.mono ?_
        rintro ⟨e, w'⟩ (⟨he, hr', hs⟩ | ⟨he, hlt', k, room', hk, hr'⟩)
        · left
          refine ⟨he, by simpa [Nat.sub_sub, Nat.add_comm] using hr', fun hM _ => ?_⟩
          have h1 := hs hM (varint_ne_nil _)
          simp only [List.length_cons]
          have := varint_length_pos (v.toNat / 128)
          omega
        · right
          refine ⟨he, by simp only [List.length_cons]; omega, k + 1, room', by simpa using hk, ?_⟩
          simpa using hr'
    · simp only [serializeVarintLoop, hlt, ↓reduceIte, Res.pure_eq, Res.ok_bind]
      rw [varint_lt (by omega)]
      have := AppendsT.push (M := M) (x := v.setWidth 8) h
      have hx : BitVec.setWidth 8 v = BitVec.ofNat 8 v.toNat := by
        apply BitVec.eq_of_toNat_eq; simp
      rw [← hx]
      exact this

theorem serializeVarint_appends (M : WriteModel ω) {w : Nat} (hw : 8 ≤ w) (v : BitVec w) (buf : ω)
    {c : List Byte} {room : Nat} (h : M.Rep buf c room) :
    AppendsT M false c room (varint v.toNat) (serializeVarint v buf) := by
  refine serializeVarint_loop_appends M hw w v ?_ buf c room h
  refine Nat.lt_of_lt_of_le v.isLt ?_
  exact Nat.pow_le_pow_left (by decide) w

/-! ## Fixed width -/

theorem littleEndian_length (k n : Nat) : (littleEndian k n).length = k := by
  induction k generalizing n with
  | zero => rfl
  | succ k ih => simp [littleEndian, ih]

theorem serializeFixedLoop_appends (M : WriteModel ω) {w : Nat} (hw : 8 ≤ w) (v : BitVec w)
    (n i : Nat) (buf : ω) (c : List Byte) (room : Nat) (h : M.Rep buf c room) :
    AppendsT M false c room (littleEndian n (v.toNat / 2 ^ i)) (do
      let (r, buf) ← serializeFixedLoop v n i buf
      pure (pushError r, buf)) := by
  induction n generalizing i buf c room with
  | zero =>
    simp [serializeFixedLoop, littleEndian, AppendsT, pushError, h]
  | succ n ih =>
    have hb : ((v >>> i) &&& BitVec.ofNat w 0xFF).setWidth 8 = BitVec.ofNat 8 (v.toNat / 2 ^ i) := by
      rw [BitVec.setWidth_and]
      have h1 : BitVec.setWidth 8 (BitVec.ofNat w 0xFF) = BitVec.allOnes 8 := by
        apply BitVec.eq_of_toNat_eq
        have : 255 < 2 ^ w :=
          Nat.lt_of_lt_of_le (by decide : 255 < 2 ^ 8) (Nat.pow_le_pow_right (by decide) hw)
        simp [Nat.mod_eq_of_lt this]
      rw [h1, BitVec.and_allOnes]
      apply BitVec.eq_of_toNat_eq
      simp [Nat.shiftRight_eq_div_pow]
    simp only [serializeFixedLoop, littleEndian, hb]
    by_cases hf : M.full buf
    · obtain ⟨hp, h0⟩ := M.push_full buf c room (BitVec.ofNat 8 (v.toNat / 2 ^ i)) h hf
      rw [hp]
      simp only [AppendsT, Res.ok_bind, Bool.false_eq_true, ↓reduceIte, Res.pure_eq, Res.Post_ok]
      right
      refine ⟨by simp [pushError], by simp; omega, 0, room, by simp, by simpa using h⟩
    · obtain ⟨buf', hp, hr⟩ := M.push_ok buf c room (BitVec.ofNat 8 (v.toNat / 2 ^ i)) h hf
      rw [hp]
      simp only [Res.ok_bind, ↓reduceIte]
      have := ih (i + 8) buf' _ _ hr
      rw [show v.toNat / 2 ^ (i + 8) = v.toNat / 2 ^ i / 256 by
        rw [Nat.pow_add, Nat.div_div_eq_div_mul]] at this
      unfold AppendsT at this ⊢
      refine this.mono ?_
      rintro ⟨e, w'⟩ (⟨he, hr', hs⟩ | ⟨he, hlt', k, room', hk, hr'⟩)
      · left
        refine ⟨he, by simpa [Nat.sub_sub, Nat.add_comm] using hr', fun hM _ => ?_⟩
        rcases n with _ | n
        · rw [hM.extra_false]
          simp only [littleEndian, List.length_cons, List.length_nil]
          rcases Nat.eq_zero_or_pos room with h0 | h0
          · subst h0; exact absurd (hM.push buf c h) hf
          · omega
        · have h1 := hs hM (fun h => by simp [littleEndian] at h)
          simp only [List.length_cons, littleEndian_length] at h1 ⊢
          omega
      · right
        refine ⟨he, by simp only [List.length_cons]; omega, k + 1, room', by simpa using hk, ?_⟩
        simpa using hr'

theorem serializeFixed_appends (M : WriteModel ω) {w : Nat} (hw : 8 ≤ w) (v : BitVec w) (buf : ω)
    {c : List Byte} {room : Nat} (h : M.Rep buf c room) :
    AppendsT M false c room (littleEndian (w / 8) v.toNat) (serializeFixed v buf) := by
  have := serializeFixedLoop_appends M hw v (w / 8) 0 buf c room h
  rw [Nat.pow_zero, Nat.div_one] at this
  exact this

/-! ## Tags and zigzag -/

theorem wireNumber_lt (t : WireType) : wireNumber t < 8 := by cases t <;> decide

theorem wireType_toNat (t : WireType) : t.toNat = wireNumber t := by cases t <;> rfl

theorem makeTag_toNat (num : Nat) (t : WireType) (h : num < 536870912) :
    (makeTag num t).toNat = 8 * num + wireNumber t := by
  have ht := wireNumber_lt t
  rw [makeTag, wireType_toNat, BitVec.toNat_or, BitVec.toNat_shiftLeft, BitVec.toNat_ofNat,
    BitVec.toNat_ofNat, Nat.mod_eq_of_lt (by omega : num < 2 ^ 32),
    Nat.mod_eq_of_lt (by omega : wireNumber t < 2 ^ 32), Nat.shiftLeft_eq,
    Nat.mod_eq_of_lt (by omega : num * 2 ^ 3 < 2 ^ 32)]
  rw [show num * 2 ^ 3 = 2 ^ 3 * num by omega, Nat.two_pow_add_eq_or_of_lt (i := 3) (by omega) num]

theorem serializeTag_appends (M : WriteModel ω) (num : Nat) (t : WireType) (h : num < 536870912)
    (buf : ω) {c : List Byte} {room : Nat} (hr : M.Rep buf c room) :
    AppendsT M false c room (tag num t) (serializeVarint (makeTag num t) buf) := by
  have := serializeVarint_appends M (by decide) (makeTag num t) buf hr
  rwa [makeTag_toNat num t h] at this

end EP
