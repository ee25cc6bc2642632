import Verif.Proof.WireEnc
import Verif.Proof.ZigZag

/-! # The decoding functions of `WireFormatter` on arbitrary and on well formed bytes -/

namespace EP
open Spec

variable {β : Type} [ReadBuffer β]

theorem cont_iff : ∀ b : BitVec 8, ((b &&& 0x80) ≠ 0) ↔ cont b = true := by decide
theorem low7 : ∀ b : BitVec 8, (b &&& ~~~(0x80 : Byte)).toNat = b.toNat % 128 := by decide

/-- The bytes up to the first one without continuation bit. -/
def AllCont (bs : List Byte) : Prop := ∀ b ∈ bs, cont b = true

/-- Every byte string starts with a varint of at most `k` bytes, or is too short, or starts with
`k` continuation bytes. -/
theorem varint_cases (k : Nat) (v : List Byte) :
    (∃ bs rest, v = bs ++ rest ∧ IsVarint k bs) ∨
    (AllCont v ∧ v.length < k) ∨
    (∃ bs rest, v = bs ++ rest ∧ AllCont bs ∧ bs.length = k) := by
  induction k generalizing v with
  | zero => right; right; exact ⟨[], v, rfl, by simp [AllCont], rfl⟩
  | succ k ih =>
    cases v with
    | nil => right; left; simp [AllCont]
    | cons b v =>
      by_cases hb : cont b = true
      · rcases ih v with ⟨bs, rest, rfl, h⟩ | ⟨h, hl⟩ | ⟨bs, rest, rfl, h, hl⟩
        · left; exact ⟨b :: bs, rest, rfl, by simp [IsVarint, hb, h]⟩
        · right; left
          refine ⟨?_, by simpa using hl⟩
          intro x hx
          rcases List.mem_cons.mp hx with rfl | hx
          · exact hb
          · exact h x hx
        · right; right
          refine ⟨b :: bs, rest, rfl, ?_, by simp [hl]⟩
          intro x hx
          rcases List.mem_cons.mp hx with rfl | hx
          · exact hb
          · exact h x hx
      · left; exact ⟨[b], v, rfl, by simp [IsVarint, hb]⟩

theorem Spec.IsVarint.length_le {k : Nat} {bs : List Byte} (h : IsVarint k bs) : bs.length ≤ k := by
  induction k generalizing bs with
  | zero => exact h.elim
  | succ k ih =>
    cases bs with
    | nil => exact h.elim
    | cons b bs =>
      rw [IsVarint] at h
      split at h
      · have := ih h; simpa using this
      · simp [h]

theorem Spec.IsVarint.length_pos {k : Nat} {bs : List Byte} (h : IsVarint k bs) : 0 < bs.length := by
  cases k with
  | zero => exact h.elim
  | succ k => cases bs with
    | nil => exact h.elim
    | cons b bs => simp

theorem accum (w T g k : Nat) (hT : T < 2 ^ k) :
    BitVec.ofNat w T ||| (BitVec.ofNat w g <<< k) = BitVec.ofNat w (T + g * 2 ^ k) := by
  have h1 : T + g * 2 ^ k = T ||| (g <<< k) := by
    rw [Nat.shiftLeft_eq, Nat.or_comm, Nat.mul_comm g, ← Nat.two_pow_add_eq_or_of_lt hT]
    omega
  rw [h1]
  apply BitVec.eq_of_getLsbD_eq
  intro j hj
  simp only [BitVec.getLsbD_or, BitVec.getLsbD_ofNat, BitVec.getLsbD_shiftLeft, Nat.testBit_or,
    Nat.testBit_shiftLeft]
  by_cases hk : j < k
  · have h2 : ¬ (k ≤ j) := by omega
    simp [hj, hk, h2]
  · have : j - k < w := by omega
    have h2 : k ≤ j := by omega
    simp [hj, hk, this, h2]

theorem step_value (w T i : Nat) (b : Byte) (hT : T < 2 ^ (i * 7)) :
    BitVec.ofNat w T ||| ((b &&& ~~~(0x80 : Byte)).setWidth w <<< (i * 7)) =
      BitVec.ofNat w (T + (b.toNat % 128) * 2 ^ (i * 7)) := by
  have : BitVec.setWidth w (b &&& ~~~(0x80 : Byte)) = BitVec.ofNat w (b.toNat % 128) := by
    apply BitVec.eq_of_toNat_eq
    rw [BitVec.toNat_setWidth, low7, BitVec.toNat_ofNat]
  rw [this, accum w T _ _ hT]

theorem step_bound (T i x : Nat) (hT : T < 2 ^ (i * 7)) (hx : x < 128) :
    T + x * 2 ^ (i * 7) < 2 ^ ((i + 1) * 7) := by
  rw [show (i + 1) * 7 = i * 7 + 7 by omega, Nat.pow_add]
  have : x * 2 ^ (i * 7) ≤ 127 * 2 ^ (i * 7) := Nat.mul_le_mul_right _ (by omega)
  omega

theorem deserializeVarintLoop_ok (M : ReadModel β) {w : Nat} (k i T : Nat) (hT : T < 2 ^ (i * 7))
    (bs rest : List Byte) (h : IsVarint k bs) (b : β) (hb : M.Inv b) (hv : M.view b = bs ++ rest) :
    (deserializeVarintLoop k i (BitVec.ofNat w T) b).Post fun p =>
      ∃ x, p.1 = some (x, BitVec.ofNat w (T + groups bs * 2 ^ (i * 7))) ∧ cont x = false ∧
        M.Inv p.2 ∧ M.view p.2 = rest := by
  induction k generalizing i T bs b with
  | zero => exact h.elim
  | succ k ih =>
    cases bs with
    | nil => exact h.elim
    | cons x bs =>
      obtain ⟨b', hp, hi, hv'⟩ := M.pop_cons b x (bs ++ rest) hb (by simpa using hv)
      rw [deserializeVarintLoop, hp]
      simp only [Res.ok_bind, step_value w T i x hT]
      rw [IsVarint] at h
      by_cases hc : cont x = true
      · rw [if_pos hc] at h
        have hk : 0 < k := by
          rcases k with _ | k
          · exact h.elim
          · omega
        rw [if_pos ⟨(cont_iff x).mpr hc, hk⟩]
        refine (ih (i + 1) _ (step_bound T i _ hT (by omega)) bs h b' hi hv').mono ?_
        rintro ⟨r, b''⟩ ⟨y, hr, hy, hi', hv''⟩
        refine ⟨y, ?_, hy, hi', hv''⟩
        dsimp only at hr
        rw [hr]
        congr 2
        rw [groups, show (i + 1) * 7 = 7 + i * 7 by omega, Nat.pow_add, Nat.add_mul]
        congr 1
        rw [Nat.add_assoc]
        congr 1
        rw [show 2 ^ 7 = 128 from rfl, ← Nat.mul_assoc, Nat.mul_comm (groups bs) 128]
      · rw [if_neg hc] at h
        subst h
        rw [if_neg (by intro hh; exact hc ((cont_iff x).mp hh.1))]
        simp only [Res.pure_eq, Res.Post_ok]
        refine ⟨x, ?_, by simpa using hc, hi, by simpa using hv'⟩
        simp [groups]

theorem deserializeVarintLoop_short (M : ReadModel β) {w : Nat} (k i : Nat) (temp : BitVec w)
    (bs : List Byte) (h : AllCont bs) (hk : bs.length < k) (b : β) (hb : M.Inv b)
    (hv : M.view b = bs) :
    (deserializeVarintLoop k i temp b).Post fun p =>
      p.1 = none ∧ M.Inv p.2 ∧ M.view p.2 = [] := by
  induction k generalizing i temp bs b with
  | zero => omega
  | succ k ih =>
    cases bs with
    | nil =>
      obtain ⟨b', hp, hi, hv'⟩ := M.pop_nil b hb hv
      rw [deserializeVarintLoop, hp]
      simpa using ⟨hi, hv'⟩
    | cons x bs =>
      obtain ⟨b', hp, hi, hv'⟩ := M.pop_cons b x bs hb hv
      rw [deserializeVarintLoop, hp]
      simp only [Res.ok_bind]
      simp only [List.length_cons] at hk
      rw [if_pos ⟨(cont_iff x).mpr (h x (by simp)), by omega⟩]
      exact ih (i + 1) _ bs (fun y hy => h y (by simp [hy])) (by omega) b' hi hv'

theorem deserializeVarintLoop_long (M : ReadModel β) {w : Nat} (k i : Nat) (temp : BitVec w)
    (bs rest : List Byte) (h : AllCont bs) (hk : bs.length = k) (hk0 : 0 < k) (b : β) (hb : M.Inv b)
    (hv : M.view b = bs ++ rest) :
    (deserializeVarintLoop k i temp b).Post fun p =>
      ∃ x t, p.1 = some (x, t) ∧ cont x = true ∧ M.Inv p.2 ∧ M.view p.2 = rest := by
  induction k generalizing i temp bs b with
  | zero => omega
  | succ k ih =>
    cases bs with
    | nil => simp at hk
    | cons x bs =>
      obtain ⟨b', hp, hi, hv'⟩ := M.pop_cons b x (bs ++ rest) hb (by simpa using hv)
      rw [deserializeVarintLoop, hp]
      simp only [Res.ok_bind]
      by_cases hk' : 0 < k
      · rw [if_pos ⟨(cont_iff x).mpr (h x (by simp)), hk'⟩]
        exact ih (i + 1) _ bs (fun y hy => h y (by simp [hy])) (by simpa using hk) hk' b' hi hv'
      · rw [if_neg (by omega)]
        have : bs = [] := by
          apply List.eq_nil_of_length_eq_zero; simp at hk; omega
        subst this
        simp only [Res.pure_eq, Res.Post_ok]
        exact ⟨x, _, rfl, h x (by simp), hi, by simpa using hv'⟩

theorem nBytes_eq (w : Nat) : nBytesInVarint w = maxVarint w := rfl

/-- A well formed varint of at most the maximum length decodes to its value reduced to `w` bits and
is consumed exactly. -/
theorem deserializeVarint_ok (M : ReadModel β) (w : Nat) (bs rest : List Byte)
    (h : IsVarint (maxVarint w) bs) (b : β) (hb : M.Inv b) (hv : M.view b = bs ++ rest) :
    (deserializeVarint w b).Post fun p =>
      p.1 = .ok (BitVec.ofNat w (groups bs)) ∧ M.Inv p.2 ∧ M.view p.2 = rest := by
  unfold deserializeVarint
  rw [Res.Post_bind]
  refine (deserializeVarintLoop_ok M (w := w) (nBytesInVarint w) 0 0 (by simp) bs rest h b hb hv).mono ?_
  rintro ⟨r, b'⟩ ⟨x, hr, hx, hi, hv'⟩
  dsimp only at hr hi hv'
  subst hr
  have : ¬ ((x &&& 0x80) ≠ 0) := by rw [cont_iff]; simp [hx]
  simp only [if_neg this, Res.pure_eq, Res.Post_ok]
  exact ⟨by simp, hi, hv'⟩

theorem deserializeVarint_short (M : ReadModel β) (w : Nat) (bs : List Byte)
    (h : AllCont bs) (hl : bs.length < maxVarint w) (b : β) (hb : M.Inv b) (hv : M.view b = bs) :
    (deserializeVarint w b).Post fun p =>
      p.1 = .error .endOfBuffer ∧ M.Inv p.2 ∧ M.view p.2 = [] := by
  unfold deserializeVarint
  rw [Res.Post_bind]
  refine (deserializeVarintLoop_short M (nBytesInVarint w) 0 (0 : BitVec w) bs h hl b hb hv).mono ?_
  rintro ⟨r, b'⟩ ⟨hr, hi, hv'⟩
  dsimp only at hr hi hv'
  subst hr
  simp only [Res.pure_eq, Res.Post_ok]
  exact ⟨trivial, hi, hv'⟩

theorem deserializeVarint_long (M : ReadModel β) (w : Nat) (hw : 0 < w) (bs rest : List Byte)
    (h : AllCont bs) (hl : bs.length = maxVarint w) (b : β) (hb : M.Inv b)
    (hv : M.view b = bs ++ rest) :
    (deserializeVarint w b).Post fun p =>
      p.1 = .error .overlongVarint ∧ M.Inv p.2 ∧ M.view p.2 = rest := by
  unfold deserializeVarint
  rw [Res.Post_bind]
  refine (deserializeVarintLoop_long M (nBytesInVarint w) 0 (0 : BitVec w) bs rest h hl
    (by unfold nBytesInVarint; omega) b hb hv).mono ?_
  rintro ⟨r, b'⟩ ⟨x, t, hr, hx, hi, hv'⟩
  dsimp only at hr hi hv'
  subst hr
  have : ((x &&& 0x80) ≠ 0) := by rw [cont_iff]; simp [hx]
  simp only [if_pos this, Res.pure_eq, Res.Post_ok]
  exact ⟨trivial, hi, hv'⟩

/-- What decoding a varint does on any buffer whatsoever. -/
theorem deserializeVarint_total (M : ReadModel β) (w : Nat) (hw : 0 < w) (b : β) (hb : M.Inv b) :
    (deserializeVarint w b).Post fun p => M.Inv p.2 ∧ ∃ k, M.view p.2 = (M.view b).drop k ∧
      (∀ v, p.1 = .ok v → 0 < k ∧ k ≤ (M.view b).length) := by
  rcases varint_cases (maxVarint w) (M.view b) with ⟨bs, rest, hv, h⟩ | ⟨h, hl⟩ | ⟨bs, rest, hv, h, hl⟩
  · refine (deserializeVarint_ok M w bs rest h b hb hv).mono ?_
    rintro p ⟨h1, h2, h3⟩
    refine ⟨h2, bs.length, by simp [h3, hv], fun _ _ => ⟨h.length_pos, by simp [hv]⟩⟩
  · refine (deserializeVarint_short M w _ h hl b hb rfl).mono ?_
    rintro p ⟨h1, h2, h3⟩
    refine ⟨h2, (M.view b).length, by simp [h3], by simp [h1]⟩
  · refine (deserializeVarint_long M w hw bs rest h hl b hb hv).mono ?_
    rintro p ⟨h1, h2, h3⟩
    refine ⟨h2, bs.length, by simp [h3, hv], by simp [h1]⟩

/-! ## Varints written by the specification -/

theorem groups_varint (n : Nat) : groups (varint n) = n := by
  induction n using Nat.strongRecOn with
  | _ n ih =>
    by_cases h : n < 128
    · rw [varint_lt h]; simp [groups]; omega
    · rw [varint_ge (by omega), groups, ih (n / 128) (by omega)]
      simp; omega

theorem cont_high (n : Nat) : cont (BitVec.ofNat 8 (n % 128 + 128)) = true := by
  simp [cont]; omega

theorem isVarint_varint (k n : Nat) (hk : 0 < k) (h : n < 128 ^ k) : IsVarint k (varint n) := by
  induction k generalizing n with
  | zero => omega
  | succ k ih =>
    by_cases hn : n < 128
    · rw [varint_lt hn, IsVarint, if_neg]
      simp [cont]; omega
    · rw [varint_ge (by omega), IsVarint, if_pos (cont_high n)]
      have h' : n / 128 < 128 ^ k := by
        rw [Nat.div_lt_iff_lt_mul (by decide)]; rwa [Nat.pow_succ] at h
      refine ih _ ?_ h'
      rcases k with _ | k
      · simp at h; omega
      · omega

theorem isVarint_varint_of_lt (w n : Nat) (hw : 0 < w) (h : n < 2 ^ w) :
    IsVarint (maxVarint w) (varint n) := by
  refine isVarint_varint _ n (by unfold maxVarint; omega) (Nat.lt_of_lt_of_le h ?_)
  rw [show (128 : Nat) = 2 ^ 7 from rfl, ← Nat.pow_mul]
  exact Nat.pow_le_pow_right (by decide) (by unfold maxVarint; omega)

theorem deserializeVarint_varint (M : ReadModel β) (w : Nat) (hw : 0 < w) (n : Nat) (hn : n < 2 ^ w)
    (rest : List Byte) (b : β) (hb : M.Inv b) (hv : M.view b = varint n ++ rest) :
    (deserializeVarint w b).Post fun p =>
      p.1 = .ok (BitVec.ofNat w n) ∧ M.Inv p.2 ∧ M.view p.2 = rest := by
  have := deserializeVarint_ok M w (varint n) rest (isVarint_varint_of_lt w n hw hn) b hb hv
  rwa [groups_varint] at this

/-! ## Fixed width -/

theorem ofLittleEndian_littleEndian (k n : Nat) :
    ofLittleEndian (littleEndian k n) = n % 256 ^ k := by
  induction k generalizing n with
  | zero => simp [littleEndian, ofLittleEndian, Nat.mod_one]
  | succ k ih =>
    rw [littleEndian, ofLittleEndian, ih, Nat.pow_succ', Nat.mod_mul]
    simp

theorem deserializeFixedLoop_ok (M : ReadModel β) {w : Nat} (k i T : Nat) (hT : T < 2 ^ i)
    (bs rest : List Byte) (h : bs.length = k) (b : β) (hb : M.Inv b) (hv : M.view b = bs ++ rest) :
    (deserializeFixedLoop k i (BitVec.ofNat w T) b).Post fun p =>
      p.1 = some (BitVec.ofNat w (T + ofLittleEndian bs * 2 ^ i)) ∧
        M.Inv p.2 ∧ M.view p.2 = rest := by
  induction k generalizing i T bs b with
  | zero =>
    have : bs = [] := List.eq_nil_of_length_eq_zero h
    subst this
    simp [deserializeFixedLoop, ofLittleEndian, hb, hv]
  | succ k ih =>
    cases bs with
    | nil => simp at h
    | cons x bs =>
      obtain ⟨b', hp, hi, hv'⟩ := M.pop_cons b x (bs ++ rest) hb (by simpa using hv)
      rw [deserializeFixedLoop, hp]
      simp only [Res.ok_bind]
      have hx : BitVec.setWidth w x = BitVec.ofNat w x.toNat := by
        apply BitVec.eq_of_toNat_eq; simp
      rw [hx, accum w T _ _ hT]
      have hlt : T + x.toNat * 2 ^ i < 2 ^ (i + 8) := by
        rw [Nat.pow_add]
        have hx' := x.isLt
        have : x.toNat * 2 ^ i ≤ 255 * 2 ^ i := Nat.mul_le_mul_right _ (by omega)
        omega
      refine (ih (i + 8) _ hlt bs (by simpa using h) b' hi hv').mono ?_
      rintro ⟨r, b''⟩ ⟨hr, hi', hv''⟩
      refine ⟨?_, hi', hv''⟩
      dsimp only at hr
      rw [hr, ofLittleEndian]
      congr 2
      rw [Nat.pow_add, Nat.add_mul, Nat.add_assoc]
      congr 2
      rw [show (2:Nat) ^ 8 = 256 from rfl, Nat.mul_comm 256 (ofLittleEndian bs),
        Nat.mul_assoc, Nat.mul_comm (2 ^ i) 256]

theorem deserializeFixedLoop_short (M : ReadModel β) {w : Nat} (k i : Nat) (temp : BitVec w)
    (bs : List Byte) (h : bs.length < k) (b : β) (hb : M.Inv b) (hv : M.view b = bs) :
    (deserializeFixedLoop k i temp b).Post fun p => p.1 = none ∧ M.Inv p.2 ∧ M.view p.2 = [] := by
  induction k generalizing i temp bs b with
  | zero => omega
  | succ k ih =>
    cases bs with
    | nil =>
      obtain ⟨b', hp, hi, hv'⟩ := M.pop_nil b hb hv
      rw [deserializeFixedLoop, hp]
      simpa using ⟨hi, hv'⟩
    | cons x bs =>
      obtain ⟨b', hp, hi, hv'⟩ := M.pop_cons b x bs hb hv
      rw [deserializeFixedLoop, hp]
      simp only [Res.ok_bind]
      exact ih (i + 8) _ bs (by simpa using h) b' hi hv'

theorem deserializeFixed_ok (M : ReadModel β) (w : Nat) (bs rest : List Byte)
    (h : bs.length = w / 8) (b : β) (hb : M.Inv b) (hv : M.view b = bs ++ rest) :
    (deserializeFixed w b).Post fun p =>
      p.1 = .ok (BitVec.ofNat w (ofLittleEndian bs)) ∧ M.Inv p.2 ∧ M.view p.2 = rest := by
  unfold deserializeFixed
  rw [Res.Post_bind]
  refine (deserializeFixedLoop_ok M (w := w) (w / 8) 0 0 (by simp) bs rest h b hb hv).mono ?_
  rintro ⟨r, b'⟩ ⟨hr, hi, hv'⟩
  dsimp only at hr hi hv'
  subst hr
  simp only [Res.pure_eq, Res.Post_ok]
  exact ⟨by simp, hi, hv'⟩

theorem deserializeFixed_short (M : ReadModel β) (w : Nat) (b : β) (hb : M.Inv b)
    (h : (M.view b).length < w / 8) :
    (deserializeFixed w b).Post fun p =>
      p.1 = .error .endOfBuffer ∧ M.Inv p.2 ∧ M.view p.2 = [] := by
  unfold deserializeFixed
  rw [Res.Post_bind]
  refine (deserializeFixedLoop_short M (w / 8) 0 (0 : BitVec w) _ h b hb rfl).mono ?_
  rintro ⟨r, b'⟩ ⟨hr, hi, hv'⟩
  dsimp only at hr hi hv'
  subst hr
  simp only [Res.pure_eq, Res.Post_ok]
  exact ⟨trivial, hi, hv'⟩

theorem deserializeFixed_littleEndian (M : ReadModel β) (w : Nat) (hw : w % 8 = 0) (v : BitVec w)
    (rest : List Byte) (b : β) (hb : M.Inv b)
    (hv : M.view b = littleEndian (w / 8) v.toNat ++ rest) :
    (deserializeFixed w b).Post fun p =>
      p.1 = .ok v ∧ M.Inv p.2 ∧ M.view p.2 = rest := by
  have := deserializeFixed_ok M w _ rest (littleEndian_length _ _) b hb hv
  rw [ofLittleEndian_littleEndian, show (256 : Nat) = 2 ^ 8 from rfl, ← Nat.pow_mul,
    show 8 * (w / 8) = w by omega, Nat.mod_eq_of_lt v.isLt] at this
  simpa using this

theorem deserializeFixed_total (M : ReadModel β) (w : Nat) (hw : 8 ≤ w) (b : β) (hb : M.Inv b) :
    (deserializeFixed w b).Post fun p => M.Inv p.2 ∧ ∃ k, M.view p.2 = (M.view b).drop k ∧
      (∀ v, p.1 = .ok v → 0 < k ∧ k ≤ (M.view b).length) := by
  by_cases h : (M.view b).length < w / 8
  · refine (deserializeFixed_short M w b hb h).mono ?_
    rintro p ⟨h1, h2, h3⟩
    exact ⟨h2, (M.view b).length, by simp [h3], by simp [h1]⟩
  · refine (deserializeFixed_ok M w ((M.view b).take (w / 8)) ((M.view b).drop (w / 8))
      (by simp; omega) b hb (by simp)).mono ?_
    rintro p ⟨h1, h2, h3⟩
    exact ⟨h2, w / 8, h3, fun _ _ => ⟨by omega, by omega⟩⟩

/-! ## Bool -/

theorem deserializeBool_cons (M : ReadModel β) (x : Byte) (rest : List Byte) (b : β) (hb : M.Inv b)
    (hv : M.view b = x :: rest) :
    (deserializeBool b).Post fun p => p.1 = .ok (x != 0) ∧ M.Inv p.2 ∧ M.view p.2 = rest := by
  obtain ⟨b', hp, hi, hv'⟩ := M.pop_cons b x rest hb hv
  simp [deserializeBool, hp, hi, hv']

theorem deserializeBool_nil (M : ReadModel β) (b : β) (hb : M.Inv b) (hv : M.view b = []) :
    (deserializeBool b).Post fun p =>
      p.1 = .error .endOfBuffer ∧ M.Inv p.2 ∧ M.view p.2 = [] := by
  obtain ⟨b', hp, hi, hv'⟩ := M.pop_nil b hb hv
  simp [deserializeBool, hp, hi, hv']

theorem deserializeBool_total (M : ReadModel β) (b : β) (hb : M.Inv b) :
    (deserializeBool b).Post fun p => M.Inv p.2 ∧ ∃ k, M.view p.2 = (M.view b).drop k ∧
      (∀ v, p.1 = .ok v → 0 < k ∧ k ≤ (M.view b).length) := by
  cases hv : M.view b with
  | nil =>
    refine (deserializeBool_nil M b hb hv).mono ?_
    rintro p ⟨h1, h2, h3⟩
    exact ⟨h2, 0, by simp [h3], by simp [h1]⟩
  | cons x xs =>
    refine (deserializeBool_cons M x xs b hb hv).mono ?_
    rintro p ⟨h1, h2, h3⟩
    exact ⟨h2, 1, by simp [h3], by simp⟩

/-! ## Tags -/

theorem ofNat?_wireNumber (t : WireType) : WireType.ofNat? (wireNumber t) = some t := by
  cases t <;> rfl

theorem ofNat?_eq_some {n : Nat} {t : WireType} (h : WireType.ofNat? n = some t) :
    n = wireNumber t := by
  unfold WireType.ofNat? at h
  split at h <;> simp_all <;> subst h <;> rfl

/-- Decoding a tag varint of 32 bit value `n`. -/
theorem deserializeTag_ok (M : ReadModel β) (bs rest : List Byte) (n : Nat) (t : WireType)
    (num : Nat) (h : Spec.Varint 32 bs n) (hn : n = 8 * num + wireNumber t)
    (b : β) (hb : M.Inv b) (hv : M.view b = bs ++ rest) :
    (deserializeTag b).Post fun p =>
      p.1 = .ok (t, num) ∧ M.Inv p.2 ∧ M.view p.2 = rest := by
  unfold deserializeTag
  rw [Res.Post_bind]
  refine (deserializeVarint_ok M 32 bs rest h.1 b hb hv).mono ?_
  rintro ⟨r, b'⟩ ⟨hr, hi, hv'⟩
  dsimp only at hr hi hv'
  subst hr
  have ht := wireNumber_lt t
  have hval : (BitVec.ofNat 32 (groups bs)).toNat = 8 * num + wireNumber t := by
    rw [BitVec.toNat_ofNat, ← hn, ← h.2]
  have h1 : (BitVec.ofNat 32 (groups bs) &&& 7).toNat = wireNumber t := by
    rw [BitVec.toNat_and, hval]
    have : (7 : BitVec 32).toNat = 2 ^ 3 - 1 := rfl
    rw [this, Nat.and_two_pow_sub_one_eq_mod]
    omega
  have h2 : (BitVec.ofNat 32 (groups bs) >>> 3).toNat = num := by
    rw [BitVec.toNat_ushiftRight, hval, Nat.shiftRight_eq_div_pow]
    omega
  simp only [h1, h2, ofNat?_wireNumber, Res.pure_eq, Res.Post_ok]
  exact ⟨trivial, hi, hv'⟩

theorem varint_spec (w n : Nat) (hw : 0 < w) (h : n < 2 ^ w) : Spec.Varint w (varint n) n :=
  ⟨isVarint_varint_of_lt w n hw h, by rw [groups_varint, Nat.mod_eq_of_lt h]⟩

theorem deserializeTag_tag (M : ReadModel β) (num : Nat) (t : WireType) (hn : num < 536870912)
    (rest : List Byte) (b : β) (hb : M.Inv b) (hv : M.view b = tag num t ++ rest) :
    (deserializeTag b).Post fun p =>
      p.1 = .ok (t, num) ∧ M.Inv p.2 ∧ M.view p.2 = rest := by
  have ht := wireNumber_lt t
  exact deserializeTag_ok M _ rest _ t num (varint_spec 32 _ (by decide) (by omega)) rfl b hb hv

/-- At the end of the buffer. -/
theorem deserializeTag_nil (M : ReadModel β) (b : β) (hb : M.Inv b) (hv : M.view b = []) :
    (deserializeTag b).Post fun p =>
      p.1 = .error .endOfBuffer ∧ M.Inv p.2 ∧ M.view p.2 = [] := by
  unfold deserializeTag
  rw [Res.Post_bind]
  refine (deserializeVarint_short M 32 [] (by simp [AllCont]) (by decide) b hb hv).mono ?_
  rintro ⟨r, b'⟩ ⟨hr, hi, hv'⟩
  dsimp only at hr hi hv'
  subst hr
  simp only [Res.pure_eq, Res.Post_ok]
  exact ⟨trivial, hi, hv'⟩

theorem deserializeTag_total (M : ReadModel β) (b : β) (hb : M.Inv b) :
    (deserializeTag b).Post fun p => M.Inv p.2 ∧ ∃ k, M.view p.2 = (M.view b).drop k ∧
      (∀ v, p.1 = .ok v → 0 < k ∧ k ≤ (M.view b).length) := by
  unfold deserializeTag
  rw [Res.Post_bind]
  refine (deserializeVarint_total M 32 (by decide) b hb).mono ?_
  rintro ⟨r, b'⟩ ⟨hi, k, hv, hk⟩
  dsimp only at hi hv hk
  cases r with
  | error e =>
    simp only [Res.pure_eq, Res.Post_ok]
    exact ⟨hi, k, hv, by simp⟩
  | ok v =>
    have := hk v rfl
    simp only
    split
    · simp only [Res.pure_eq, Res.Post_ok]; exact ⟨hi, k, hv, fun _ _ => this⟩
    · simp only [Res.pure_eq, Res.Post_ok]; exact ⟨hi, k, hv, fun _ _ => this⟩

end EP
