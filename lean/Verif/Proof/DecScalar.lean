import Verif.Proof.Base
import Verif.Proof.WireDec
import Verif.Proof.ZigZag
import Verif.Proof.BufferModels
import Verif.Spec.Stream

/-! # Decoding of scalars and strings -/

namespace EP
open Spec

variable {V : Type}

/-- Decoding a payload: nothing but the payload is consumed and the value is as specified. -/
def DecLaw (C : FieldClass) (S : ClassSpec C V) (wt : WireType) (P : List Byte → V → V → Prop) : Prop :=
  ∀ (β : Type) [ReadBuffer β] (M : ReadModel β) (fuel : Nat) (b : β) (bs rest : List Byte)
    (x : C.State) (v : V), S.Inv x → S.Clean x → M.Inv b → M.view b = bs ++ rest →
    P bs (S.abs x) v → bs.length < fuel →
    (C.deserializeCheckType fuel b wt x).Post fun r =>
      r.1 = .noErrors ∧ M.Inv r.2.1 ∧ M.view r.2.1 = rest ∧
        S.Inv r.2.2 ∧ S.Clean r.2.2 ∧ S.abs r.2.2 = v

/-! ## Scalars -/

section
variable {β : Type} [ReadBuffer β]

theorem varint_dec (M : ReadModel β) (w : Nat) (bs rest : List Byte) (n : Nat) (h : Spec.Varint w bs n)
    (b : β) (hb : M.Inv b) (hv : M.view b = bs ++ rest) :
    (deserializeVarint w b).Post fun p =>
      p.1 = .ok (BitVec.ofNat w n) ∧ M.Inv p.2 ∧ M.view p.2 = rest := by
  refine (deserializeVarint_ok M w bs rest h.1 b hb hv).mono ?_
  rintro p ⟨h1, h2⟩
  refine ⟨?_, h2⟩
  rw [h1, h.2]
  congr 1
  apply BitVec.eq_of_toNat_eq
  simp

theorem setWidth_ofNat_of_lt {n : Nat} (h : n < 2 ^ 64) (w : Nat) :
    (BitVec.ofNat 64 n).setWidth w = BitVec.ofNat w n := by
  apply BitVec.eq_of_toNat_eq
  simp only [BitVec.toNat_setWidth, BitVec.toNat_ofNat]
  rw [Nat.mod_eq_of_lt h]

theorem Varint.lt {w n : Nat} {bs : List Byte} (h : Spec.Varint w bs n) : n < 2 ^ w := by
  rw [h.2]; exact Nat.mod_lt _ (Nat.two_pow_pos w)

theorem zigZagDecode_of_zigzag {w : Nat} (hw : 1 < w) (v : BitVec w) (n : Nat)
    (h : zigzag v.toInt = n % 2 ^ w) : zigZagDecode (BitVec.ofNat w n) = v := by
  rw [← zigZag_decode_encode hw v]
  congr 1
  apply BitVec.eq_of_toNat_eq
  rw [zigZagEncode_spec (by omega), h, BitVec.toNat_ofNat]

theorem scalar_decode (M : ReadModel β) (s : ScalarTy) (b : β) (bs rest : List Byte) (v : s.Val)
    (hb : M.Inv b) (hv : M.view b = bs ++ rest) (h : s.Payload bs v) :
    (s.decode b).Post fun p => p.1 = .ok v ∧ M.Inv p.2 ∧ M.view p.2 = rest := by
  cases s with
  | int32 =>
    obtain ⟨n, hn, rfl⟩ := h
    show (deserializeInt 32 b).Post _
    unfold deserializeInt
    rw [Res.Post_bind]
    refine (varint_dec M 64 bs rest n hn b hb hv).mono ?_
    rintro ⟨p, b'⟩ ⟨h1, h2⟩
    dsimp only at h1 h2
    subst h1
    refine ⟨?_, h2⟩
    exact congrArg Except.ok (setWidth_ofNat_of_lt (Varint.lt hn) 32)
  | int64 =>
    obtain ⟨n, hn, rfl⟩ := h
    show (deserializeInt 64 b).Post _
    unfold deserializeInt
    rw [Res.Post_bind]
    refine (varint_dec M 64 bs rest n hn b hb hv).mono ?_
    rintro ⟨p, b'⟩ ⟨h1, h2⟩
    dsimp only at h1 h2
    subst h1
    refine ⟨?_, h2⟩
    exact congrArg Except.ok (setWidth_ofNat_of_lt (Varint.lt hn) 64)
  | uint32 => obtain ⟨n, hn, rfl⟩ := h; exact varint_dec M 32 bs rest n hn b hb hv
  | uint64 => obtain ⟨n, hn, rfl⟩ := h; exact varint_dec M 64 bs rest n hn b hb hv
  | enumeration => obtain ⟨n, hn, rfl⟩ := h; exact varint_dec M 32 bs rest n hn b hb hv
  | sint32 =>
    obtain ⟨n, hn, hz⟩ := h
    show (deserializeSInt 32 b).Post _
    unfold deserializeSInt
    rw [Res.Post_bind]
    refine (varint_dec M 64 bs rest n hn b hb hv).mono ?_
    rintro ⟨p, b'⟩ ⟨h1, h2⟩
    dsimp only at h1 h2
    subst h1
    refine ⟨?_, h2⟩
    refine congrArg Except.ok ?_
    dsimp only
    rw [setWidth_ofNat_of_lt (Varint.lt hn) 32]
    exact zigZagDecode_of_zigzag (by decide) v n hz
  | sint64 =>
    have h : Spec.Varint 64 bs (zigzag (BitVec.toInt (n := 64) v)) := h
    show (deserializeSInt 64 b).Post _
    unfold deserializeSInt
    rw [Res.Post_bind]
    refine (varint_dec M 64 bs rest _ h b hb hv).mono ?_
    rintro ⟨p, b'⟩ ⟨h1, h2⟩
    dsimp only at h1 h2
    subst h1
    refine ⟨?_, h2⟩
    refine congrArg Except.ok ?_
    dsimp only
    rw [setWidth_ofNat_of_lt (Varint.lt h) 64]
    exact zigZagDecode_of_zigzag (by decide) v _ (Nat.mod_eq_of_lt (Varint.lt h)).symm
  | boolean =>
    obtain ⟨n, hn, rfl, rfl⟩ := h
    rw [varint_lt hn] at hv
    refine (deserializeBool_cons M _ rest b hb hv).mono ?_
    rintro p ⟨h1, h2⟩
    refine ⟨?_, h2⟩
    rw [h1]
    congr 1
    rw [Bool.eq_iff_iff]
    simp only [bne_iff_ne, ne_eq, decide_eq_true_eq]
    refine not_congr ?_
    constructor
    · intro h0
      have := congrArg BitVec.toNat h0
      simp at this; omega
    · rintro rfl; rfl
  | fixed32 => obtain ⟨hl, rfl⟩ := h; exact deserializeFixed_ok M 32 bs rest hl b hb hv
  | sfixed32 => obtain ⟨hl, rfl⟩ := h; exact deserializeFixed_ok M 32 bs rest hl b hb hv
  | floatfixed => obtain ⟨hl, rfl⟩ := h; exact deserializeFixed_ok M 32 bs rest hl b hb hv
  | fixed64 => obtain ⟨hl, rfl⟩ := h; exact deserializeFixed_ok M 64 bs rest hl b hb hv
  | sfixed64 => obtain ⟨hl, rfl⟩ := h; exact deserializeFixed_ok M 64 bs rest hl b hb hv
  | doublefixed => obtain ⟨hl, rfl⟩ := h; exact deserializeFixed_ok M 64 bs rest hl b hb hv

theorem scalar_decode_nil (M : ReadModel β) (s : ScalarTy) (b : β)
    (hb : M.Inv b) (hv : M.view b = []) :
    (s.decode b).Post fun p => p.1 = .error .endOfBuffer ∧ M.Inv p.2 ∧ M.view p.2 = [] := by
  have hvar : ∀ w, 0 < w → (deserializeVarint w b).Post fun p =>
      p.1 = .error .endOfBuffer ∧ M.Inv p.2 ∧ M.view p.2 = [] := fun w hw =>
    deserializeVarint_short M w [] (by simp [AllCont]) (by unfold maxVarint; simp; omega) b hb hv
  have hmap : ∀ (w : Nat) (f : BitVec 64 → BitVec w), (do
      let (r, buf) ← deserializeVarint 64 b
      pure (r.map f, buf) : Res (Except Error (BitVec w) × β)).Post fun p =>
      p.1 = .error .endOfBuffer ∧ M.Inv p.2 ∧ M.view p.2 = [] := by
    intro w f
    rw [Res.Post_bind]
    refine (hvar 64 (by decide)).mono ?_
    rintro ⟨p, b'⟩ ⟨h1, h2⟩
    dsimp only at h1 h2
    subst h1
    exact ⟨rfl, h2⟩
  have hfix : ∀ w, 8 ≤ w → (deserializeFixed w b).Post fun p =>
      p.1 = .error .endOfBuffer ∧ M.Inv p.2 ∧ M.view p.2 = [] := fun w hw =>
    deserializeFixed_short M w b hb (by rw [hv]; simp; omega)
  cases s with
  | int32 => exact hmap 32 _
  | int64 => exact hmap 64 _
  | uint32 => exact hvar 32 (by decide)
  | uint64 => exact hvar 64 (by decide)
  | sint32 => exact hmap 32 _
  | sint64 => exact hmap 64 _
  | boolean => exact deserializeBool_nil M b hb hv
  | enumeration => exact hvar 32 (by decide)
  | fixed32 => exact hfix 32 (by decide)
  | sfixed32 => exact hfix 32 (by decide)
  | floatfixed => exact hfix 32 (by decide)
  | fixed64 => exact hfix 64 (by decide)
  | sfixed64 => exact hfix 64 (by decide)
  | doublefixed => exact hfix 64 (by decide)

end

theorem ScalarTy.Payload.ne_nil {s : ScalarTy} {bs : List Byte} {v : s.Val} (h : s.Payload bs v) :
    0 < bs.length := by
  cases s with
  | int32 => obtain ⟨n, hn, _⟩ := h; exact hn.1.length_pos
  | int64 => obtain ⟨n, hn, _⟩ := h; exact hn.1.length_pos
  | uint32 => obtain ⟨n, hn, _⟩ := h; exact hn.1.length_pos
  | uint64 => obtain ⟨n, hn, _⟩ := h; exact hn.1.length_pos
  | enumeration => obtain ⟨n, hn, _⟩ := h; exact hn.1.length_pos
  | sint32 => obtain ⟨n, hn, _⟩ := h; exact hn.1.length_pos
  | sint64 => exact h.1.length_pos
  | boolean => obtain ⟨n, hn, rfl, _⟩ := h; rw [varint_lt hn]; simp
  | fixed32 => have := h.1; omega
  | sfixed32 => have := h.1; omega
  | floatfixed => have := h.1; omega
  | fixed64 => have := h.1; omega
  | sfixed64 => have := h.1; omega
  | doublefixed => have := h.1; omega

/-- Elements of a packed field. -/
structure PackedElem (E : FieldClass) (S : ClassSpec E V) (P : List Byte → V → Prop) : Prop where
  packed : E.isPacked = true
  inv : ∀ x, S.Inv x
  clean : ∀ x, S.Clean x
  pos : ∀ bs v, P bs v → 0 < bs.length
  ok : ∀ (β : Type) [ReadBuffer β] (M : ReadModel β) (fuel : Nat) (b : β) (bs rest : List Byte)
    (x : E.State) (v : V), M.Inv b → M.view b = bs ++ rest → P bs v →
    (E.deserialize fuel b x).Post fun r => r.1 = .noErrors ∧ M.Inv r.2.1 ∧ M.view r.2.1 = rest ∧
      S.abs r.2.2 = v
  stop : ∀ (β : Type) [ReadBuffer β] (M : ReadModel β) (fuel : Nat) (b : β) (x : E.State),
    M.Inv b → M.view b = [] →
    (E.deserialize fuel b x).Post fun r => r.1 = .endOfBuffer ∧ M.Inv r.2.1 ∧ M.view r.2.1 = []
  assign : ∀ x y, E.assign x y = .ok y

theorem scalar_deserialize {β : Type} [ReadBuffer β] (M : ReadModel β) (s : ScalarTy) (b : β)
    (bs rest : List Byte) (x v : s.Val) (hb : M.Inv b) (hv : M.view b = bs ++ rest)
    (h : s.Payload bs v) :
    (s.deserialize b x).Post fun r => r.1 = .noErrors ∧ M.Inv r.2.1 ∧ M.view r.2.1 = rest ∧
      r.2.2 = v := by
  unfold ScalarTy.deserialize
  rw [Res.Post_bind]
  refine (scalar_decode M s b bs rest v hb hv h).mono ?_
  rintro ⟨p, b'⟩ ⟨h1, h2, h3⟩
  dsimp only at h1 h2 h3
  subst h1
  exact ⟨rfl, h2, h3, rfl⟩

theorem scalar_deserialize_nil {β : Type} [ReadBuffer β] (M : ReadModel β) (s : ScalarTy) (b : β)
    (x : s.Val) (hb : M.Inv b) (hv : M.view b = []) :
    (s.deserialize b x).Post fun r => r.1 = .endOfBuffer ∧ M.Inv r.2.1 ∧ M.view r.2.1 = [] := by
  unfold ScalarTy.deserialize
  rw [Res.Post_bind]
  refine (scalar_decode_nil M s b hb hv).mono ?_
  rintro ⟨p, b'⟩ ⟨h1, h2, h3⟩
  dsimp only at h1 h2 h3
  subst h1
  exact ⟨rfl, h2, h3⟩

theorem scalar_packedElem (s : ScalarTy) :
    PackedElem (scalarClass s) (scalarSpec s) (fun bs v => s.Payload bs v) where
  packed := rfl
  inv _ := trivial
  clean _ := trivial
  pos _ _ h := h.ne_nil
  ok β _ M fuel b bs rest x v hb hv h := scalar_deserialize M s b bs rest x v hb hv h
  stop β _ M fuel b x hb hv := by
    exact scalar_deserialize_nil M s b x hb hv
  assign _ _ := rfl

theorem scalar_decLaw (s : ScalarTy) :
    DecLaw (scalarClass s) (scalarSpec s) s.wire (fun bs _ v => s.Payload bs v) := by
  intro β _ M fuel b bs rest x v _ _ hb hv h _
  show (if s.wireType = s.wire then s.deserialize b x else _ : Res _).Post _
  rw [if_pos (ScalarTy.wireType_eq s)]
  refine (scalar_deserialize M s b bs rest x v hb hv h).mono ?_
  rintro r ⟨h1, h2, h3, h4⟩
  exact ⟨h1, h2, h3, trivial, trivial, h4⟩

/-! ## Strings and bytes -/

section
variable {β : Type} [ReadBuffer β]

/-- Reading when enough bytes are there. -/
theorem readLoop_ok (M : ReadModel β) (cap : Nat) (hc : cap < 4294967296) (bs rest : List Byte) (b : β)
    (x : StrObj) (hb : M.Inv b) (hv : M.view b = bs ++ rest) (hx : x.WF cap)
    (hl : x.len + bs.length ≤ cap) :
    (StrObj.readLoop bs.length b x).Post fun r => M.Inv r.1 ∧ M.view r.1 = rest ∧
      r.2.WF cap ∧ r.2.len = x.len + bs.length ∧ r.2.chars = x.chars ++ bs := by
  induction bs generalizing b x with
  | nil => exact ⟨hb, hv, hx, rfl, by simp⟩
  | cons y ys ih =>
    obtain ⟨b', hp, hb', hv'⟩ := M.pop_cons b y (ys ++ rest) hb hv
    simp only [List.length_cons] at hl ⊢
    obtain ⟨h1, h2⟩ := id hx
    simp only [StrObj.readLoop, hp, Res.ok_bind]
    rw [arraySet_of_lt (by omega), Res.ok_bind, u32_of_lt (by omega)]
    refine (ih b' ⟨x.len + 1, x.data.set x.len y⟩ hb' hv' ⟨by simpa using h1, by simp; omega⟩
      (by simp; omega)).mono ?_
    rintro r ⟨ha, hb, hc, hd, he⟩
    refine ⟨ha, hb, hc, by simp only at hd; omega, ?_⟩
    rw [he]
    simp only [StrObj.chars]
    rw [List.take_add_one, List.take_set_of_le (by omega)]
    simp [h1, show x.len < cap by omega]

/-- Reading in general. -/
theorem readLoop_total (M : ReadModel β) (cap : Nat) (hc : cap < 4294967296) (n : Nat) (b : β)
    (x : StrObj) (hb : M.Inv b) (hx : x.WF cap) (hl : x.len + n ≤ cap) :
    (StrObj.readLoop n b x).Post fun r => M.Inv r.1 ∧ r.2.WF cap ∧
      M.view r.1 = (M.view b).drop n ∧ r.2.len = x.len + min n (M.view b).length ∧
      r.2.chars = x.chars ++ (M.view b).take n := by
  by_cases h : n ≤ (M.view b).length
  · have := readLoop_ok M cap hc ((M.view b).take n) ((M.view b).drop n) b x hb
      (List.take_append_drop _ _).symm hx (by simp; omega)
    rw [List.length_take, Nat.min_eq_left h] at this
    refine this.mono ?_
    rintro r ⟨h1, h2, h3, h4, h5⟩
    exact ⟨h1, h3, h2, by omega, h5⟩
  · have key : ∀ (bs : List Byte) (m : Nat) (b : β) (x : StrObj), M.Inv b → M.view b = bs → x.WF cap →
        x.len + bs.length ≤ cap → (StrObj.readLoop (bs.length + 1 + m) b x).Post fun r =>
        M.Inv r.1 ∧ r.2.WF cap ∧ M.view r.1 = [] ∧ r.2.len = x.len + bs.length ∧
        r.2.chars = x.chars ++ bs := by
      intro bs
      induction bs with
      | nil =>
        intro m b x hb hv hx _
        obtain ⟨b', hp, hb', hv'⟩ := M.pop_nil b hb hv
        rw [show ([] : List Byte).length + 1 + m = m + 1 by simp; omega]
        simp only [StrObj.readLoop, hp, Res.ok_bind]
        exact ⟨hb', hx, hv', rfl, by simp⟩
      | cons y ys ih =>
        intro m b x hb hv hx hl
        obtain ⟨b', hp, hb', hv'⟩ := M.pop_cons b y ys hb hv
        obtain ⟨h1, h2⟩ := id hx
        simp only [List.length_cons] at hl ⊢
        rw [show ys.length + 1 + 1 + m = (ys.length + 1 + m) + 1 by omega]
        simp only [StrObj.readLoop, hp, Res.ok_bind]
        rw [arraySet_of_lt (by omega), Res.ok_bind, u32_of_lt (by omega)]
        refine (ih m b' ⟨x.len + 1, x.data.set x.len y⟩ hb' hv' ⟨by simpa using h1, by simp; omega⟩
          (by simp; omega)).mono ?_
        rintro r ⟨ha, hb, hc, hd, he⟩
        refine ⟨ha, hb, hc, by simp only at hd; omega, ?_⟩
        rw [he]
        simp only [StrObj.chars]
        rw [List.take_add_one, List.take_set_of_le (by omega)]
        simp [h1, show x.len < cap by omega]
    have := key (M.view b) (n - (M.view b).length - 1) b x hb rfl hx (by omega)
    rw [show (M.view b).length + 1 + (n - (M.view b).length - 1) = n by omega] at this
    refine this.mono ?_
    rintro r ⟨h1, h2, h3, h4, h5⟩
    exact ⟨h1, h2, by rw [h3, List.drop_of_length_le (by omega)], by omega,
      by rw [h5, List.take_of_length_le (by omega)]⟩

end

theorem StrObj.clear_wf (cap : Nat) (x : StrObj) : (x.clear cap).WF cap := by
  simp [StrObj.clear, StrObj.WF]

theorem StrObj.clear_chars (cap : Nat) (x : StrObj) : (x.clear cap).chars = [] := by
  simp [StrObj.clear, StrObj.chars]

theorem str_deserialize {β : Type} [ReadBuffer β] (M : ReadModel β) (cap : Nat) (hc : cap < 2147483648)
    (b : β) (bs rest v : List Byte) (x : StrObj) (hb : M.Inv b) (hv : M.view b = bs ++ rest)
    (h : Delimited bs v) (hl : v.length ≤ cap) :
    (StrObj.deserialize cap b x).Post fun r =>
      r.1 = .noErrors ∧ M.Inv r.2.1 ∧ M.view r.2.1 = rest ∧ r.2.2.WF cap ∧ r.2.2.chars = v := by
  obtain ⟨p, hp, rfl⟩ := h
  unfold StrObj.deserialize
  rw [Res.Post_bind]
  rw [List.append_assoc] at hv
  refine (varint_dec M 32 p (v ++ rest) _ hp b hb hv).mono ?_
  rintro ⟨r, b'⟩ ⟨h1, h2, h3⟩
  dsimp only at h1 h2 h3
  subst h1
  dsimp only
  rw [ofNat32_toNat (by omega), if_pos hl, Res.Post_bind]
  refine (readLoop_ok M cap (by omega) v rest b' (x.clear cap) h2 h3 (x.clear_wf cap) (by
    simp [StrObj.clear]; omega)).mono ?_
  rintro ⟨b'', x'⟩ ⟨h4, h5, h6, h7, h8⟩
  dsimp only at h4 h5 h6 h7 h8
  have h7 : x'.len = v.length := by rw [h7]; simp [StrObj.clear]
  rw [if_neg (by simp [h7])]
  refine ⟨rfl, h4, h5, h6, ?_⟩
  rw [StrObj.clear_chars] at h8
  exact h8

theorem str_decLaw (cap : Nat) (hc : cap < 2147483648) :
    DecLaw (strClass cap) (strSpec cap) .lengthDelimited
      (fun bs _ v => Delimited bs v ∧ v.length ≤ cap) := by
  intro β _ M fuel b bs rest x v _ _ hb hv h _
  refine (str_deserialize M cap hc b bs rest v x hb hv h.1 h.2).mono ?_
  rintro r ⟨h1, h2, h3, h4, h5⟩
  exact ⟨h1, h2, h3, h4, trivial, h5⟩

end EP
