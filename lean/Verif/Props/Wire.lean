import Verif.Props.Support
import Verif.Proof.WireExtra
import Verif.Proof.EncScalar
import Verif.Proof.DecScalar

/-!
# Properties of the wire format functions: C01–C07, C37, C41
-/

namespace EP
open Spec

variable {ω β : Type} [WriteBuffer ω] [ReadBuffer β]

/-! ## C01 -/

/-- **C01**.  What a successful varint serialization appends, followed by anything, is read back by
the varint deserialization of the same width as the same value, and exactly these bytes are
consumed. -/
theorem C01_varint_roundtrip (W : WriteModel ω) (M : ReadModel β) (w : Nat) (hw : w = 32 ∨ w = 64)
    (v : BitVec w) (o o' : ω) (c : List Byte) (room : Nat) (ho : W.Rep o c room)
    (hs : serializeVarint v o = .ok (.noErrors, o')) :
    ∃ bs, W.Rep o' (c ++ bs) (room - bs.length) ∧ ∀ (b : β) (rest : List Byte), M.Inv b →
      M.view b = bs ++ rest →
      ∃ b', deserializeVarint w b = .ok (.ok v, b') ∧ M.Inv b' ∧ M.view b' = rest := by
  have ha := (serializeVarint_appends W (by omega : 8 ≤ w) v o ho).weaken
  rw [Appends, hs] at ha
  refine ⟨varint v.toNat, ?_, ?_⟩
  · rcases ha with ⟨_, h⟩ | ⟨h, _⟩
    · exact h
    · exact nomatch h
  · intro b rest hb hv
    obtain ⟨⟨r, b'⟩, h1, h2, h3, h4⟩ :=
      (deserializeVarint_varint M w (by omega) v.toNat v.isLt rest b hb hv).exists
    refine ⟨b', ?_, h3, h4⟩
    rw [h1]
    dsimp only at h2
    rw [h2, BitVec.ofNat_toNat, BitVec.setWidth_eq]

/-- The hypotheses of C01 are met: 300 is written to a new 16 byte buffer. -/
example : ∃ o', serializeVarint (300 : BitVec 32) (WriteFixed.new 16) = .ok (.noErrors, o') ∧
    o'.bytes = [0xAC, 0x02] := ⟨_, rfl, rfl⟩

/-! ## C02 -/

/-- **C02**.  Serialization of a varint appends exactly the base-128 groups of the value — all bytes
but the last carry the continuation bit, at most 5 / 10 bytes, no redundant group, and no other
encoding is shorter — or reports `BUFFER_FULL` having appended a proper prefix, which only happens
when there is not enough room. -/
theorem C02_varint_canonical (W : WriteModel ω) (w : Nat) (hw : w = 32 ∨ w = 64)
    (v : BitVec w) (o : ω) (c : List Byte) (room : Nat) (ho : W.Rep o c room) :
    Appends W c room (varint v.toNat) (serializeVarint v o) ∧
    IsVarint (if w = 32 then 5 else 10) (varint v.toNat) ∧
    groups (varint v.toNat) = v.toNat ∧
    ¬ Redundant (varint v.toNat) ∧
    ∀ k bs, IsVarint k bs → groups bs = v.toNat → (varint v.toNat).length ≤ bs.length := by
  refine ⟨(serializeVarint_appends W (by omega) v o ho).weaken, ?_, groups_varint _, ?_, ?_⟩
  · have := isVarint_varint_of_lt w v.toNat (by omega) v.isLt
    rcases hw with rfl | rfl
    · simpa [maxVarint] using this
    · simpa [maxVarint] using this
  · exact varint_not_redundant v.toNat
  · exact fun k bs h hg => varint_shortest k bs h _ hg

example : varint 300 = [0xAC, 0x02] := by decide +kernel
example : IsVarint 5 [0x80, 0x00] ∧ Redundant [0x80, 0x00] := by simp [IsVarint, Redundant, cont]

/-! ## C03 -/

/-- **C03**.  ZigZag maps `n ≥ 0` to `2n`, `n < 0` to `-2n-1`; encode and decode are inverse. -/
theorem C03_zigzag_bijection (w : Nat) (hw : w = 32 ∨ w = 64) :
    (∀ n : BitVec w, ((zigZagEncode n).toNat : Int) =
      if 0 ≤ n.toInt then 2 * n.toInt else -2 * n.toInt - 1) ∧
    (∀ n : BitVec w, zigZagDecode (zigZagEncode n) = n) ∧
    (∀ n : BitVec w, zigZagEncode (zigZagDecode n) = n) := by
  refine ⟨fun n => ?_, zigZag_decode_encode (by omega), zigZag_encode_decode (by omega)⟩
  rw [zigZagEncode_spec (by omega), zigzag]
  split <;> omega

example : zigZagEncode (-2147483648 : BitVec 32) = 4294967295 ∧
    zigZagDecode (4294967294 : BitVec 32) = 2147483647 := by decide +kernel

/-! ## C04 -/

/-- **C04**.  A 32 / 64 bit pattern (`fixed`, `sfixed`, `float`, `double`) is appended as its 4 / 8
bytes, least significant first; these bytes followed by anything are read back as the same bit
pattern and exactly they are consumed.  Reading from fewer bytes is `END_OF_BUFFER`. -/
theorem C04_fixed_roundtrip (W : WriteModel ω) (M : ReadModel β) (w : Nat) (hw : w = 32 ∨ w = 64)
    (v : BitVec w) :
    (∀ (o : ω) (c : List Byte) (room : Nat), W.Rep o c room →
      Appends W c room (littleEndian (w / 8) v.toNat) (serializeFixed v o)) ∧
    (∀ i, i < w / 8 → (littleEndian (w / 8) v.toNat)[i]? = some ((v >>> (8 * i)).setWidth 8)) ∧
    (∀ (b : β) (rest : List Byte), M.Inv b → M.view b = littleEndian (w / 8) v.toNat ++ rest →
      ∃ b', deserializeFixed w b = .ok (.ok v, b') ∧ M.Inv b' ∧ M.view b' = rest) ∧
    (∀ b : β, M.Inv b → (M.view b).length < w / 8 →
      ∃ b', deserializeFixed w b = .ok (.error .endOfBuffer, b') ∧ M.Inv b' ∧ M.view b' = []) := by
  refine ⟨fun o c room ho => (serializeFixed_appends W (by omega) v o ho).weaken, ?_, ?_, ?_⟩
  · intro i hi
    rw [littleEndian_getElem _ _ _ hi]
    congr 1
    apply BitVec.eq_of_toNat_eq
    simp [Nat.shiftRight_eq_div_pow, Nat.pow_mul]
  · intro b rest hb hv
    obtain ⟨⟨r, b'⟩, h1, h2, h3⟩ :=
      (deserializeFixed_littleEndian M w (by omega) v rest b hb hv).exists
    dsimp only at h2 h3
    exact ⟨b', by rw [h1, h2], h3⟩
  · intro b hb hl
    obtain ⟨⟨r, b'⟩, h1, h2, h3⟩ := (deserializeFixed_short M w b hb hl).exists
    dsimp only at h2 h3
    exact ⟨b', by rw [h1, h2], h3⟩

/-- A signalling NaN and `-0.0` as `float`. -/
example : (serializeFixed (0x7F800001 : BitVec 32) (WriteFixed.new 8)).get?.map (fun r => (r.1, r.2.bytes)) =
    some (.noErrors, [0x01, 0x00, 0x80, 0x7F]) := by decide +kernel

/-! ## C05 -/

/-- **C05**.  A tag that was written is read back as the same field number and wire type, and two
different pairs never give the same bytes. -/
theorem C05_tag_roundtrip (W : WriteModel ω) (M : ReadModel β) (num : Nat) (t : WireType)
    (hn : num < 536870912) :
    (∀ (o : ω) (c : List Byte) (room : Nat), W.Rep o c room →
      Appends W c room (tag num t) (serializeVarint (makeTag num t) o)) ∧
    (∀ (b : β) (rest : List Byte), M.Inv b → M.view b = tag num t ++ rest →
      ∃ b', deserializeTag b = .ok (.ok (t, num), b') ∧ M.Inv b' ∧ M.view b' = rest) ∧
    (∀ num' t', tag num t = tag num' t' → num = num' ∧ t = t') ∧
    (∀ num' t', num' < 536870912 → makeTag num t = makeTag num' t' → num = num' ∧ t = t') := by
  refine ⟨fun o c room ho => (serializeTag_appends W num t hn o ho).weaken, ?_, fun _ _ h => tag_inj h, ?_⟩
  · intro b rest hb hv
    obtain ⟨⟨r, b'⟩, h1, h2, h3⟩ := (deserializeTag_tag M num t hn rest b hb hv).exists
    dsimp only at h2 h3
    exact ⟨b', by rw [h1, h2], h3⟩
  · intro num' t' hn' h
    apply tag_inj
    unfold tag
    rw [← makeTag_toNat num t hn, ← makeTag_toNat num' t' hn', h]

example : tag 536870911 .fixed32 = [0xFD, 0xFF, 0xFF, 0xFF, 0x0F] := by decide +kernel

/-! ## C06 -/

/-- **C06**.  Decoding a varint from any bytes, complete classification.  `v` are the unread bytes
and `K` is 5 or 10. -/
theorem C06_varint_classified (M : ReadModel β) (w : Nat) (hw : w = 32 ∨ w = 64) (K : Nat)
    (hK : K = if w = 32 then 5 else 10) (b : β) (hb : M.Inv b) :
    ∃ r b' k, deserializeVarint w b = .ok (r, b') ∧ M.Inv b' ∧
      k ≤ K ∧ k ≤ (M.view b).length ∧ M.view b' = (M.view b).drop k ∧
      (∀ x, r = .ok x ↔ ∃ bs rest, M.view b = bs ++ rest ∧ IsVarint K bs ∧ x = BitVec.ofNat w (groups bs)) ∧
      (∀ x, r = .ok x → IsVarint K ((M.view b).take k)) ∧
      (r = .error .endOfBuffer ↔ (∀ x ∈ M.view b, cont x = true) ∧ (M.view b).length < K) ∧
      (r = .error .overlongVarint ↔ (∀ x ∈ (M.view b).take K, cont x = true) ∧ K ≤ (M.view b).length) ∧
      (∀ e, r = .error e → e = .endOfBuffer ∨ e = .overlongVarint) := by
  have hK' : K = maxVarint w := by
    rcases hw with rfl | rfl <;> simp [hK, maxVarint]
  subst hK'
  have hw0 : 0 < w := by omega
  rcases varint_cases (maxVarint w) (M.view b) with ⟨bs, rest, hv, h⟩ | ⟨h, hl⟩ | ⟨bs, rest, hv, h, hl⟩
  · obtain ⟨⟨r, b'⟩, h1, h2, h3, h4⟩ := (deserializeVarint_ok M w bs rest h b hb hv).exists
    dsimp only at h2 h3 h4
    subst h2
    have hnot : ¬ AllCont bs := h.not_allCont
    refine ⟨_, b', bs.length, h1, h3, h.length_le, by simp [hv], by rw [h4, hv, List.drop_left' rfl], ?_, ?_, ?_, ?_,
      nofun⟩
    · intro x
      constructor
      · intro hx
        injection hx with hx
        exact ⟨bs, rest, hv, h, hx.symm⟩
      · rintro ⟨bs', rest', hv', h', rfl⟩
        rw [hv] at hv'
        rw [(h.unique h' hv').1]
    · intro x hx
      rw [hv, List.take_left' rfl]
      exact h
    · refine ⟨nofun, fun hc => absurd (fun x hx => hc.1 x ?_) hnot⟩
      rw [hv]; simp [hx]
    · refine ⟨nofun, fun hc => absurd (fun x hx => hc.1 x ?_) hnot⟩
      rw [hv, List.take_append, List.take_of_length_le h.length_le]
      simp [hx]
  · obtain ⟨⟨r, b'⟩, h1, h2, h3, h4⟩ := (deserializeVarint_short M w _ h hl b hb rfl).exists
    dsimp only at h2 h3 h4
    subst h2
    refine ⟨_, b', (M.view b).length, h1, h3, by omega, Nat.le_refl _, by rw [h4, List.drop_length], ?_, nofun,
      ⟨fun _ => ⟨h, hl⟩, fun _ => rfl⟩, ⟨nofun, fun hc => by omega⟩, ?_⟩
    · intro x
      refine ⟨nofun, ?_⟩
      rintro ⟨bs', rest', hv', h', _⟩
      exact absurd (fun x hx => h x (by rw [hv']; simp [hx])) h'.not_allCont
    · rintro e ⟨⟩; exact Or.inl rfl
  · obtain ⟨⟨r, b'⟩, h1, h2, h3, h4⟩ := (deserializeVarint_long M w hw0 bs rest h hl b hb hv).exists
    dsimp only at h2 h3 h4
    subst h2
    have hlen : (M.view b).length = bs.length + rest.length := by rw [hv]; simp
    refine ⟨_, b', bs.length, h1, h3, by omega, by omega, by rw [h4, hv, List.drop_left' rfl], ?_, nofun,
      ⟨nofun, fun hc => by omega⟩, ⟨fun _ => ⟨?_, by omega⟩, fun _ => rfl⟩, ?_⟩
    · intro x
      refine ⟨nofun, ?_⟩
      rintro ⟨bs', rest', hv', h', _⟩
      have hpre : bs' <+: bs := by
        have hle := h'.length_le
        rw [hv] at hv'
        exact List.prefix_of_prefix_length_le (List.prefix_append bs' rest') (hv' ▸ List.prefix_append bs rest)
          (by omega)
      exact absurd (fun x hx => h x (hpre.subset hx)) h'.not_allCont
    · rw [hv, List.take_left' hl]; exact h
    · rintro e ⟨⟩; exact Or.inr rfl

/-- All three outcomes occur. -/
example : (deserializeVarint 32 (ReadFixed.holding 8 [0xFF, 0xFF, 0xFF, 0xFF, 0xFF, 1])).get?.map (·.1) =
      some (.error .overlongVarint) ∧
    (deserializeVarint 32 (ReadFixed.holding 8 [0xFF, 0xFF])).get?.map (·.1) = some (.error .endOfBuffer) ∧
    (deserializeVarint 32 (ReadFixed.holding 8 [0xFF, 0xFF, 0xFF, 0xFF, 0x7F, 1])).get?.map (·.1) =
      some (.ok 0xFFFFFFFF) := ⟨rfl, rfl, rfl⟩

/-! ## C07 -/

/-- **C07**.  For every scalar field type and value: what a successful `serialize` appends, followed
by anything, is deserialized by the same field type to the same value, whatever it held before, and
exactly these bytes are consumed; `serialize` fails only when there is not enough room. -/
theorem C07_scalar_roundtrip (W : WriteModel ω) (M : ReadModel β) (s : ScalarTy) (v : s.Val) (o : ω)
    (c : List Byte) (room : Nat) (ho : W.Rep o c room) :
    ∃ bs, bs ≠ [] ∧ bs.length ≤ 10 ∧ Appends W c room bs ((scalarClass s).serialize v o) ∧
      ∀ (fuel : Nat) (b : β) (rest : List Byte) (old : s.Val), M.Inv b → M.view b = bs ++ rest →
      ∃ b', (scalarClass s).deserialize fuel b old = .ok (.noErrors, b', v) ∧ M.Inv b' ∧ M.view b' = rest := by
  refine ⟨s.enc v, scalar_enc_ne_nil s v, scalar_enc_length s v, (ScalarTy.serialize_appends W s v o ho).weaken, ?_⟩
  intro fuel b rest old hb hv
  obtain ⟨⟨r, b'⟩, h1, h2, h3⟩ := (scalar_decode M s b _ rest v hb hv (ScalarTy.payload_enc s v)).exists
  dsimp only at h2 h3
  subst h2
  refine ⟨b', ?_, h3⟩
  show s.deserialize b old = _
  unfold ScalarTy.deserialize
  rw [h1]
  rfl

example : (ScalarTy.sint32.serialize (-1 : BitVec 32) (WriteFixed.new 8)).get?.map (fun r => (r.1, r.2.bytes)) =
    some (.noErrors, [0x01]) := by decide +kernel

/-! ## C37 -/

/-- **C37** (full statement): a bool field accepts any varint. -/
def C37_Statement : Prop :=
  ∀ (β : Type) [ReadBuffer β] (M : ReadModel β) (b : β) (bs rest : List Byte), M.Inv b →
    M.view b = bs ++ rest → IsVarint 10 bs →
    ∃ b', deserializeBool b = .ok (.ok (decide (groups bs ≠ 0)), b') ∧ M.Inv b' ∧ M.view b' = rest

/-- **C37 is false**: the two byte varint `80 00` of 0 is read as `true` and its second byte is left
in the buffer. -/
theorem C37_false : ¬ C37_Statement := by
  intro h
  obtain ⟨b', h1, _⟩ := h ReadFixed (ReadFixed.model 4 (by decide)) (ReadFixed.holding 4 [0x80, 0x00])
    [0x80, 0x00] [] (ReadFixed.holding_inv _ _ _ (by decide)) (ReadFixed.holding_view _ _ _) (by
      simp [IsVarint, cont])
  have h2 : deserializeBool (ReadFixed.holding 4 [0x80, 0x00]) =
      .ok (.ok true, ⟨4, [0x80, 0x00, 0, 0], 2, 1⟩) := rfl
  rw [h2] at h1
  injection h1 with h1
  have := congrArg Prod.fst h1
  exact absurd this (by simp [groups])

/-- **C37**, the part that holds: varints of one byte (all that conforming encoders write). -/
theorem C37_bool_varint_partial (M : ReadModel β) (b : β) (x : Byte) (rest : List Byte) (hb : M.Inv b)
    (hv : M.view b = x :: rest) (hx : IsVarint 1 [x]) :
    ∃ b', deserializeBool b = .ok (.ok (decide (groups [x] ≠ 0)), b') ∧ M.Inv b' ∧ M.view b' = rest := by
  obtain ⟨⟨r, b'⟩, h1, h2, h3⟩ := (deserializeBool_cons M x rest b hb hv).exists
  dsimp only at h2 h3
  refine ⟨b', ?_, h3⟩
  rw [h1, h2]
  congr 3
  revert hx
  revert x
  have : ∀ x : BitVec 8, cont x = false → (x != 0) = decide (groups [x] ≠ 0) := by decide +kernel
  intro x _ _ hx
  apply this
  simpa [IsVarint] using hx

/-- **C37**, exactly: a varint is read as it should be if and only if it has one byte.  Of a longer one,
whatever its value, the first byte is read, as `true`, and the others stay in the buffer. -/
theorem C37_bool_iff (M : ReadModel β) (b : β) (bs rest : List Byte) (hb : M.Inv b)
    (hv : M.view b = bs ++ rest) (hx : IsVarint 10 bs) :
    ((∃ b', deserializeBool b = .ok (.ok (decide (groups bs ≠ 0)), b') ∧ M.Inv b' ∧ M.view b' = rest) ↔
      bs.length = 1) ∧
    (bs.length ≠ 1 → ∃ b', deserializeBool b = .ok (.ok true, b') ∧ M.Inv b' ∧ M.view b' = bs.tail ++ rest) := by
  cases bs with
  | nil => exact absurd hx (by simp [IsVarint])
  | cons x tl =>
    have hp := deserializeBool_cons M x (tl ++ rest) b hb hv
    obtain ⟨⟨r, b1⟩, h1, h2, h3, h4⟩ := hp.exists
    dsimp only at h2 h3 h4
    refine ⟨⟨?_, ?_⟩, ?_⟩
    · rintro ⟨b', h5, _, h6⟩
      rw [h1] at h5
      injection h5 with h5
      have h5 : b1 = b' := congrArg Prod.snd h5
      rw [← h5, h4] at h6
      have := congrArg List.length h6
      rw [List.length_append] at this
      show tl.length + 1 = 1
      omega
    · intro hl
      have htl : tl = [] := List.length_eq_zero_iff.mp (by have hl : tl.length + 1 = 1 := hl; omega)
      subst htl
      refine C37_bool_varint_partial M b x rest hb hv ?_
      have hx : (if cont x then IsVarint 9 [] else ([] : List Byte) = []) := hx
      show (if cont x then IsVarint 0 [] else ([] : List Byte) = [])
      split
      · rename_i hc; rw [if_pos hc] at hx; exact hx.elim
      · rfl
    · intro hl
      refine ⟨b1, ?_, h3, h4⟩
      rw [h1, h2]
      have hc : cont x = true := by
        have hx : (if cont x then IsVarint 9 tl else tl = []) := hx
        cases hc : cont x with
        | true => rfl
        | false => rw [hc] at hx; exact absurd (by rw [show tl = [] from hx]; rfl) hl
      congr 3
      revert hc
      have : ∀ x : BitVec 8, cont x = true → (x != 0) = true := by decide +kernel
      exact this x

example : IsVarint 1 [0x02] := by simp [IsVarint, cont]
example : IsVarint 10 [0x80, 0x80, 0x00] := by simp [IsVarint, cont]

/-! ## C41 -/

/-- **C41**.  `int32` accepts both the 10-byte sign extended form and the 5-byte form of negative
values, `int64` the 10-byte form; the form is consumed exactly. -/
theorem C41_int_forms (M : ReadModel β) :
    (∀ (v : BitVec 32) (b : β) (rest : List Byte), M.Inv b →
      M.view b = varint (v.signExtend 64).toNat ++ rest →
      ∃ b', ScalarTy.int32.decode b = .ok (.ok v, b') ∧ M.Inv b' ∧ M.view b' = rest) ∧
    (∀ (v : BitVec 32) (b : β) (rest : List Byte), M.Inv b → M.view b = varint v.toNat ++ rest →
      ∃ b', ScalarTy.int32.decode b = .ok (.ok v, b') ∧ M.Inv b' ∧ M.view b' = rest) ∧
    (∀ (v : BitVec 64) (b : β) (rest : List Byte), M.Inv b → M.view b = varint v.toNat ++ rest →
      ∃ b', ScalarTy.int64.decode b = .ok (.ok v, b') ∧ M.Inv b' ∧ M.view b' = rest) ∧
    (∀ v : BitVec 32, v.toInt < 0 → (varint (v.signExtend 64).toNat).length = 10 ∧
      (varint v.toNat).length = 5) := by
  have dec : ∀ (s : ScalarTy) (bs : List Byte) (v : s.Val) (b : β) (rest : List Byte), M.Inv b →
      M.view b = bs ++ rest → s.Payload bs v →
      ∃ b', s.decode b = .ok (.ok v, b') ∧ M.Inv b' ∧ M.view b' = rest := by
    intro s bs v b rest hb hv hp
    obtain ⟨⟨r, b'⟩, h1, h2, h3⟩ := (scalar_decode M s b bs rest v hb hv hp).exists
    dsimp only at h2 h3
    exact ⟨b', by rw [h1, h2], h3⟩
  refine ⟨fun v b rest hb hv => dec .int32 _ v b rest hb hv (payload_signExtend v),
    fun v b rest hb hv => dec .int32 _ v b rest hb hv (ScalarTy.payload_enc .int32 v),
    fun v b rest hb hv => dec .int64 _ v b rest hb hv (ScalarTy.payload_enc .int64 v), ?_⟩
  intro v hv
  have h1 : 2147483648 ≤ v.toNat := by
    rw [BitVec.toInt_eq_toNat_cond] at hv; split at hv <;> omega
  refine ⟨varint_length_eq 9 _ ?_ ?_, varint_length_eq 4 _ (by omega) (by have := v.isLt; omega)⟩
  · rw [signExtend_neg_toNat v h1]; omega
  · have := (v.signExtend 64).isLt; omega

example : varint ((-2 : BitVec 32).signExtend 64).toNat =
    [0xFE, 0xFF, 0xFF, 0xFF, 0xFF, 0xFF, 0xFF, 0xFF, 0xFF, 0x01] := by decide +kernel

end EP
