import Verif.Spec.Parse
import Verif.Proof.DecMessage

/-!
# Read buffers as positions in a list of bytes

`Cursor` is the part of the contract of a read buffer that the reference decoder relies on.  Unlike
`ReadModel` it can say where the parent of a section is after the section was read, also if the
section is longer than the data.
-/

namespace EP
open Spec

/-- `At b bs`: the unread bytes are `bs`.  With `clip`, advancing too far stops at the end. -/
structure Cursor (β : Type) [ReadBuffer β] where
  At : β → List Byte → Prop
  clip : Bool
  lt : ∀ b bs, At b bs → bs.length < 4294967296
  size_ge : ∀ b bs, At b bs → bs.length ≤ ReadBuffer.getSize b
  size_lt : ∀ b bs, At b bs → ReadBuffer.getSize b < 4294967296
  pop_nil : ∀ b, At b [] → ∃ b', ReadBuffer.pop b = .ok (none, b') ∧ At b' []
  pop_cons : ∀ b x xs, At b (x :: xs) → ∃ b', ReadBuffer.pop b = .ok (some x, b') ∧ At b' xs
  advance_le : ∀ b bs n, At b bs → n ≤ bs.length →
    ∃ r b', ReadBuffer.advanceN b n = .ok (r, b') ∧ At b' (bs.drop n)
  advance_gt : clip = true → ∀ b bs n, At b bs → bs.length < n → n < 4294967296 →
    ∃ r b', ReadBuffer.advanceN b n = .ok (r, b') ∧ At b' []

/-- Any buffer that keeps the contract. -/
def ReadModel.cursor {β : Type} [ReadBuffer β] (M : ReadModel β) : Cursor β where
  At b bs := M.Inv b ∧ M.view b = bs
  clip := false
  lt b bs h := h.2 ▸ M.view_lt b h.1
  size_ge b bs h := h.2 ▸ M.getSize_ge b h.1
  size_lt b bs h := M.getSize_lt b h.1
  pop_nil b h := by
    obtain ⟨b', h1, h2, h3⟩ := M.pop_nil b h.1 h.2
    exact ⟨b', h1, h2, h3⟩
  pop_cons b x xs h := by
    obtain ⟨b', h1, h2, h3⟩ := M.pop_cons b x xs h.1 h.2
    exact ⟨b', h1, h2, h3⟩
  advance_le b bs n h hn := by
    obtain ⟨h, rfl⟩ := h
    obtain ⟨r, b', h1, h2, h3⟩ := M.advanceN_le b n h hn
    exact ⟨r, b', h1, h2, h3⟩
  advance_gt h := nomatch h

section
variable {β : Type} [ReadBuffer β] (K : Cursor β)

/-- A section that ends before the data does; `tail` follows it. -/
def Cursor.inside (tail : List Byte) : Cursor (Section β) where
  At s bs := K.At s.buffer (bs ++ tail) ∧ s.size = bs.length
  clip := true
  lt s bs h := by have := K.lt _ _ h.1; simp at this; omega
  size_ge s bs h := Nat.le_of_eq h.2.symm
  size_lt s bs h := by
    have := K.lt _ _ h.1
    have := h.2
    show s.size < _
    simp at *
    omega
  pop_nil s h := by
    refine ⟨s, ?_, h⟩
    have h2 : s.size = 0 := h.2
    show Section.pop s = _
    unfold Section.pop
    rw [if_neg (by omega)]
    rfl
  pop_cons s x xs h := by
    obtain ⟨h1, h2⟩ := h
    have hl := K.lt _ _ h1
    simp only [List.length_cons, List.length_append] at h2 hl
    obtain ⟨b', e, h3⟩ := K.pop_cons _ _ _ h1
    refine ⟨{ s with buffer := b', size := u32sub s.size 1 }, ?_, h3, ?_⟩
    · show Section.pop s = _
      unfold Section.pop
      rw [if_pos (by omega), e]
      rfl
    · show u32sub s.size 1 = _
      rw [u32sub_of_le (by omega) (by omega)]
      omega
  advance_le s bs n h hn := by
    obtain ⟨h1, h2⟩ := h
    have hl := K.lt _ _ h1
    simp only [List.length_append] at hl
    show ∃ r b', Section.advanceN s n = _ ∧ _
    unfold Section.advanceN
    by_cases h0 : 0 < s.size
    · rw [if_pos h0, if_pos (by omega)]
      obtain ⟨r, b', e, h3⟩ := K.advance_le _ _ n h1 (by simp; omega)
      dsimp only
      rw [e]
      refine ⟨r, _, rfl, ?_, ?_⟩
      · rw [List.drop_append_of_le_length hn] at h3
        exact h3
      · show u32sub s.size n = _
        rw [u32sub_of_le (by omega) (by omega), List.length_drop]
        omega
    · rw [if_neg h0]
      have hn0 : n = 0 := by omega
      subst hn0
      exact ⟨_, _, rfl, h1, h2⟩
  advance_gt _ s bs n h hn _ := by
    obtain ⟨h1, h2⟩ := h
    have hl := K.lt _ _ h1
    simp only [List.length_append] at hl
    show ∃ r b', Section.advanceN s n = _ ∧ _
    unfold Section.advanceN
    by_cases h0 : 0 < s.size
    · rw [if_pos h0, if_neg (by omega)]
      obtain ⟨r, b', e, h3⟩ := K.advance_le _ _ s.size h1 (by simp; omega)
      dsimp only
      rw [e]
      refine ⟨r, _, rfl, ?_, ?_⟩
      · rw [h2, List.drop_left' rfl] at h3
        exact h3
      · show u32sub s.size s.size = _
        rw [u32sub_of_le (by omega) (by omega)]
        simp
    · rw [if_neg h0]
      have : bs = [] := List.eq_nil_of_length_eq_zero (by omega)
      subst this
      exact ⟨_, _, rfl, h1, h2⟩

/-- A section that is longer than the data. -/
def Cursor.beyond : Cursor (Section β) where
  At s bs := K.At s.buffer bs ∧ bs.length ≤ s.size ∧ s.size < 4294967296
  clip := K.clip
  lt s bs h := K.lt _ _ h.1
  size_ge s bs h := h.2.1
  size_lt s bs h := h.2.2
  pop_nil s h := by
    obtain ⟨h1, h2, h3⟩ := h
    show ∃ b', Section.pop s = _ ∧ _
    unfold Section.pop
    by_cases h0 : 0 < s.size
    · obtain ⟨b', e, h4⟩ := K.pop_nil _ h1
      rw [if_pos h0, e]
      refine ⟨_, rfl, h4, Nat.zero_le _, ?_⟩
      show u32sub s.size 1 < _
      rw [u32sub_of_le (by omega) (by omega)]
      omega
    · rw [if_neg h0]
      exact ⟨_, rfl, h1, h2, h3⟩
  pop_cons s x xs h := by
    obtain ⟨h1, h2, h3⟩ := h
    simp only [List.length_cons] at h2
    obtain ⟨b', e, h4⟩ := K.pop_cons _ _ _ h1
    show ∃ b', Section.pop s = _ ∧ _
    unfold Section.pop
    rw [if_pos (by omega), e]
    have : u32sub s.size 1 = s.size - 1 := u32sub_of_le (by omega) (by omega)
    refine ⟨_, rfl, h4, ?_, ?_⟩
    · show _ ≤ u32sub s.size 1
      omega
    · show u32sub s.size 1 < _
      omega
  advance_le s bs n h hn := by
    obtain ⟨h1, h2, h3⟩ := h
    show ∃ r b', Section.advanceN s n = _ ∧ _
    unfold Section.advanceN
    by_cases h0 : 0 < s.size
    · rw [if_pos h0, if_pos (by omega)]
      obtain ⟨r, b', e, h4⟩ := K.advance_le _ _ n h1 hn
      dsimp only
      rw [e]
      have : u32sub s.size n = s.size - n := u32sub_of_le (by omega) (by omega)
      refine ⟨r, _, rfl, h4, ?_, ?_⟩
      · show _ ≤ u32sub s.size n
        rw [List.length_drop]
        omega
      · show u32sub s.size n < _
        omega
    · rw [if_neg h0]
      have hn0 : n = 0 := by omega
      subst hn0
      exact ⟨_, _, rfl, h1, h2, h3⟩
  advance_gt hc s bs n h hn hlt := by
    obtain ⟨h1, h2, h3⟩ := h
    show ∃ r b', Section.advanceN s n = _ ∧ _
    unfold Section.advanceN
    by_cases h0 : 0 < s.size
    · rw [if_pos h0]
      dsimp only
      generalize hk : (if n ≤ s.size then n else s.size) = k
      have hk' : k ≤ s.size ∧ bs.length ≤ k ∧ k < 4294967296 := by
        rw [← hk]; split <;> omega
      have : u32sub s.size k = s.size - k := u32sub_of_le (by omega) (by omega)
      have key : ∃ r b', ReadBuffer.advanceN s.buffer k = .ok (r, b') ∧ K.At b' [] := by
        by_cases hkl : k = bs.length
        · obtain ⟨r, b', e, h4⟩ := K.advance_le _ _ k h1 (Nat.le_of_eq hkl)
          rw [hkl, List.drop_length] at h4
          exact ⟨r, b', e, h4⟩
        · exact K.advance_gt hc _ _ k h1 (by omega) (by omega)
      obtain ⟨r, b', e, h4⟩ := key
      rw [e]
      refine ⟨r, _, rfl, h4, Nat.zero_le _, ?_⟩
      show u32sub s.size k < _
      omega
    · rw [if_neg h0]
      have : bs = [] := List.eq_nil_of_length_eq_zero (by omega)
      subst this
      exact ⟨_, _, rfl, h1, h2, h3⟩

/-- The section made for a length-delimited record, and where its parent is after it was read. -/
theorem Cursor.section {b : β} {bs : List Byte} (n : Nat) (h : K.At b bs) (hn : n < 4294967296) :
    ∃ L : Cursor (Section β), L.At (Section.new b n) (bs.take n) ∧
      L.clip = (K.clip || decide (n ≤ bs.length)) ∧ ∀ s, L.At s [] → K.At s.buffer (bs.drop n) := by
  have h1 := K.size_ge _ _ h
  have h2 := K.size_lt _ _ h
  by_cases hl : n ≤ bs.length
  · refine ⟨K.inside (bs.drop n), ⟨?_, ?_⟩, ?_, fun s hs => hs.1⟩
    · rw [List.take_append_drop]; exact h
    · show min n (ReadBuffer.getSize b) = _
      rw [List.length_take]
      omega
    · show true = _
      simp [hl]
  · refine ⟨K.beyond, ⟨?_, ?_, ?_⟩, ?_, fun s hs => ?_⟩
    · rw [List.take_of_length_le (by omega)]; exact h
    · show _ ≤ min n (ReadBuffer.getSize b)
      rw [List.length_take]
      omega
    · show min n (ReadBuffer.getSize b) < _
      omega
    · simp [hl, Cursor.beyond]
    · rw [List.drop_of_length_le (by omega)]; exact hs.1

/-! ## The wire format -/

/-- A function of the wire formatter does what a reader does. -/
def Cursor.Reads {α : Type} (op : Res (Except Error α × β)) (rd : Except Error α × List Byte) : Prop :=
  op.Post fun p => p.1 = rd.1 ∧ K.At p.2 rd.2

/-- After a read there are no more bytes than before; only certain errors are reported, and
`END_OF_BUFFER` only at the end. -/
structure ReaderLaw {α : Type} (rd : Reader α) : Prop where
  le : ∀ bs, (rd bs).2.length ≤ bs.length
  lt : ∀ bs a, (rd bs).1 = .ok a → (rd bs).2.length < bs.length
  error : ∀ bs e, (rd bs).1 = .error e →
    (e = .endOfBuffer ∧ (rd bs).2 = []) ∨ e = .overlongVarint

theorem ReaderLaw.map {α γ : Type} {rd : Reader α} (h : ReaderLaw rd) (f : α → γ) :
    ReaderLaw (rd.map f) := by
  refine ⟨fun bs => ?_, fun bs a => ?_, fun bs e => ?_⟩
  · have := h.le bs
    unfold Reader.map
    generalize rd bs = r at *
    obtain ⟨r, rest⟩ := r
    cases r <;> exact this
  · have := h.lt bs
    unfold Reader.map
    generalize rd bs = r at *
    obtain ⟨r, rest⟩ := r
    cases r with
    | error => exact fun h => nomatch h
    | ok => exact fun _ => this _ rfl
  · have := h.error bs
    unfold Reader.map
    generalize rd bs = r at *
    obtain ⟨r, rest⟩ := r
    cases r with
    | error => intro h; injection h with h; subst h; exact this _ rfl
    | ok => exact fun h => nomatch h

theorem readVarint_law (k : Nat) : ReaderLaw (readVarint k) := by
  induction k with
  | zero =>
    refine ⟨fun bs => Nat.le_refl _, fun bs a h => (nomatch h), fun bs e h => ?_⟩
    injection h with h
    exact Or.inr h.symm
  | succ k ih =>
    have im := fun b : Byte => ih.map (fun n => b.toNat % 128 + 128 * n)
    refine ⟨fun bs => ?_, fun bs a => ?_, fun bs e => ?_⟩
    · cases bs with
      | nil => exact Nat.le_refl _
      | cons b bs =>
        unfold readVarint
        split
        · exact Nat.le_succ_of_le ((im b).le bs)
        · exact Nat.le_succ _
    · cases bs with
      | nil => exact fun h => nomatch h
      | cons b bs =>
        unfold readVarint
        split
        · exact fun h => Nat.lt_succ_of_lt ((im b).lt bs a h)
        · exact fun _ => Nat.lt_succ_self _
    · cases bs with
      | nil => intro h; injection h with h; exact Or.inl ⟨h.symm, rfl⟩
      | cons b bs =>
        unfold readVarint
        split
        · exact (im b).error bs e
        · exact fun h => nomatch h

theorem readFixed_law (k : Nat) (hk : 0 < k) : ReaderLaw (readFixed k) := by
  refine ⟨fun bs => ?_, fun bs a => ?_, fun bs e => ?_⟩ <;> unfold readFixed <;> split
  · exact Nat.zero_le _
  · simp
  · exact fun h => nomatch h
  · intro _; simp; omega
  · intro h; injection h with h; exact Or.inl ⟨h.symm, rfl⟩
  · exact fun h => nomatch h

theorem scalarRead_law (s : ScalarTy) : ReaderLaw s.read := by
  cases s <;> first
    | exact (readVarint_law _).map _
    | exact (readFixed_law _ (by decide)).map _

theorem readLen_law : ReaderLaw readLen := (readVarint_law 5).map _

theorem readLen_lt {bs rest : List Byte} {n : Nat} (h : readLen bs = (.ok n, rest)) : n < 4294967296 := by
  unfold readLen Reader.map at h
  split at h
  · injection h with h _
    injection h with h
    rw [← h]
    exact Nat.mod_lt _ (by decide)
  · injection h with h _
    exact nomatch h

variable {K}

theorem Cursor.varintLoop {w : Nat} (k i T : Nat) (hk : 0 < k) (hT : T < 2 ^ (i * 7)) {b : β}
    {bs : List Byte} (h : K.At b bs) :
    (deserializeVarintLoop k i (BitVec.ofNat w T) b).Post fun p => K.At p.2 (readVarint k bs).2 ∧
      match (readVarint k bs).1 with
      | .ok n => ∃ x, p.1 = some (x, BitVec.ofNat w (T + n * 2 ^ (i * 7))) ∧ cont x = false
      | .error e => (p.1 = none ∧ e = .endOfBuffer) ∨
        ((∃ x t, p.1 = some (x, t) ∧ cont x = true) ∧ e = .overlongVarint) := by
  induction k generalizing i T b bs with
  | zero => omega
  | succ k ih =>
    cases bs with
    | nil =>
      obtain ⟨b', hp, h'⟩ := K.pop_nil b h
      rw [deserializeVarintLoop, hp]
      exact ⟨h', Or.inl ⟨rfl, rfl⟩⟩
    | cons x bs =>
      obtain ⟨b', hp, h'⟩ := K.pop_cons b x bs h
      rw [deserializeVarintLoop, hp]
      simp only [Res.ok_bind, step_value w T i x hT]
      by_cases hc : cont x = true
      · have e : readVarint (k + 1) (x :: bs) =
            (readVarint k).map (fun n => x.toNat % 128 + 128 * n) bs := by rw [readVarint, if_pos hc]
        rw [e]
        by_cases hk' : 0 < k
        · rw [if_pos ⟨(cont_iff x).mpr hc, hk'⟩]
          refine (ih (i + 1) _ hk' (step_bound T i _ hT (by omega)) h').mono ?_
          rintro ⟨r, b''⟩ ⟨h1, h2⟩
          dsimp only at h1 h2
          unfold Reader.map
          generalize readVarint k bs = q at *
          obtain ⟨q, rest⟩ := q
          refine ⟨by cases q <;> exact h1, ?_⟩
          cases q with
          | error e => exact h2
          | ok n =>
            obtain ⟨y, h2, h3⟩ := h2
            refine ⟨y, ?_, h3⟩
            dsimp only at h2 ⊢
            rw [h2]
            congr 2
            rw [show (i + 1) * 7 = 7 + i * 7 by omega, Nat.pow_add, Nat.add_mul]
            congr 1
            rw [Nat.add_assoc]
            congr 1
            rw [show 2 ^ 7 = 128 from rfl, ← Nat.mul_assoc, Nat.mul_comm n 128]
        · rw [if_neg (by omega)]
          have : k = 0 := by omega
          subst this
          exact ⟨h', Or.inr ⟨⟨x, _, rfl, hc⟩, rfl⟩⟩
      · rw [if_neg (by intro hh; exact hc ((cont_iff x).mp hh.1))]
        rw [readVarint, if_neg hc]
        refine ⟨h', x, ?_, by simpa using hc⟩
        have : x.toNat % 128 = x.toNat := by
          refine Nat.mod_eq_of_lt ?_
          have := (show ¬ (decide (128 ≤ x.toNat) = true) from hc)
          simp at this
          omega
        rw [this]

/-- `DeserializeVarint`. -/
theorem Cursor.varint (w : Nat) (hw : 0 < w) {b : β} {bs : List Byte} (h : K.At b bs) :
    K.Reads (deserializeVarint w b) ((readVarint (maxVarint w)).map (BitVec.ofNat w) bs) := by
  unfold Cursor.Reads deserializeVarint
  rw [Res.Post_bind]
  refine (Cursor.varintLoop (w := w) (nBytesInVarint w) 0 0
    (by unfold nBytesInVarint; omega) (by simp) h).mono ?_
  rintro ⟨r, b'⟩ ⟨h1, h2⟩
  rw [nBytes_eq] at h1 h2
  unfold Reader.map
  generalize readVarint (maxVarint w) bs = q at *
  obtain ⟨q, rest⟩ := q
  dsimp only at h1 h2
  cases q with
  | error e =>
    rcases h2 with ⟨rfl, rfl⟩ | ⟨⟨x, t, rfl, hx⟩, rfl⟩
    · exact ⟨rfl, h1⟩
    · dsimp only
      rw [if_pos ((cont_iff x).mpr hx)]
      exact ⟨rfl, h1⟩
  | ok n =>
    obtain ⟨x, rfl, hx⟩ := h2
    dsimp only
    rw [if_neg (by rw [cont_iff]; simp [hx])]
    exact ⟨by simp, h1⟩

theorem Cursor.len {b : β} {bs : List Byte} (h : K.At b bs) :
    (deserializeVarint 32 b).Post fun p =>
      (match p.1 with | .ok v => .ok v.toNat | .error e => .error e) = (readLen bs).1 ∧
      K.At p.2 (readLen bs).2 := by
  refine (Cursor.varint 32 (by decide) h).mono ?_
  rintro ⟨p, b'⟩ ⟨h1, h2⟩
  unfold readLen
  rw [show maxVarint 32 = 5 from rfl] at h1 h2
  unfold Reader.map at *
  generalize readVarint 5 bs = q at *
  obtain ⟨q, rest⟩ := q
  dsimp only at h1 h2
  cases q with
  | error e => subst h1; exact ⟨rfl, h2⟩
  | ok n => subst h1; exact ⟨congrArg Except.ok (BitVec.toNat_ofNat n 32), h2⟩

theorem wireType_ofNat : ∀ n, n < 8 → WireType.ofNat? n = wireType? n := by decide

/-- `DeserializeTag`. -/
theorem Cursor.tag {b : β} {bs : List Byte} (h : K.At b bs) :
    (deserializeTag b).Post fun p => K.At p.2 (readTag bs).2 ∧
      p.1 = (match (readTag bs).1 with
        | .ok (num, some wt) => .ok (wt, num)
        | .ok (_, none) => .error .invalidWiretype
        | .error e => .error e) := by
  unfold deserializeTag
  rw [Res.Post_bind]
  refine (Cursor.varint 32 (by decide) h).mono ?_
  rintro ⟨p, b'⟩ ⟨h1, h2⟩
  unfold readTag
  rw [show maxVarint 32 = 5 from rfl] at h1 h2
  unfold Reader.map at *
  generalize readVarint 5 bs = q at *
  obtain ⟨q, rest⟩ := q
  dsimp only at h1 h2
  cases q with
  | error e => subst h1; exact ⟨h2, rfl⟩
  | ok n =>
    subst h1
    dsimp only
    have e1 : (BitVec.ofNat 32 n &&& 7).toNat = n % 8 := by
      rw [BitVec.toNat_and, BitVec.toNat_ofNat]
      exact (Nat.and_two_pow_sub_one_eq_mod _ 3).trans (Nat.mod_mod_of_dvd _ (by decide))
    have e2 : (BitVec.ofNat 32 n >>> 3).toNat = n % 2 ^ 32 / 8 := by
      rw [BitVec.toNat_ushiftRight, BitVec.toNat_ofNat, Nat.shiftRight_eq_div_pow]
    rw [e1, e2, wireType_ofNat _ (Nat.mod_lt _ (by decide))]
    cases wireType? (n % 8) <;> exact ⟨h2, rfl⟩

theorem Cursor.fixedLoop {w : Nat} (k i T : Nat) (hT : T < 2 ^ i) {b : β} {bs : List Byte}
    (h : K.At b bs) :
    (deserializeFixedLoop k i (BitVec.ofNat w T) b).Post fun p => K.At p.2 (readFixed k bs).2 ∧
      p.1 = (match (readFixed k bs).1 with
        | .ok n => some (BitVec.ofNat w (T + n * 2 ^ i))
        | .error _ => none) := by
  induction k generalizing i T b bs with
  | zero =>
    unfold readFixed
    simp [deserializeFixedLoop, ofLittleEndian, h]
  | succ k ih =>
    cases bs with
    | nil =>
      obtain ⟨b', hp, h'⟩ := K.pop_nil b h
      rw [deserializeFixedLoop, hp]
      exact ⟨h', rfl⟩
    | cons x bs =>
      obtain ⟨b', hp, h'⟩ := K.pop_cons b x bs h
      rw [deserializeFixedLoop, hp]
      simp only [Res.ok_bind]
      have hx : BitVec.setWidth w x = BitVec.ofNat w x.toNat := by
        apply BitVec.eq_of_toNat_eq; simp
      rw [hx, accum w T _ _ hT]
      have hlt : T + x.toNat * 2 ^ i < 2 ^ (i + 8) := by
        rw [Nat.pow_add]
        have hx' := x.isLt
        have : x.toNat * 2 ^ i ≤ 255 * 2 ^ i := Nat.mul_le_mul_right _ (by omega)
        omega
      refine (ih (i + 8) _ hlt h').mono ?_
      rintro ⟨r, b''⟩ ⟨h1, h2⟩
      unfold readFixed at *
      dsimp only at h1 h2
      by_cases hl : bs.length < k
      · rw [if_pos hl] at h1 h2
        rw [if_pos (by simp; omega)]
        exact ⟨h1, h2⟩
      · rw [if_neg hl] at h1 h2
        rw [if_neg (by simp; omega)]
        refine ⟨by simpa using h1, ?_⟩
        dsimp only at h2 ⊢
        rw [h2, List.take_succ_cons, ofLittleEndian]
        congr 2
        rw [Nat.pow_add, Nat.add_mul, Nat.add_assoc]
        congr 2
        rw [show (2:Nat) ^ 8 = 256 from rfl, Nat.mul_comm 256 (ofLittleEndian _),
          Nat.mul_assoc, Nat.mul_comm (2 ^ i) 256]

/-- `DeserializeFixed`. -/
theorem Cursor.fixed (w : Nat) {b : β} {bs : List Byte} (h : K.At b bs) :
    K.Reads (deserializeFixed w b) ((readFixed (w / 8)).map (BitVec.ofNat w) bs) := by
  unfold Cursor.Reads deserializeFixed
  rw [Res.Post_bind]
  refine (Cursor.fixedLoop (w := w) (w / 8) 0 0 (by simp) h).mono ?_
  rintro ⟨r, b'⟩ ⟨h1, h2⟩
  dsimp only at h1 h2
  have herr : ∀ e, (readFixed (w / 8) bs).1 = .error e → e = .endOfBuffer := by
    intro e
    unfold readFixed
    split
    · intro he; injection he with he; exact he.symm
    · exact fun he => nomatch he
  unfold Reader.map
  generalize readFixed (w / 8) bs = q at *
  obtain ⟨q, rest⟩ := q
  subst h2
  cases q with
  | error e => exact ⟨by rw [herr e rfl], h1⟩
  | ok n => exact ⟨by simp, h1⟩

theorem Cursor.bool {b : β} {bs : List Byte} (h : K.At b bs) :
    K.Reads (deserializeBool b) ((readFixed 1).map (fun n => n != 0) bs) := by
  unfold Cursor.Reads deserializeBool
  cases bs with
  | nil =>
    obtain ⟨b', hp, h'⟩ := K.pop_nil b h
    rw [hp]
    exact ⟨rfl, h'⟩
  | cons x bs =>
    obtain ⟨b', hp, h'⟩ := K.pop_cons b x bs h
    rw [hp]
    have e : (readFixed 1).map (fun n => n != 0) (x :: bs) = (.ok (x.toNat != 0), bs) := by
      simp [Reader.map, readFixed, ofLittleEndian]
    rw [e]
    refine ⟨congrArg Except.ok ?_, h'⟩
    rw [Bool.eq_iff_iff]
    simp only [bne_iff_ne, ne_eq]
    refine not_congr ⟨fun h => by rw [h]; rfl, fun h => BitVec.eq_of_toNat_eq h⟩

theorem Cursor.Reads.map {α γ : Type} {op : Res (Except Error α × β)} {rd : Reader α} {bs : List Byte}
    (h : K.Reads op (rd bs)) (f : α → γ) :
    K.Reads (do let (r, b) ← op; pure (r.map f, b)) (rd.map f bs) := by
  unfold Cursor.Reads at *
  rw [Res.Post_bind]
  refine h.mono ?_
  rintro ⟨r, b'⟩ ⟨h1, h2⟩
  dsimp only at h1 h2
  unfold Reader.map
  generalize rd bs = q at *
  obtain ⟨q, rest⟩ := q
  dsimp only at h1 h2
  subst h1
  cases r <;> exact ⟨rfl, h2⟩

theorem Reader.map_map {α γ δ : Type} (rd : Reader α) (f : α → γ) (g : γ → δ) :
    (rd.map f).map g = rd.map (fun a => g (f a)) := by
  funext bs
  unfold Reader.map
  generalize rd bs = q
  obtain ⟨q, rest⟩ := q
  cases q <;> rfl

theorem zigzag_unzigzag (n : Nat) : zigzag (unzigzag n) = n := by
  unfold zigzag unzigzag
  split <;> split <;> omega

theorem unzigzag_range (w n : Nat) (hw : 1 < w) (hn : n < 2 ^ w) :
    (BitVec.ofInt w (unzigzag n)).toInt = unzigzag n := by
  obtain ⟨k, rfl⟩ : ∃ k, w = k + 1 := ⟨w - 1, by omega⟩
  rw [Nat.pow_succ] at hn
  refine BitVec.toInt_ofInt_eq_self (by omega) ?_ ?_
  · have : ((2 : Int) ^ k) = ((2 ^ k : Nat) : Int) := by simp
    rw [Nat.add_sub_cancel, this]
    unfold unzigzag; split <;> omega
  · have : ((2 : Int) ^ k) = ((2 ^ k : Nat) : Int) := by simp
    rw [Nat.add_sub_cancel, this]
    unfold unzigzag; split <;> omega

theorem zigZagDecode_unzigzag (w n : Nat) (hw : 1 < w) :
    zigZagDecode (BitVec.ofNat w n) = BitVec.ofInt w (unzigzag (n % 2 ^ w)) := by
  refine zigZagDecode_of_zigzag hw _ n ?_
  rw [unzigzag_range w _ hw (Nat.mod_lt _ (Nat.two_pow_pos w)), zigzag_unzigzag]

theorem setWidth_ofNat64 {w : Nat} (hw : w ≤ 64) (n : Nat) :
    (BitVec.ofNat 64 n).setWidth w = BitVec.ofNat w n := by
  apply BitVec.eq_of_toNat_eq
  simp only [BitVec.toNat_setWidth, BitVec.toNat_ofNat]
  exact Nat.mod_mod_of_dvd _ (Nat.pow_dvd_pow 2 hw)

/-- The deserialization functions of all scalar types. -/
theorem Cursor.scalar (s : ScalarTy) {b : β} {bs : List Byte} (h : K.At b bs) :
    K.Reads (s.decode b) (s.read bs) := by
  have hint : ∀ (w : Nat), w ≤ 64 → K.Reads (deserializeInt w b) ((readVarint 10).map (BitVec.ofNat w) bs) := by
    intro w hw
    have := (Cursor.varint 64 (by decide) h).map (fun v => v.setWidth w)
    rw [Reader.map_map] at this
    simp only [setWidth_ofNat64 hw] at this
    exact this
  have hsint : ∀ (w : Nat), 1 < w → w ≤ 64 → K.Reads (deserializeSInt w b)
      ((readVarint 10).map (fun n => BitVec.ofInt w (unzigzag (n % 2 ^ w))) bs) := by
    intro w h1 hw
    have := (Cursor.varint 64 (by decide) h).map (fun v => zigZagDecode (v.setWidth w))
    rw [Reader.map_map] at this
    simp only [setWidth_ofNat64 hw, zigZagDecode_unzigzag w _ h1] at this
    exact this
  cases s with
  | int32 => exact hint 32 (by decide)
  | int64 => exact hint 64 (by decide)
  | uint32 => exact Cursor.varint 32 (by decide) h
  | uint64 => exact Cursor.varint 64 (by decide) h
  | enumeration => exact Cursor.varint 32 (by decide) h
  | sint32 => exact hsint 32 (by decide) (by decide)
  | sint64 => exact hsint 64 (by decide) (by decide)
  | boolean => exact Cursor.bool h
  | fixed32 => exact Cursor.fixed 32 h
  | sfixed32 => exact Cursor.fixed 32 h
  | floatfixed => exact Cursor.fixed 32 h
  | fixed64 => exact Cursor.fixed 64 h
  | sfixed64 => exact Cursor.fixed 64 h
  | doublefixed => exact Cursor.fixed 64 h

end

end EP
