import Verif.Proof.Contracts

/-! # The buffers meet their contracts -/

namespace EP

variable {β : Type}

/-! ## ReadBufferFixedSize -/

/-- Invariant of `ReadBufferFixedSize<cap>` objects. -/
structure ReadFixed.WF (cap : Nat) (b : ReadFixed) : Prop where
  cap_eq : b.cap = cap
  length_eq : b.data.length = b.cap
  read_le : b.read ≤ b.write
  write_le : b.write ≤ b.cap

/-- The bytes stored but not yet read. -/
def ReadFixed.unread (b : ReadFixed) : List Byte := (b.data.take b.write).drop b.read

theorem ReadFixed.WF.unread_length {cap : Nat} {b : ReadFixed} (h : b.WF cap) :
    b.unread.length = b.write - b.read := by
  have := h.length_eq; have := h.write_le
  simp [ReadFixed.unread]; omega

def ReadFixed.model (cap : Nat) (hcap : cap < 4294967296) : ReadModel ReadFixed where
  Inv b := b.WF cap
  view b := b.unread
  fwd n := cap + n < 4294967296
  strict := cap < 2147483648
  view_lt b h := by
    have := h.unread_length; have := h.write_le; have := h.cap_eq; omega
  getSize_ge b h := by
    have := h.unread_length
    simp only [ReadBuffer.getSize, ReadFixed.getSize]; omega
  getSize_lt b h := by
    have := h.write_le; have := h.cap_eq
    simp only [ReadBuffer.getSize, ReadFixed.getSize]; omega
  getSize_fwd hs b n h hn := by
    have := h.write_le; have := h.cap_eq
    simp only [ReadBuffer.getSize, ReadFixed.getSize] at hn; omega
  pop_nil b h hv := by
    have hl := h.unread_length
    rw [hv] at hl
    refine ⟨b, ?_, h, hv⟩
    simp at hl
    simp [ReadBuffer.pop, ReadFixed.pop]; omega
  pop_cons b x xs h hv := by
    have hl := h.unread_length
    rw [hv] at hl
    simp at hl
    have hlt : b.read < b.write := by omega
    have hw := h.write_le; have hc := h.cap_eq; have hd := h.length_eq
    have hlt' : b.read < b.data.length := by omega
    have hu : b.unread = b.data[b.read] :: (b.data.take b.write).drop (b.read + 1) := by
      rw [ReadFixed.unread, List.drop_eq_getElem_cons (by simp; omega)]
      simp
    rw [hv] at hu
    injection hu with hx hxs
    refine ⟨{ b with read := b.read + 1 }, ?_, ⟨hc, hd, by simp; omega, hw⟩, hxs.symm⟩
    simp only [ReadBuffer.pop, ReadFixed.pop, if_pos hlt, arrayGet_of_lt hlt', Res.ok_bind,
      Res.pure_eq]
    rw [u32_of_lt (by omega), hx]
  advanceN_le b n h hn := by
    have hl := h.unread_length
    have hw := h.write_le; have hc := h.cap_eq; have hr := h.read_le
    refine ⟨true, { b with read := b.read + n }, ?_, ⟨hc, h.length_eq, ?_, hw⟩, ?_⟩
    · simp only [ReadBuffer.advanceN, ReadFixed.advanceN]
      rw [u32_of_lt (by omega), if_pos (by omega), Res.pure_eq]
    · simp; omega
    · simp [ReadFixed.unread, List.drop_drop]
  advanceN_gt b n h hn hlt := by
    have hl := h.unread_length
    have hw := h.write_le; have hc := h.cap_eq; have hr := h.read_le
    by_cases hwr : b.read + n < 4294967296
    · refine ⟨false, b, ?_, h, fun _ => List.infix_refl _⟩
      simp only [ReadBuffer.advanceN, ReadFixed.advanceN]
      rw [u32_of_lt hwr, if_neg (by omega), Res.pure_eq]
    · refine ⟨true, { b with read := b.read + n - 4294967296 }, ?_, ⟨hc, h.length_eq, ?_, hw⟩, ?_⟩
      · have : u32 (b.read + n) = b.read + n - 4294967296 := by simp only [u32, two32]; omega
        simp only [ReadBuffer.advanceN, ReadFixed.advanceN, this]
        rw [if_pos (by omega), Res.pure_eq]
      · simp; omega
      · intro hf; omega

/-! ## ReadBufferSection -/

/-- Unread bytes of a section. -/
def sectionView [ReadBuffer β] (M : ReadModel β) (s : Section β) : List Byte :=
  (M.view s.buffer).take s.size

/-- A section of any length over a buffer whose unread bytes were `v₀`. -/
def Section.model [ReadBuffer β] (M : ReadModel β) (v₀ : List Byte) : ReadModel (Section β) where
  Inv s := M.Inv s.buffer ∧ s.size < 4294967296 ∧ (M.strict → ∀ n, n ≤ s.size → M.fwd n) ∧
    (M.strict → M.view s.buffer <:+: v₀)
  view s := sectionView M s
  fwd _ := M.strict
  strict := M.strict
  view_lt s h := by simp [sectionView]; omega
  getSize_ge s h := by simp only [sectionView, ReadBuffer.getSize, List.length_take]; omega
  getSize_lt s h := h.2.1
  getSize_fwd hs _ _ _ _ := hs
  pop_nil s h hv := by
    obtain ⟨hi, hs, hf, hx⟩ := h
    by_cases h0 : 0 < s.size
    · have hv' : M.view s.buffer = [] := by
        rcases List.take_eq_nil_iff.mp hv with h | h
        · omega
        · exact h
      obtain ⟨b', hp, hi', hv''⟩ := M.pop_nil s.buffer hi hv'
      refine ⟨{ s with buffer := b', size := s.size - 1 }, ?_,
        ⟨hi', by simp; omega, fun st n hn => hf st n (by simp at hn; omega),
        fun st => by rw [hv'', ← hv']; exact hx st⟩,
        by simp [sectionView, hv'']⟩
      simp only [ReadBuffer.pop, Section.pop, if_pos h0] at *
      rw [hp]
      simp [u32sub_of_le (show 1 ≤ s.size by omega) hs]
    · refine ⟨s, ?_, ⟨hi, hs, hf, hx⟩, hv⟩
      simp [ReadBuffer.pop, Section.pop, h0]
  pop_cons s x xs h hv := by
    obtain ⟨hi, hs, hf, hx⟩ := h
    have h0 : 0 < s.size := by
      rcases Nat.eq_zero_or_pos s.size with h | h
      · simp [sectionView, h] at hv
      · exact h
    unfold sectionView at hv
    cases hvb : M.view s.buffer with
    | nil => simp [hvb] at hv
    | cons y ys =>
      rw [hvb, show s.size = (s.size - 1) + 1 by omega, List.take_succ_cons] at hv
      injection hv with hy hys
      subst hy
      obtain ⟨b', hp, hi', hv'⟩ := M.pop_cons s.buffer y ys hi hvb
      refine ⟨{ s with buffer := b', size := s.size - 1 }, ?_,
        ⟨hi', by simp; omega, fun st n hn => hf st n (by simp at hn; omega),
        fun st => by rw [hv']; exact ((List.suffix_cons y ys).isInfix.trans (hvb ▸ List.infix_refl _)).trans (hx st)⟩,
        by simpa [sectionView, hv'] using hys⟩
      simp only [ReadBuffer.pop, Section.pop, if_pos h0] at *
      rw [hp]
      simp [u32sub_of_le (show 1 ≤ s.size by omega) hs]
  advanceN_le s n h hn := by
    obtain ⟨hi, hs, hf, hx⟩ := h
    simp only [sectionView, List.length_take] at hn
    by_cases h0 : 0 < s.size
    · obtain ⟨r, b', hp, hi', hv'⟩ := M.advanceN_le s.buffer n hi (by omega)
      refine ⟨r, { s with buffer := b', size := s.size - n }, ?_,
        ⟨hi', by simp; omega, fun st n hn => hf st n (by simp at hn; omega),
        fun st => by rw [hv']; exact (List.drop_suffix _ _).isInfix.trans (hx st)⟩, ?_⟩
      · simp only [ReadBuffer.advanceN, Section.advanceN, if_pos h0, if_pos (show n ≤ s.size by omega)] at *
        rw [hp]
        simp [u32sub_of_le (show n ≤ s.size by omega) hs]
      · simp [sectionView, hv', List.drop_take]
    · have : n = 0 := by omega
      subst this
      refine ⟨false, s, ?_, ⟨hi, hs, hf, hx⟩, by simp⟩
      simp [ReadBuffer.advanceN, Section.advanceN, h0]
  advanceN_gt s n h hn hlt := by
    obtain ⟨hi, hs, hf, hx⟩ := h
    by_cases h0 : 0 < s.size
    · simp only [sectionView, List.length_take] at hn
      by_cases hm : min n s.size ≤ (M.view s.buffer).length
      · have hns : s.size < n := by omega
        obtain ⟨r, b', hp, hi', hv'⟩ := M.advanceN_le s.buffer s.size hi (by omega)
        refine ⟨r, { s with buffer := b', size := 0 }, ?_,
          ⟨hi', by simp, fun st n hn => hf st n (by simp at hn; omega),
        fun st => by rw [hv']; exact (List.drop_suffix _ _).isInfix.trans (hx st)⟩, ?_⟩
        · simp only [ReadBuffer.advanceN, Section.advanceN, if_pos h0, if_neg (show ¬ n ≤ s.size by omega)] at *
          rw [hp]
          simp [u32sub_of_le (Nat.le_refl s.size) hs]
        · intro _; simp [sectionView]
      · obtain ⟨r, b', hp, hi', hv'⟩ := M.advanceN_gt s.buffer (min n s.size) hi (by omega) (by omega)
        refine ⟨r, { s with buffer := b', size := s.size - min n s.size }, ?_,
          ⟨hi', by simp; omega, fun st n hn => hf st n (by simp at hn; omega),
        fun st => (hv' (hf st _ (by omega))).trans (hx st)⟩, ?_⟩
        · simp only [ReadBuffer.advanceN, Section.advanceN, if_pos h0] at *
          rw [show (if n ≤ s.size then n else s.size) = min n s.size by split <;> omega, hp]
          simp [u32sub_of_le (show min n s.size ≤ s.size by omega) hs]
        · intro st
          have := hv' (hf st _ (by omega))
          simp only [sectionView]
          rw [List.take_of_length_le (i := s.size) (by omega)]
          exact (List.take_prefix _ _).isInfix.trans this
    · refine ⟨false, s, ?_, ⟨hi, hs, hf, hx⟩, fun _ => List.infix_refl _⟩
      simp [ReadBuffer.advanceN, Section.advanceN, h0]

/-- A section that ends before the bytes `rest` of the underlying buffer. -/
structure Section.Frame [ReadBuffer β] (M : ReadModel β) (rest : List Byte) (s : Section β) : Prop where
  inv : M.Inv s.buffer
  size_lt : s.size < 4294967296
  frame : ∃ v, M.view s.buffer = v ++ rest ∧ v.length = s.size

def Section.frame [ReadBuffer β] (M : ReadModel β) (rest : List Byte) : ReadModel (Section β) where
  Inv s := s.Frame M rest
  view s := sectionView M s
  fwd _ := True
  strict := True
  view_lt s h := by have := h.size_lt; simp [sectionView]; omega
  getSize_ge s h := by simp only [sectionView, ReadBuffer.getSize, List.length_take]; omega
  getSize_lt s h := h.size_lt
  getSize_fwd _ _ _ _ _ := trivial
  pop_nil s h hv := by
    obtain ⟨v, hvb, hl⟩ := h.frame
    have h0 : ¬ 0 < s.size := by
      intro h0
      rcases List.take_eq_nil_iff.mp hv with h | h
      · omega
      · rw [hvb] at h
        simp at h
        simp [h.1] at hl; omega
    refine ⟨s, ?_, h, hv⟩
    simp [ReadBuffer.pop, Section.pop, h0]
  pop_cons s x xs h hv := by
    obtain ⟨v, hvb, hl⟩ := h.frame
    have hs := h.size_lt
    simp only [sectionView, hvb, List.take_left' hl] at hv
    subst hv
    simp at hl
    have h0 : 0 < s.size := by omega
    obtain ⟨b', hp, hi', hv'⟩ := M.pop_cons s.buffer x (xs ++ rest) h.inv (by simpa using hvb)
    refine ⟨{ s with buffer := b', size := s.size - 1 }, ?_,
      ⟨hi', by simp; omega, xs, hv', by simp; omega⟩, ?_⟩
    · simp only [ReadBuffer.pop, Section.pop, if_pos h0] at *
      rw [hp]
      simp [u32sub_of_le (show 1 ≤ s.size by omega) hs]
    · simp only [sectionView, hv']
      rw [List.take_left' (by omega)]
  advanceN_le s n h hn := by
    obtain ⟨v, hvb, hl⟩ := h.frame
    have hs := h.size_lt
    simp only [sectionView, hvb, List.take_left' hl] at hn
    by_cases h0 : 0 < s.size
    · obtain ⟨r, b', hp, hi', hv'⟩ := M.advanceN_le s.buffer n h.inv (by rw [hvb]; simp; omega)
      rw [hvb, List.drop_append_of_le_length hn] at hv'
      refine ⟨r, { s with buffer := b', size := s.size - n }, ?_,
        ⟨hi', by simp; omega, v.drop n, hv', by simp; omega⟩, ?_⟩
      · simp only [ReadBuffer.advanceN, Section.advanceN, if_pos h0, if_pos (show n ≤ s.size by omega)] at *
        rw [hp]
        simp [u32sub_of_le (show n ≤ s.size by omega) hs]
      · simp only [sectionView, hv', hvb]
        rw [List.take_left' (by simp; omega), List.take_left' hl]
    · have : n = 0 := by omega
      subst this
      refine ⟨false, s, ?_, h, by simp⟩
      simp [ReadBuffer.advanceN, Section.advanceN, h0]
  advanceN_gt s n h hn hlt := by
    obtain ⟨v, hvb, hl⟩ := h.frame
    have hs := h.size_lt
    simp only [sectionView, hvb, List.take_left' hl] at hn
    by_cases h0 : 0 < s.size
    · obtain ⟨r, b', hp, hi', hv'⟩ := M.advanceN_le s.buffer s.size h.inv (by rw [hvb]; simp; omega)
      rw [hvb, List.drop_left' hl] at hv'
      refine ⟨r, { s with buffer := b', size := 0 }, ?_,
        ⟨hi', by simp, [], hv', rfl⟩, fun _ => by simp [sectionView]⟩
      simp only [ReadBuffer.advanceN, Section.advanceN, if_pos h0, if_neg (show ¬ n ≤ s.size by omega)] at *
      rw [hp]
      simp [u32sub_of_le (Nat.le_refl s.size) hs]
    · refine ⟨false, s, ?_, h, fun _ => List.infix_refl _⟩
      simp [ReadBuffer.advanceN, Section.advanceN, h0]

/-- A new section satisfies the general invariant. -/
theorem Section.new_inv [ReadBuffer β] (M : ReadModel β) (b : β) (n : Nat) (h : M.Inv b) :
    (Section.model M (M.view b)).Inv (Section.new b n) := by
  have := M.getSize_lt b h
  exact ⟨h, by simp [Section.new]; omega,
    fun st k hk => M.getSize_fwd st b k h (by simp [Section.new] at hk; omega),
    fun _ => List.infix_refl _⟩

/-- A new section over the next `v.length` bytes. -/
theorem Section.new_frame [ReadBuffer β] (M : ReadModel β) (b : β) (v rest : List Byte) (h : M.Inv b)
    (hv : M.view b = v ++ rest) :
    (Section.frame M rest).Inv (Section.new b v.length) ∧
    (Section.frame M rest).view (Section.new b v.length) = v := by
  have h1 := M.getSize_ge b h
  have h2 := M.view_lt b h
  rw [hv] at h1 h2
  simp only [List.length_append] at h1 h2
  have hs : (Section.new b v.length).size = v.length := by
    show min v.length (ReadBuffer.getSize b) = v.length
    omega
  have hb : (Section.new b v.length).buffer = b := rfl
  refine ⟨⟨by rw [hb]; exact h, by rw [hs]; omega, v, by rw [hb, hv], hs.symm⟩, ?_⟩
  show List.take _ _ = _
  rw [hb, hs, hv, List.take_left' rfl]

/-- Having read everything in a framed section leaves the underlying buffer right behind it. -/
theorem Section.frame_end [ReadBuffer β] (M : ReadModel β) (rest : List Byte) (s : Section β)
    (h : (Section.frame M rest).Inv s) (hv : (Section.frame M rest).view s = []) :
    M.Inv s.buffer ∧ M.view s.buffer = rest := by
  obtain ⟨v, hvb, hl⟩ := h.frame
  have : sectionView M s = [] := hv
  rw [sectionView, hvb, List.take_left' hl] at this
  subst this
  exact ⟨h.inv, by simpa using hvb⟩

/-! ## WriteBufferFixedSize -/

/-- `WriteBufferFixedSize` with `BUFFER_SIZE < 2^31`. -/
def WriteFixed.model : WriteModel WriteFixed where
  Rep w c room := w.data.length = w.cap ∧ w.write ≤ w.cap ∧ w.cap < 2147483648 ∧ w.bytes = c ∧
    room = w.cap - w.write
  full w := w.write = w.cap
  slack := 1
  avail w c room h := by
    obtain ⟨h1, h2, h3, h4, h5⟩ := h
    show room ≤ u32sub w.cap w.write
    rw [u32sub_of_le h2 (by omega)]; omega
  push_ok w c room x h hf := by
    obtain ⟨h1, h2, h3, h4, h5⟩ := h
    refine ⟨{ w with data := w.data.set w.write x, write := w.write + 1 }, ?_, ?_, ?_, h3, ?_, ?_⟩
    · show WriteFixed.push w x = _
      rw [WriteFixed.push, if_pos (by omega), arraySet_of_lt (by omega), Res.ok_bind, Res.pure_eq,
        u32_of_lt (by omega)]
    · simpa using h1
    · simp; omega
    · subst h4
      simp only [WriteFixed.bytes]
      rw [List.take_add_one, List.take_set_of_le (Nat.le_refl _)]
      simp [show w.write < w.data.length by omega]
    · simp; omega
  push_full w c room x h hf := by
    obtain ⟨h1, h2, h3, h4, h5⟩ := h
    refine ⟨?_, by omega⟩
    show WriteFixed.push w x = _
    rw [WriteFixed.push, if_neg (by omega), Res.pure_eq]
  pushBytes w c room bs h hl := by
    obtain ⟨h1, h2, h3, h4, h5⟩ := h
    by_cases hfit : w.write + bs.length < w.cap
    · left
      refine ⟨{ w with data := w.data.take w.write ++ bs ++ w.data.drop (w.write + bs.length), write := w.write + bs.length }, ?_, ?_, ?_, h3, ?_, ?_⟩
      · show WriteFixed.pushBytes w bs = _
        rw [WriteFixed.pushBytes, u32_of_lt (by omega), if_pos (by omega), arrayCopy,
          if_pos (by omega), Res.ok_bind, Res.pure_eq]
      · simp; omega
      · simp; omega
      · subst h4
        simp only [WriteFixed.bytes]
        rw [List.take_left' (by simp; omega)]
      · simp; omega
    · right
      refine ⟨?_, by omega⟩
      show WriteFixed.pushBytes w bs = _
      rw [WriteFixed.pushBytes, u32_of_lt (by omega), if_neg (by omega), Res.pure_eq]

/-- Its contract is exact. -/
theorem WriteFixed.sharp : WriteFixed.model.Sharp where
  slack := Nat.le_refl 1
  push w c h := by
    obtain ⟨h1, h2, h3, h4, h5⟩ := h
    show w.write = w.cap
    omega
  pushBytes w c room bs w' h hp := by
    obtain ⟨h1, h2, h3, h4, h5⟩ := h
    show bs.length + 1 ≤ room
    have hp : WriteFixed.pushBytes w bs = .ok (true, w') := hp
    rw [WriteFixed.pushBytes] at hp
    by_cases hc : w.cap > u32 (w.write + bs.length)
    · rw [if_pos hc, arrayCopy] at hp
      by_cases hf : w.write + bs.length ≤ w.data.length
      · rw [u32_of_lt (by omega)] at hc
        omega
      · rw [if_neg hf] at hp
        cases hp
    · rw [if_neg hc] at hp
      cases hp

/-- A new buffer is empty. -/
theorem WriteFixed.new_rep (cap : Nat) (h : cap < 2147483648) :
    WriteFixed.model.Rep (WriteFixed.new cap) [] cap := by
  refine ⟨by simp [WriteFixed.new], by simp [WriteFixed.new], h, ?_, by simp [WriteFixed.new]⟩
  simp [WriteFixed.new, WriteFixed.bytes]

/-! ## MessageSizeCalculator -/

/-- The size calculator counts the bytes modulo `2^32`. -/
def SizeCalc.model : WriteModel SizeCalc where
  Rep w c room := w.size = u32 c.length ∧ room ≤ 4294967295
  full _ := False
  slack := 0
  avail w c room h := h.2
  push_ok w c room x h _ := by
    refine ⟨⟨u32 (w.size + 1)⟩, rfl, ?_, by omega⟩
    rw [h.1]; simp [u32, two32]
  push_full w c room x h hf := hf.elim
  pushBytes w c room bs h _ := by
    left
    refine ⟨⟨u32 (w.size + bs.length)⟩, rfl, ?_, by omega⟩
    rw [h.1]; simp [u32, two32]

theorem SizeCalc.new_rep : SizeCalc.model.Rep ⟨0⟩ [] 4294967295 := ⟨rfl, Nat.le_refl _⟩

end EP
