import Verif.Spec.Observe
import Verif.Proof.Post

/-! # Presence bits -/

namespace EP.Presence

theorem index_lt {n i : Nat} (h : i < n) : i / 32 < size n := by
  unfold size; split <;> omega

theorem mask_getLsbD (f j : Nat) (hj : j < 32) : (mask f).getLsbD j = decide (f % 32 = j) := by
  unfold mask
  rw [BitVec.getLsbD_shiftLeft]
  have : ((1 : BitVec 32).getLsbD (j - f % 32)) = decide (j - f % 32 = 0) := by
    rw [show (1 : BitVec 32) = 1#32 from rfl, BitVec.getLsbD_one]; simp
  rw [this]
  rw [Bool.eq_iff_iff]
  simp
  omega

theorem and_mask_ne_zero (f : Nat) (w : BitVec 32) :
    ((mask f &&& w) != 0) = w.getLsbD (f % 32) := by
  have hlt : f % 32 < 32 := by omega
  cases hb : w.getLsbD (f % 32)
  · simp only [bne_eq_false_iff_eq]
    apply BitVec.eq_of_getLsbD_eq
    intro i hi
    rw [BitVec.getLsbD_and, mask_getLsbD f i hi]
    by_cases h : f % 32 = i
    · subst h; simp [hb]
    · simp [h]
  · rw [bne_iff_ne]
    intro h0
    have := congrArg (fun v => v.getLsbD (f % 32)) h0
    rw [BitVec.getLsbD_and, mask_getLsbD f _ hlt, hb] at this
    simp at this

theorem has_eq {n i : Nat} {p : Presence} (h : WF n p) (hi : i < n) :
    has p i = .ok (p.bit i) := by
  have hl : i / 32 < p.length := by rw [h.1]; exact index_lt hi
  simp only [has, index, arrayGet_of_lt hl, Res.ok_bind, Res.pure_eq, and_mask_ne_zero, bit]
  simp [hl]

theorem bit_set (p : Presence) (k i : Nat) (w : BitVec 32) (hk : k < p.length) :
    bit (p.set k w) i = if i / 32 = k then w.getLsbD (i % 32) else p.bit i := by
  unfold bit
  simp only [List.getD_eq_getElem?_getD, List.getElem?_set]
  by_cases h : k = i / 32
  · subst h; simp [hk]
  · simp [h, Ne.symm h]

theorem setBit_eq {n i : Nat} {p : Presence} (h : WF n p) (hi : i < n) :
    ∃ p', setBit p i = .ok p' ∧ WF n p' ∧ ∀ j, p'.bit j = (p.bit j || decide (j = i)) := by
  have hl : i / 32 < p.length := by rw [h.1]; exact index_lt hi
  refine ⟨p.set (i / 32) (p[i / 32] ||| mask i), ?_, ?_⟩
  · simp only [setBit, index, arrayGet_of_lt hl, Res.ok_bind, arraySet_of_lt hl]
  · have hb : ∀ j, bit (p.set (i / 32) (p[i / 32] ||| mask i)) j = (p.bit j || decide (j = i)) := by
      intro j
      rw [bit_set _ _ _ _ hl]
      by_cases hj : j / 32 = i / 32
      · rw [if_pos hj, BitVec.getLsbD_or, mask_getLsbD _ _ (by omega)]
        have : p.bit j = p[i / 32].getLsbD (j % 32) := by simp [bit, hj, hl]
        rw [this]
        congr 1
        rw [decide_eq_decide]; omega
      · rw [if_neg hj, decide_eq_false (by rintro rfl; exact hj rfl), Bool.or_false]
    refine ⟨⟨by simp [h.1], fun j hj => ?_⟩, hb⟩
    rw [hb, h.2 j hj]; simp; omega

theorem clearBit_eq {n i : Nat} {p : Presence} (h : WF n p) (hi : i < n) :
    ∃ p', clearBit p i = .ok p' ∧ WF n p' ∧ ∀ j, p'.bit j = (p.bit j && !decide (j = i)) := by
  have hl : i / 32 < p.length := by rw [h.1]; exact index_lt hi
  refine ⟨p.set (i / 32) (p[i / 32] &&& ~~~(mask i)), ?_, ?_⟩
  · simp only [clearBit, index, arrayGet_of_lt hl, Res.ok_bind, arraySet_of_lt hl]
  · have hb : ∀ j, bit (p.set (i / 32) (p[i / 32] &&& ~~~(mask i))) j = (p.bit j && !decide (j = i)) := by
      intro j
      rw [bit_set _ _ _ _ hl]
      by_cases hj : j / 32 = i / 32
      · rw [if_pos hj, BitVec.getLsbD_and, BitVec.getLsbD_not, mask_getLsbD _ _ (by omega)]
        have : p.bit j = p[i / 32].getLsbD (j % 32) := by simp [bit, hj, hl]
        rw [this]
        have h2 : decide (i % 32 = j % 32) = decide (j = i) := by
          rw [decide_eq_decide]; omega
        rw [h2]
        have : j % 32 < 32 := by omega
        simp [this]
      · rw [if_neg hj, decide_eq_false (by rintro rfl; exact hj rfl)]; simp
    refine ⟨⟨by simp [h.1], fun j hj => ?_⟩, hb⟩
    rw [hb, h.2 j hj]; simp

theorem init_bit (n i : Nat) : (init n).bit i = false := by
  unfold bit init
  simp only [List.getD_eq_getElem?_getD, List.getElem?_replicate]
  split <;> simp

theorem init_wf (n : Nat) : WF n (init n) :=
  ⟨by simp [init], fun i _ => init_bit n i⟩

/-- A presence array is determined by its bits. -/
theorem ext {p q : Presence} (hl : p.length = q.length) (h : ∀ i, p.bit i = q.bit i) : p = q := by
  apply List.ext_getElem hl
  intro k h1 h2
  apply BitVec.eq_of_getLsbD_eq
  intro j hj
  have := h (32 * k + j)
  have e1 : (32 * k + j) / 32 = k := by omega
  have e2 : (32 * k + j) % 32 = j := by omega
  simpa [bit, e1, e2, h1, h2] using this

theorem eq_init {n : Nat} {p : Presence} (h : WF n p) (hb : ∀ i, i < n → p.bit i = false) :
    p = init n := by
  apply ext (by simp [h.1, init])
  intro i
  rw [init_bit]
  by_cases hi : i < n
  · exact hb i hi
  · exact h.2 i (by omega)

end EP.Presence
