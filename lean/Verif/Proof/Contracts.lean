import Verif.Spec.Contracts
import Verif.Proof.Post

/-! # What serializing functions do -/

namespace EP

variable {ω β : Type}

theorem WriteModel.extra_le [WriteBuffer ω] (M : WriteModel ω) (t : Bool) : M.extra t ≤ M.slack := by
  cases t <;> simp [WriteModel.extra]

/-- What follows needs at least as much room. -/
theorem WriteModel.extra_succ [WriteBuffer ω] (M : WriteModel ω) (t t' : Bool) :
    M.extra t ≤ M.extra t' + 1 := by
  cases t <;> cases t' <;> simp [WriteModel.extra] <;> omega

theorem WriteModel.Sharp.extra_false [WriteBuffer ω] {M : WriteModel ω} (h : M.Sharp) :
    M.extra false = 0 := by
  have := h.slack
  simp only [WriteModel.extra, Bool.false_eq_true, ↓reduceIte]
  omega

namespace AppendsT
variable [WriteBuffer ω] {M : WriteModel ω} {c : List Byte} {room : Nat} {t t' : Bool}

theorem weaken {bs : List Byte} {r : Res (Error × ω)} (h : AppendsT M t c room bs r) :
    Appends M c room bs r := by
  unfold AppendsT at h
  unfold Appends
  refine h.mono ?_
  rintro p (⟨h1, h2, _⟩ | ⟨h1, h2, h3⟩)
  · exact Or.inl ⟨h1, h2⟩
  · have := M.extra_le t
    exact Or.inr ⟨h1, by omega, h3⟩

/-- Nothing is written: then nothing is pushed last. -/
theorem empty {r : Res (Error × ω)} (h : AppendsT M t c room [] r) : AppendsT M t' c room [] r := by
  unfold AppendsT at h ⊢
  refine h.mono ?_
  rintro p (⟨h1, h2, _⟩ | ⟨_, _, k, _, hk, _⟩)
  · exact Or.inl ⟨h1, h2, fun _ h => absurd rfl h⟩
  · exact absurd hk (Nat.not_lt_zero _)

/-- The flag of what comes before nothing. -/
theorem orNothing {bs : List Byte} {r : Res (Error × ω)} (h : AppendsT M t c room bs r) :
    AppendsT M (if bs.isEmpty then t' else t) c room bs r := by
  cases hb : bs.isEmpty
  · exact h
  · rw [List.isEmpty_iff.mp hb] at h ⊢
    exact h.empty

/-- Writing nothing. -/
theorem nil {w : ω} (h : M.Rep w c room) : AppendsT M t c room [] (.ok (.noErrors, w)) := by
  simp [AppendsT, h]

/-- Sequencing two writers, the second one run only after success of the first. -/
theorem seq {bs bs' : List Byte} {r : Res (Error × ω)} {f : ω → Res (Error × ω)}
    (h : AppendsT M t c room bs r) (ht : bs' = [] → t' = t)
    (h' : ∀ w, M.Rep w (c ++ bs) (room - bs.length) →
      AppendsT M t' (c ++ bs) (room - bs.length) bs' (f w)) :
    AppendsT M t' c room (bs ++ bs')
      (r >>= fun p => if p.1 = .noErrors then f p.2 else .ok (p.1, p.2)) := by
  have hx := M.extra_succ t t'
  unfold AppendsT at *
  rw [Res.Post_bind]
  refine h.mono ?_
  rintro ⟨e, w⟩ (⟨he, hr, hs⟩ | ⟨he, hlt, k, room', hk, hr⟩)
  · dsimp only at he hr
    subst he
    simp only [↓reduceIte]
    refine (h' w hr).mono ?_
    rintro ⟨e', w'⟩ (⟨he', hr', hs'⟩ | ⟨he', hlt', k', room', hk', hr'⟩)
    · left
      refine ⟨he', by simpa [Nat.sub_sub] using hr', ?_⟩
      intro hM hne
      simp only [List.length_append]
      by_cases hb : bs = []
      · subst hb
        simpa using hs' hM (by simpa using hne)
      · by_cases hb' : bs' = []
        · rw [ht hb', hb']
          exact hs hM hb
        · have h1 := hs hM hb
          have h2 := hs' hM hb'
          have := List.length_pos_iff.mpr hb'
          omega
    · right
      refine ⟨he', ?_, bs.length + k', room', ?_, ?_⟩
      · simp only [List.length_append] at *; omega
      · simp only [List.length_append]; omega
      · simpa [List.take_append, List.append_assoc, List.take_of_length_le] using hr'
  · dsimp only at he hr
    subst he
    simp only [reduceCtorEq, ↓reduceIte, Res.Post_ok]
    right
    refine ⟨trivial, ?_, k, room', ?_, ?_⟩
    · simp only [List.length_append]
      by_cases hb' : bs' = []
      · rw [ht hb']; omega
      · have := List.length_pos_iff.mpr hb'
        omega
    · simp only [List.length_append]; omega
    · rw [List.take_append_of_le_length (by omega)]; exact hr

/-- A single push. -/
theorem push {w : ω} {x : Byte} (h : M.Rep w c room) :
    AppendsT M false c room [x] (do
      let (r, w) ← WriteBuffer.push w x
      pure (if r then .noErrors else .bufferFull, w)) := by
  by_cases hf : M.full w
  · obtain ⟨hp, h0⟩ := M.push_full w c room x h hf
    simp only [AppendsT, hp, Res.ok_bind, Res.pure_eq, Res.Post_ok]
    right
    refine ⟨by simp, by simp; omega, 0, room, by simp, by simpa using h⟩
  · obtain ⟨w', hp, hr⟩ := M.push_ok w c room x h hf
    simp only [AppendsT, hp, Res.ok_bind, Res.pure_eq, Res.Post_ok]
    left
    refine ⟨by simp, by simpa using hr, fun hM _ => ?_⟩
    rw [hM.extra_false]
    rcases Nat.eq_zero_or_pos room with h0 | h0
    · subst h0; exact absurd (hM.push w c h) hf
    · simp only [List.length_cons, List.length_nil]; omega

end AppendsT

end EP
