import Verif.Model.Canon
import Verif.Proof.Safety

/-!
# Decoding depends on the unread bytes only

Simulation of a run on one read buffer by a run on another one, as long as the first does not
advance past the end of its data.  The second run may have more fuel.
-/

namespace EP

/-- If the first run has a result, the second has a related one. -/
def Sim {α α' : Type} (r : Res α) (r' : Res α') (Q : α → α' → Prop) : Prop :=
  ∀ a, r = .ok a → ∃ a', r' = .ok a' ∧ Q a a'

theorem Sim.ok {α α' : Type} {a : α} {a' : α'} {Q : α → α' → Prop} (h : Q a a') :
    Sim (.ok a) (.ok a') Q := fun _ e => ⟨a', rfl, by cases e; exact h⟩

theorem Sim.bind {α α' γ γ' : Type} {r : Res α} {r' : Res α'} {Q : α → α' → Prop} {f : α → Res γ}
    {f' : α' → Res γ'} {P : γ → γ' → Prop} (h : Sim r r' Q) (hf : ∀ a a', Q a a' → Sim (f a) (f' a') P) :
    Sim (r >>= f) (r' >>= f') P := by
  intro c hc
  cases r with
  | ok a =>
    obtain ⟨a', rfl, hq⟩ := h a rfl
    exact hf a a' hq c hc
  | ub => exact nomatch hc
  | diverge => exact nomatch hc

theorem Sim.mono {α α' : Type} {r : Res α} {r' : Res α'} {Q P : α → α' → Prop} (h : Sim r r' Q)
    (hq : ∀ a a', Q a a' → P a a') : Sim r r' P :=
  fun a e => by obtain ⟨a', h1, h2⟩ := h a e; exact ⟨a', h1, hq _ _ h2⟩

theorem Sim.refl {α : Type} (r : Res α) : Sim r r (· = ·) := fun a e => ⟨a, e, rfl⟩

/-- Two buffers in step (`R`), or both at the end of the data (`E`). -/
structure ReadSim (β γ : Type) [ReadBuffer β] [ReadBuffer γ] where
  len : β → Nat
  R : β → γ → Prop
  E : β → γ → Prop
  size_lt : ∀ b c, R b c → ReadBuffer.getSize b < 4294967296 ∧ ReadBuffer.getSize c < 4294967296
  size_le : ∀ b c, R b c → len b ≤ ReadBuffer.getSize b
  size_new : ∀ b c n, R b c → n < 4294967296 →
    min n (ReadBuffer.getSize b) = min n (ReadBuffer.getSize c) ∨
    (len b < min n (ReadBuffer.getSize b) ∧ len b ≤ min n (ReadBuffer.getSize c))
  pop_some : ∀ b c, R b c → 0 < len b → ∃ x b' c', ReadBuffer.pop b = .ok (some x, b') ∧
    ReadBuffer.pop c = .ok (some x, c') ∧ R b' c' ∧ len b' = len b - 1 ∧
    ReadBuffer.getSize b - 1 ≤ ReadBuffer.getSize b'
  pop_end : ∀ b c, R b c → len b = 0 → E b c
  end_left : ∀ b c, E b c → ∃ b', ReadBuffer.pop b = .ok (none, b') ∧ E b' c
  end_right : ∀ b c, E b c → ∃ c', ReadBuffer.pop c = .ok (none, c') ∧ E b c'
  advance_le : ∀ b c n, R b c → n ≤ len b → ∃ r b' r' c', ReadBuffer.advanceN b n = .ok (r, b') ∧
    ReadBuffer.advanceN c n = .ok (r', c') ∧ R b' c' ∧ len b' = len b - n ∧
    ReadBuffer.getSize b - n ≤ ReadBuffer.getSize b'
  advance_zero : ∀ b c, R b c → ∃ r b', ReadBuffer.advanceN b 0 = .ok (r, b') ∧ R b' c ∧
    len b' = len b ∧ ReadBuffer.getSize b ≤ ReadBuffer.getSize b'
  over : ∀ b c n, R b c → len b < n → n ≤ ReadBuffer.getSize b → ReadBuffer.advanceN b n = .ub
  advance : ∀ b c n, R b c → n < 4294967296 →
    Sim (ReadBuffer.advanceN b n) (ReadBuffer.advanceN c n) fun p q => R p.2 q.2

section
variable {β γ : Type} [ReadBuffer β] [ReadBuffer γ] (S : ReadSim β γ)

/-- In step or at the end. -/
def ReadSim.W (b : β) (c : γ) : Prop := S.R b c ∨ S.E b c

theorem ReadSim.pop {b : β} {c : γ} (h : S.W b c) :
    Sim (ReadBuffer.pop b) (ReadBuffer.pop c) fun p q =>
      p.1 = q.1 ∧ S.W p.2 q.2 ∧ (p.1 ≠ none → S.R p.2 q.2) := by
  have hend : S.E b c → Sim (ReadBuffer.pop b) (ReadBuffer.pop c) fun p q =>
      p.1 = q.1 ∧ S.W p.2 q.2 ∧ (p.1 ≠ none → S.R p.2 q.2) := by
    intro h
    obtain ⟨b', h1, h2⟩ := S.end_left b c h
    obtain ⟨c', h3, h4⟩ := S.end_right b' c h2
    rw [h1, h3]
    exact Sim.ok ⟨rfl, Or.inr h4, fun h => absurd rfl h⟩
  rcases h with h | h
  · by_cases h0 : S.len b = 0
    · exact hend (S.pop_end b c h h0)
    · obtain ⟨x, b', c', h1, h2, h3, _⟩ := S.pop_some b c h (by omega)
      rw [h1, h2]
      exact Sim.ok ⟨rfl, Or.inl h3, fun _ => h3⟩
  · exact hend h

/-- The sections of two related buffers. -/
def ReadSim.section : ReadSim (Section β) (Section γ) where
  len s := min s.size (S.len s.buffer)
  R s s' := S.R s.buffer s'.buffer ∧ s.size ≤ ReadBuffer.getSize s.buffer ∧
    s.size < 4294967296 ∧ s'.size < 4294967296 ∧
    (s.size = s'.size ∨ (S.len s.buffer < s.size ∧ S.len s.buffer ≤ s'.size))
  E s s' := (S.R s.buffer s'.buffer ∧ s.size = 0 ∧ s'.size = 0) ∨ S.E s.buffer s'.buffer
  size_lt s s' h := ⟨h.2.2.1, h.2.2.2.1⟩
  size_le s s' h := Nat.min_le_left _ _
  size_new s s' n h hn := by
    obtain ⟨_, _, _, _, h⟩ := h
    show min n s.size = min n s'.size ∨
      (min s.size (S.len s.buffer) < min n s.size ∧ min s.size (S.len s.buffer) ≤ min n s'.size)
    rcases h with h | ⟨h1, h2⟩
    · rw [h]; exact Or.inl rfl
    · rw [Nat.min_eq_right (Nat.le_of_lt h1)]
      by_cases he : min n s.size = min n s'.size
      · exact Or.inl he
      · refine Or.inr ?_
        omega
  pop_some s s' h h0 := by
    obtain ⟨hR, hg, hl, hl', h⟩ := h
    have h1 : 0 < s.size := by omega
    have h2 : 0 < S.len s.buffer := by omega
    have h3 : 0 < s'.size := by omega
    obtain ⟨x, b', c', e1, e2, e3, e4, e5⟩ := S.pop_some _ _ hR h2
    have k1 : u32sub s.size 1 = s.size - 1 := by unfold u32sub u32 two32; omega
    have k2 : u32sub s'.size 1 = s'.size - 1 := by unfold u32sub u32 two32; omega
    refine ⟨x, { s with buffer := b', size := s.size - 1 }, { s' with buffer := c', size := s'.size - 1 },
      ?_, ?_, ⟨e3, ?_, ?_, ?_, ?_⟩, ?_, ?_⟩
    · show Section.pop s = _
      unfold Section.pop
      rw [if_pos h1, e1, Res.ok_bind, k1]
      rfl
    · show Section.pop s' = _
      unfold Section.pop
      rw [if_pos h3, e2, Res.ok_bind, k2]
      rfl
    · show s.size - 1 ≤ ReadBuffer.getSize b'
      omega
    · show s.size - 1 < _
      omega
    · show s'.size - 1 < _
      omega
    · show s.size - 1 = s'.size - 1 ∨ (S.len b' < s.size - 1 ∧ S.len b' ≤ s'.size - 1)
      omega
    · show min (s.size - 1) (S.len b') = min s.size (S.len s.buffer) - 1
      omega
    · show s.size - 1 ≤ s.size - 1
      omega
  pop_end s s' h h0 := by
    obtain ⟨hR, hg, hl, hl', h⟩ := h
    by_cases hb : S.len s.buffer = 0
    · exact Or.inr (S.pop_end _ _ hR hb)
    · exact Or.inl ⟨hR, by omega, by omega⟩
  end_left s s' h := by
    show ∃ b', Section.pop s = _ ∧ _
    unfold Section.pop
    by_cases hs : 0 < s.size
    · rcases h with ⟨_, h, _⟩ | h
      · omega
      · obtain ⟨b', h1, h2⟩ := S.end_left _ _ h
        rw [if_pos hs, h1]
        exact ⟨_, rfl, Or.inr h2⟩
    · rw [if_neg hs]
      exact ⟨_, rfl, h⟩
  end_right s s' h := by
    show ∃ b', Section.pop s' = _ ∧ _
    unfold Section.pop
    by_cases hs : 0 < s'.size
    · rcases h with ⟨_, _, h⟩ | h
      · omega
      · obtain ⟨b', h1, h2⟩ := S.end_right _ _ h
        rw [if_pos hs, h1]
        exact ⟨_, rfl, Or.inr h2⟩
    · rw [if_neg hs]
      exact ⟨_, rfl, h⟩
  advance_le s s' n h hn := by
    obtain ⟨hR, hg, hl, hl', h⟩ := h
    have hsub : ∀ a, n ≤ a → a < 4294967296 → u32sub a n = a - n := by
      intro a h1 h2; unfold u32sub u32 two32; omega
    show ∃ r b' r' c', Section.advanceN s n = _ ∧ Section.advanceN s' n = _ ∧ _
    unfold Section.advanceN
    by_cases h0 : 0 < s.size
    · rw [if_pos h0]
      by_cases h0' : 0 < s'.size
      · rw [if_pos h0', if_pos (show n ≤ s.size by omega), if_pos (show n ≤ s'.size by omega)]
        obtain ⟨r, b', r', c', e1, e2, e3, e4, e5⟩ := S.advance_le _ _ n hR (by omega)
        dsimp only
        rw [e1, e2, hsub _ (by omega) hl, hsub _ (by omega) hl']
        refine ⟨r, _, r', _, rfl, rfl, ⟨e3, ?_, ?_, ?_, ?_⟩, ?_, ?_⟩
        · show s.size - n ≤ ReadBuffer.getSize b'
          omega
        · show s.size - n < _
          omega
        · show s'.size - n < _
          omega
        · show s.size - n = s'.size - n ∨ (S.len b' < s.size - n ∧ S.len b' ≤ s'.size - n)
          omega
        · show min (s.size - n) (S.len b') = min s.size (S.len s.buffer) - n
          omega
        · show s.size - n ≤ s.size - n
          omega
      · have hn0 : n = 0 := by omega
        subst hn0
        rw [if_neg h0', if_pos (Nat.zero_le _)]
        obtain ⟨r, b', e1, e2, e3, e4⟩ := S.advance_zero _ _ hR
        dsimp only
        rw [e1, hsub _ (by omega) hl]
        refine ⟨r, _, false, s', rfl, rfl, ⟨e2, ?_, ?_, hl', ?_⟩, ?_, ?_⟩
        · show s.size - 0 ≤ ReadBuffer.getSize b'
          omega
        · show s.size - 0 < _
          omega
        · show s.size - 0 = s'.size ∨ (S.len b' < s.size - 0 ∧ S.len b' ≤ s'.size)
          omega
        · show min (s.size - 0) (S.len b') = min s.size (S.len s.buffer) - 0
          omega
        · show s.size - 0 ≤ s.size - 0
          omega
    · have hn0 : n = 0 := by omega
      have h0' : ¬ 0 < s'.size := by omega
      rw [if_neg h0, if_neg h0']
      exact ⟨false, s, false, s', rfl, rfl, ⟨hR, hg, hl, hl', h⟩, by omega, Nat.sub_le _ _⟩
  advance_zero s s' h := by
    obtain ⟨hR, hg, hl, hl', h⟩ := h
    show ∃ r b', Section.advanceN s 0 = _ ∧ _
    unfold Section.advanceN
    by_cases h0 : 0 < s.size
    · rw [if_pos h0, if_pos (Nat.zero_le _)]
      obtain ⟨r, b', e1, e2, e3, e4⟩ := S.advance_zero _ _ hR
      have k : u32sub s.size 0 = s.size := by unfold u32sub u32 two32; omega
      dsimp only
      rw [e1, k]
      refine ⟨r, _, rfl, ⟨e2, ?_, hl, hl', ?_⟩, ?_, ?_⟩
      · show s.size ≤ ReadBuffer.getSize b'
        omega
      · show s.size = s'.size ∨ (S.len b' < s.size ∧ S.len b' ≤ s'.size)
        omega
      · show min s.size (S.len b') = min s.size (S.len s.buffer)
        omega
      · show s.size ≤ s.size
        omega
    · rw [if_neg h0]
      exact ⟨false, s, rfl, ⟨hR, hg, hl, hl', h⟩, rfl, Nat.le_refl _⟩
  over s s' n h h1 h2 := by
    obtain ⟨hR, hg, hl, hl', h⟩ := h
    have h2 : n ≤ s.size := h2
    show Section.advanceN s n = _
    unfold Section.advanceN
    rw [if_pos (by omega), if_pos h2]
    dsimp only
    rw [S.over _ _ n hR (by omega) (by omega)]
    rfl
  advance s s' n h hn := by
    obtain ⟨hR, hg, hl, hl', h⟩ := h
    show Sim (Section.advanceN s n) (Section.advanceN s' n) _
    unfold Section.advanceN
    by_cases h0 : 0 < s.size
    · rw [if_pos h0]
      dsimp only
      generalize hk : (if n ≤ s.size then n else s.size) = k
      have hk' : k ≤ s.size ∧ k ≤ n ∧ (k = n ∨ k = s.size) := by
        rw [← hk]; split <;> omega
      by_cases hle : k ≤ S.len s.buffer
      · by_cases h0' : 0 < s'.size
        · rw [if_pos h0']
          have hk2 : (if n ≤ s'.size then n else s'.size) = k := by
            split <;> omega
          rw [hk2]
          obtain ⟨r, b', r', c', e1, e2, e3, e4, e5⟩ := S.advance_le _ _ k hR hle
          rw [e1, e2]
          have k1 : u32sub s.size k = s.size - k := by unfold u32sub u32 two32; omega
          have k2 : u32sub s'.size k = s'.size - k := by unfold u32sub u32 two32; omega
          rw [k1, k2]
          refine Sim.ok ⟨e3, ?_, ?_, ?_, ?_⟩
          · show s.size - k ≤ ReadBuffer.getSize b'
            omega
          · show s.size - k < _
            omega
          · show s'.size - k < _
            omega
          · show s.size - k = s'.size - k ∨ (S.len b' < s.size - k ∧ S.len b' ≤ s'.size - k)
            omega
        · have hk0 : k = 0 := by omega
          subst hk0
          rw [if_neg h0']
          obtain ⟨r, b', e1, e2, e3, e4⟩ := S.advance_zero _ _ hR
          have k1 : u32sub s.size 0 = s.size := by unfold u32sub u32 two32; omega
          rw [e1, k1]
          refine Sim.ok ⟨e2, ?_, hl, hl', ?_⟩
          · show s.size ≤ ReadBuffer.getSize b'
            omega
          · show s.size = s'.size ∨ (S.len b' < s.size ∧ S.len b' ≤ s'.size)
            omega
      · rw [S.over _ _ k hR (by omega) (by omega)]
        exact fun _ h => nomatch h
    · rw [if_neg h0, if_neg (by omega)]
      exact Sim.ok ⟨hR, hg, hl, hl', h⟩

theorem ReadSim.new {b : β} {c : γ} (h : S.W b c) (n : Nat) (hn : n < 4294967296) :
    S.section.W (Section.new b n) (Section.new c n) := by
  rcases h with h | h
  · refine Or.inl ⟨h, Nat.min_le_right _ _, ?_, ?_, S.size_new b c n h hn⟩
    · show min n _ < _
      omega
    · show min n _ < _
      omega
  · exact Or.inr (Or.inr h)

theorem ReadSim.parent {s : Section β} {s' : Section γ} (h : S.section.W s s') :
    S.W s.buffer s'.buffer := by
  rcases h with h | h | h
  · exact Or.inl h.1
  · exact Or.inl h.1
  · exact Or.inr h

end

/-! ## The wire format -/

section Wire
variable {β γ : Type} [ReadBuffer β] [ReadBuffer γ] (S : ReadSim β γ)

/-- Same result, related buffers. -/
def ReadSim.Same {α : Type} (p : α × β) (q : α × γ) : Prop := p.1 = q.1 ∧ S.W p.2 q.2

theorem ReadSim.varintLoop {w : Nat} (n i : Nat) (v : BitVec w) {b : β} {c : γ} (h : S.W b c) :
    Sim (deserializeVarintLoop n i v b) (deserializeVarintLoop n i v c) fun p q =>
      S.Same p q ∧ (p.1 ≠ none → S.R p.2 q.2) := by
  induction n generalizing i v b c with
  | zero => exact fun _ h => nomatch h
  | succ n ih =>
    unfold deserializeVarintLoop
    refine (S.pop h).bind ?_
    rintro ⟨r, b'⟩ ⟨r', c'⟩ ⟨h1, h2, h3⟩
    dsimp only at h1 h2 h3
    subst h1
    cases r with
    | none => exact Sim.ok ⟨⟨rfl, h2⟩, fun h => absurd rfl h⟩
    | some x =>
      dsimp only
      split
      · exact ih _ _ h2
      · exact Sim.ok ⟨⟨rfl, h2⟩, fun _ => h3 (by simp)⟩

theorem ReadSim.varint (w : Nat) {b : β} {c : γ} (h : S.W b c) :
    Sim (deserializeVarint w b) (deserializeVarint w c) fun p q =>
      S.Same p q ∧ ((∃ v, p.1 = .ok v) → S.R p.2 q.2) := by
  unfold deserializeVarint
  refine (S.varintLoop _ _ _ h).bind ?_
  rintro ⟨r, b'⟩ ⟨r', c'⟩ ⟨⟨h1, h2⟩, h3⟩
  dsimp only at h1 h2 h3
  subst h1
  cases r with
  | none => exact Sim.ok ⟨⟨rfl, h2⟩, fun ⟨_, h⟩ => nomatch h⟩
  | some x =>
    dsimp only
    split
    · exact Sim.ok ⟨⟨rfl, h2⟩, fun ⟨_, h⟩ => nomatch h⟩
    · exact Sim.ok ⟨⟨rfl, h2⟩, fun _ => h3 (by simp)⟩

theorem ReadSim.tag {b : β} {c : γ} (h : S.W b c) :
    Sim (deserializeTag b) (deserializeTag c) S.Same := by
  unfold deserializeTag
  refine (S.varint 32 h).bind ?_
  rintro ⟨r, b'⟩ ⟨r', c'⟩ ⟨⟨h1, h2⟩, _⟩
  dsimp only at h1 h2
  subst h1
  cases r with
  | error e => exact Sim.ok ⟨rfl, h2⟩
  | ok v =>
    dsimp only
    split <;> exact Sim.ok ⟨rfl, h2⟩

theorem ReadSim.fixedLoop {w : Nat} (n i : Nat) (v : BitVec w) {b : β} {c : γ} (h : S.W b c) :
    Sim (deserializeFixedLoop n i v b) (deserializeFixedLoop n i v c) S.Same := by
  induction n generalizing i v b c with
  | zero => exact Sim.ok ⟨rfl, h⟩
  | succ n ih =>
    unfold deserializeFixedLoop
    refine (S.pop h).bind ?_
    rintro ⟨r, b'⟩ ⟨r', c'⟩ ⟨h1, h2, h3⟩
    dsimp only at h1 h2 h3
    subst h1
    cases r with
    | none => exact Sim.ok ⟨rfl, h2⟩
    | some x => exact ih _ _ h2

theorem ReadSim.fixed (w : Nat) {b : β} {c : γ} (h : S.W b c) :
    Sim (deserializeFixed w b) (deserializeFixed w c) S.Same := by
  unfold deserializeFixed
  refine (S.fixedLoop _ _ _ h).bind ?_
  rintro ⟨r, b'⟩ ⟨r', c'⟩ ⟨h1, h2⟩
  dsimp only at h1 h2
  subst h1
  cases r <;> exact Sim.ok ⟨rfl, h2⟩

theorem ReadSim.varintMap {α : Type} (w : Nat) (f : BitVec w → α) {b : β} {c : γ} (h : S.W b c) :
    Sim (do let (r, b) ← deserializeVarint w b; pure (r.map f, b) : Res (Except Error α × β))
      (do let (r, b) ← deserializeVarint w c; pure (r.map f, b) : Res (Except Error α × γ)) S.Same := by
  refine (S.varint w h).bind ?_
  rintro ⟨r, b'⟩ ⟨r', c'⟩ ⟨⟨h1, h2⟩, _⟩
  dsimp only at h1 h2
  subst h1
  exact Sim.ok ⟨rfl, h2⟩

theorem ReadSim.scalarDecode (s : ScalarTy) {b : β} {c : γ} (h : S.W b c) :
    Sim (s.decode b) (s.decode c) S.Same := by
  have hb : Sim (deserializeBool b) (deserializeBool c) S.Same := by
    unfold deserializeBool
    refine (S.pop h).bind ?_
    rintro ⟨r, b'⟩ ⟨r', c'⟩ ⟨h1, h2, _⟩
    dsimp only at h1 h2
    subst h1
    cases r <;> exact Sim.ok ⟨rfl, h2⟩
  cases s with
  | boolean => exact hb
  | uint32 => exact (S.varint 32 h).mono fun _ _ h => h.1
  | uint64 => exact (S.varint 64 h).mono fun _ _ h => h.1
  | enumeration => exact (S.varint 32 h).mono fun _ _ h => h.1
  | int32 => exact S.varintMap 64 _ h
  | int64 => exact S.varintMap 64 _ h
  | sint32 => exact S.varintMap 64 _ h
  | sint64 => exact S.varintMap 64 _ h
  | fixed32 => exact S.fixed 32 h
  | sfixed32 => exact S.fixed 32 h
  | floatfixed => exact S.fixed 32 h
  | fixed64 => exact S.fixed 64 h
  | sfixed64 => exact S.fixed 64 h
  | doublefixed => exact S.fixed 64 h

theorem ReadSim.skip (wt : WireType) {b : β} {c : γ} (h : S.W b c) :
    Sim (skipUnknownField b wt) (skipUnknownField c wt) S.Same := by
  have hv : ∀ w, Sim (do let (r, b) ← deserializeVarint w b; pure (errOf r, b) : Res (Error × β))
      (do let (r, b) ← deserializeVarint w c; pure (errOf r, b) : Res (Error × γ)) S.Same := by
    intro w
    refine (S.varint w h).bind ?_
    rintro ⟨r, b'⟩ ⟨r', c'⟩ ⟨⟨h1, h2⟩, _⟩
    dsimp only at h1 h2
    subst h1
    exact Sim.ok ⟨rfl, h2⟩
  have hf : ∀ w, Sim (do let (r, b) ← deserializeFixed w b; pure (errOf r, b) : Res (Error × β))
      (do let (r, b) ← deserializeFixed w c; pure (errOf r, b) : Res (Error × γ)) S.Same := by
    intro w
    refine (S.fixed w h).bind ?_
    rintro ⟨r, b'⟩ ⟨r', c'⟩ ⟨h1, h2⟩
    dsimp only at h1 h2
    subst h1
    exact Sim.ok ⟨rfl, h2⟩
  cases wt with
  | varint => exact hv 64
  | fixed64 => exact hf 64
  | fixed32 => exact hf 32
  | startGroup => exact Sim.ok ⟨rfl, h⟩
  | endGroup => exact Sim.ok ⟨rfl, h⟩
  | lengthDelimited =>
    show Sim (skipLengthDelimited b) (skipLengthDelimited c) _
    unfold skipLengthDelimited
    refine (S.varint 32 h).bind ?_
    rintro ⟨r, b'⟩ ⟨r', c'⟩ ⟨⟨h1, h2⟩, h3⟩
    dsimp only at h1 h2 h3
    subst h1
    cases r with
    | error e => exact Sim.ok ⟨rfl, h2⟩
    | ok v =>
      refine (S.advance b' c' v.toNat (h3 ⟨v, rfl⟩) v.isLt).bind ?_
      rintro ⟨r, b''⟩ ⟨r', c''⟩ h4
      exact Sim.ok ⟨rfl, Or.inl h4⟩

end Wire

/-! ## Classes -/

/-- Same error, related buffers, equal objects. -/
def ReadSim.Out {β γ σ : Type} [ReadBuffer β] [ReadBuffer γ] (S : ReadSim β γ) (p : Error × β × σ)
    (q : Error × γ × σ) : Prop := p.1 = q.1 ∧ S.W p.2.1 q.2.1 ∧ p.2.2 = q.2.2

/-- A run on one buffer is reproduced on a related buffer, with the same or more fuel. -/
structure SimLaw (C : FieldClass) : Prop where
  des : ∀ {β γ : Type} [ReadBuffer β] [ReadBuffer γ] (S : ReadSim β γ) (fuel fuel' : Nat) (b : β)
    (c : γ) (x : C.State), fuel ≤ fuel' → S.W b c →
    Sim (C.deserialize fuel b x) (C.deserialize fuel' c x) S.Out
  check : ∀ {β γ : Type} [ReadBuffer β] [ReadBuffer γ] (S : ReadSim β γ) (fuel fuel' : Nat) (b : β)
    (c : γ) (wt : WireType) (x : C.State), fuel ≤ fuel' → S.W b c →
    Sim (C.deserializeCheckType fuel b wt x) (C.deserializeCheckType fuel' c wt x) S.Out

theorem scalar_sim (s : ScalarTy) : SimLaw (scalarClass s) := by
  have key : ∀ {β γ : Type} [ReadBuffer β] [ReadBuffer γ] (S : ReadSim β γ) (b : β)
      (c : γ) (x : s.Val), S.W b c → Sim (s.deserialize b x) (s.deserialize c x) S.Out := by
    intro β γ _ _ S b c x h
    unfold ScalarTy.deserialize
    refine (S.scalarDecode s h).bind ?_
    rintro ⟨r, b'⟩ ⟨r', c'⟩ ⟨h1, h2⟩
    dsimp only at h1 h2
    subst h1
    cases r <;> exact Sim.ok ⟨rfl, h2, rfl⟩
  refine ⟨fun S _ _ b c x _ h => key S b c x h, fun S _ _ b c wt x _ h => ?_⟩
  show Sim (if s.wireType = wt then s.deserialize b x else pure (.invalidWiretype, b, x) : Res _)
    (if s.wireType = wt then s.deserialize c x else pure (.invalidWiretype, c, x) : Res _) _
  split
  · exact key S b c x h
  · exact Sim.ok ⟨rfl, h, rfl⟩

theorem str_sim (cap : Nat) : SimLaw (strClass cap) := by
  have loop : ∀ {β γ : Type} [ReadBuffer β] [ReadBuffer γ] (S : ReadSim β γ) (n : Nat) (b : β)
      (c : γ) (x : StrObj), S.W b c → Sim (StrObj.readLoop n b x) (StrObj.readLoop n c x)
        fun p q => S.W p.1 q.1 ∧ p.2 = q.2 := by
    intro β γ _ _ S n
    induction n with
    | zero => exact fun b c x h => Sim.ok ⟨h, rfl⟩
    | succ n ih =>
      intro b c x h
      unfold StrObj.readLoop
      refine (S.pop h).bind ?_
      rintro ⟨r, b'⟩ ⟨r', c'⟩ ⟨h1, h2, _⟩
      dsimp only at h1 h2
      subst h1
      cases r with
      | none => exact Sim.ok ⟨h2, rfl⟩
      | some v =>
        refine (Sim.refl (arraySet x.data x.len v)).bind ?_
        rintro d _ rfl
        exact ih _ _ _ h2
  have key : ∀ {β γ : Type} [ReadBuffer β] [ReadBuffer γ] (S : ReadSim β γ) (b : β)
      (c : γ) (x : StrObj), S.W b c → Sim (StrObj.deserialize cap b x) (StrObj.deserialize cap c x) S.Out := by
    intro β γ _ _ S b c x h
    unfold StrObj.deserialize
    refine (S.varint 32 h).bind ?_
    rintro ⟨r, b'⟩ ⟨r', c'⟩ ⟨⟨h1, h2⟩, _⟩
    dsimp only at h1 h2
    subst h1
    cases r with
    | error e => exact Sim.ok ⟨rfl, h2, rfl⟩
    | ok v =>
      dsimp only
      split
      · refine (loop S _ _ _ _ h2).bind ?_
        rintro ⟨b'', y⟩ ⟨c'', y'⟩ ⟨h3, h4⟩
        dsimp only at h3 h4
        subst h4
        dsimp only
        split <;> exact Sim.ok ⟨rfl, h3, rfl⟩
      · exact Sim.ok ⟨rfl, h2, rfl⟩
  refine ⟨fun S _ _ b c x _ h => key S b c x h, fun S _ _ b c wt x _ h => ?_⟩
  show Sim (if wt = .lengthDelimited then StrObj.deserialize cap b x else pure (.invalidWiretype, b, x) : Res _)
    (if wt = .lengthDelimited then StrObj.deserialize cap c x else pure (.invalidWiretype, c, x) : Res _) _
  split
  · exact key S b c x h
  · exact Sim.ok ⟨rfl, h, rfl⟩

theorem rep_sim {E : FieldClass} (hE : SimLaw E) (cap : Nat) : SimLaw (repeatedClass E cap) := by
  have loop : ∀ {β γ : Type} [ReadBuffer β] [ReadBuffer γ] (S : ReadSim β γ) (fuel fuel' : Nat),
      fuel ≤ fuel' → ∀ (k k' : Nat) (e : Error) (v : E.State) (b : β) (c : γ) (x : RepObj E.State),
      k ≤ k' → S.W b c → Sim (RepObj.deserializePackedLoop cap fuel k e v b x)
        (RepObj.deserializePackedLoop cap fuel' k' e v c x) S.Out := by
    intro β γ _ _ S fuel fuel' hf k
    induction k with
    | zero => exact fun _ _ _ _ _ _ _ _ _ h => nomatch h
    | succ k ih =>
      intro k' e v b c x hk h
      obtain ⟨j, rfl⟩ : ∃ j, k' = j + 1 := ⟨k' - 1, by omega⟩
      unfold RepObj.deserializePackedLoop
      split
      · refine (Sim.refl (RepObj.add cap x v)).bind ?_
        rintro ⟨e', x'⟩ _ rfl
        dsimp only
        split
        · refine (hE.des S fuel fuel' b c v hf h).bind ?_
          rintro ⟨e1, b', v1⟩ ⟨e2, c', v2⟩ ⟨h1, h2, h3⟩
          dsimp only at h1 h2 h3
          subst h1 h3
          exact ih _ _ _ _ _ _ (by omega) h2
        · exact Sim.ok ⟨rfl, h, rfl⟩
      · exact Sim.ok ⟨rfl, h, rfl⟩
  have packed : ∀ {β γ : Type} [ReadBuffer β] [ReadBuffer γ] (S : ReadSim β γ) (fuel fuel' : Nat) (b : β)
      (c : γ) (x : RepObj E.State), fuel ≤ fuel' → S.W b c →
      Sim (RepObj.deserializePacked cap fuel b x) (RepObj.deserializePacked cap fuel' c x) S.Out := by
    intro β γ _ _ S fuel fuel' b c x hf h
    unfold RepObj.deserializePacked
    refine (S.varint 32 h).bind ?_
    rintro ⟨r, b'⟩ ⟨r', c'⟩ ⟨⟨h1, h2⟩, _⟩
    dsimp only at h1 h2
    subst h1
    dsimp only
    have hlt : (match r with | .ok v => v.toNat | .error _ => 0) < 4294967296 := by
      cases r with
      | error => exact Nat.zero_lt_succ _
      | ok v => exact v.isLt
    refine (hE.des S.section fuel fuel' _ _ E.init hf (S.new h2 _ hlt)).bind ?_
    rintro ⟨e1, b1, v1⟩ ⟨e2, c1, v2⟩ ⟨g1, g2, g3⟩
    dsimp only at g1 g2 g3
    subst g1 g3
    refine (loop S.section fuel fuel' hf fuel fuel' e1 v1 b1 c1 x hf g2).bind ?_
    rintro ⟨e3, b2, x3⟩ ⟨e4, c2, x4⟩ ⟨k1, k2, k3⟩
    dsimp only at k1 k2 k3
    subst k1 k3
    dsimp only
    split <;> exact Sim.ok ⟨rfl, S.parent k2, rfl⟩
  have elem : ∀ {β γ : Type} [ReadBuffer β] [ReadBuffer γ] (S : ReadSim β γ) (fuel fuel' i : Nat) (b : β)
      (c : γ) (x : RepObj E.State), fuel ≤ fuel' → S.W b c →
      Sim (RepObj.deserializeElem cap fuel i b x) (RepObj.deserializeElem cap fuel' i c x) S.Out := by
    intro β γ _ _ S fuel fuel' i b c x hf h
    unfold RepObj.deserializeElem
    dsimp only
    refine (Sim.refl (arrayGet _ _)).bind ?_
    rintro v _ rfl
    refine (hE.des S fuel fuel' b c v hf h).bind ?_
    rintro ⟨e1, b1, v1⟩ ⟨e2, c1, v2⟩ ⟨g1, g2, g3⟩
    dsimp only at g1 g2 g3
    subst g1 g3
    dsimp only
    refine (Sim.refl (arraySet _ _ _)).bind ?_
    rintro d _ rfl
    exact Sim.ok ⟨rfl, g2, rfl⟩
  have unpacked : ∀ {β γ : Type} [ReadBuffer β] [ReadBuffer γ] (S : ReadSim β γ) (fuel fuel' : Nat) (b : β)
      (c : γ) (x : RepObj E.State), fuel ≤ fuel' → S.W b c →
      Sim (RepObj.deserializeUnpacked cap fuel b x) (RepObj.deserializeUnpacked cap fuel' c x) S.Out := by
    intro β γ _ _ S fuel fuel' b c x hf h
    unfold RepObj.deserializeUnpacked
    dsimp only
    split
    · split
      · refine (S.varint 32 h).bind ?_
        rintro ⟨r, b'⟩ ⟨r', c'⟩ ⟨⟨h1, h2⟩, _⟩
        dsimp only at h1 h2
        subst h1
        cases r with
        | error e => exact Sim.ok ⟨rfl, h2, rfl⟩
        | ok v =>
          refine (elem S.section fuel fuel' _ _ _ x hf (S.new h2 v.toNat v.isLt)).bind ?_
          rintro ⟨e1, b1, v1⟩ ⟨e2, c1, v2⟩ ⟨g1, g2, g3⟩
          dsimp only at g1 g2 g3
          subst g1 g3
          exact Sim.ok ⟨rfl, S.parent g2, rfl⟩
      · exact elem S fuel fuel' _ _ _ x hf h
    · exact Sim.ok ⟨rfl, h, rfl⟩
  have key : ∀ {β γ : Type} [ReadBuffer β] [ReadBuffer γ] (S : ReadSim β γ) (fuel fuel' : Nat) (b : β)
      (c : γ) (x : RepObj E.State), fuel ≤ fuel' → S.W b c →
      Sim (RepObj.deserialize cap fuel b x) (RepObj.deserialize cap fuel' c x) S.Out := by
    intro β γ _ _ S fuel fuel' b c x hf h
    unfold RepObj.deserialize
    split
    · exact packed S fuel fuel' b c x hf h
    · exact unpacked S fuel fuel' b c x hf h
  refine ⟨fun S fuel fuel' b c x hf h => key S fuel fuel' b c x hf h, fun S fuel fuel' b c wt x hf h => ?_⟩
  show Sim (if wt = .lengthDelimited then RepObj.deserialize cap fuel b x else pure (.invalidWiretype, b, x) : Res _)
    (if wt = .lengthDelimited then RepObj.deserialize cap fuel' c x else pure (.invalidWiretype, c, x) : Res _) _
  split
  · exact key S fuel fuel' b c x hf h
  · exact Sim.ok ⟨rfl, h, rfl⟩

/-- Both absent, or related runs. -/
def OSim {α α' : Type} (r : Option (Res α)) (r' : Option (Res α')) (Q : α → α' → Prop) : Prop :=
  match r, r' with
  | none, none => True
  | some r, some r' => Sim r r' Q
  | _, _ => False

def FieldsSim (F : FieldsClass) : Prop :=
  ∀ {β γ : Type} [ReadBuffer β] [ReadBuffer γ] (S : ReadSim β γ) (fuel fuel' id : Nat) (wt : WireType)
    (b : β) (c : γ) (p : Presence) (x : F.State), fuel ≤ fuel' → S.W b c →
    OSim (F.dispatch fuel id wt b p x) (F.dispatch fuel' id wt c p x) S.Out

theorem fieldsSim_nil : FieldsSim .nil := fun _ _ _ _ _ _ _ _ _ _ _ => trivial

theorem fieldsSim_plain {C : FieldClass} {F : FieldsClass} (num : Nat) (h₁ : SimLaw C) (h₂ : FieldsSim F) :
    FieldsSim (.plain num C F) := by
  intro β γ _ _ S fuel fuel' id wt b c p x hf h
  simp only [FieldsClass.plain]
  split
  · show Sim _ _ _
    refine (h₁.check S fuel fuel' b c wt x.1 hf h).bind ?_
    rintro ⟨e1, b1, v1⟩ ⟨e2, c1, v2⟩ ⟨g1, g2, g3⟩
    dsimp only at g1 g2 g3
    subst g1 g3
    exact Sim.ok ⟨rfl, g2, rfl⟩
  · have ih := h₂ S fuel fuel' id wt b c p x.2 hf h
    revert ih
    generalize F.dispatch fuel id wt b p x.2 = r₁
    generalize F.dispatch fuel' id wt c p x.2 = r₂
    intro ih
    match r₁, r₂, ih with
    | none, none, _ => trivial
    | some r₁, some r₂, ih =>
      show Sim _ _ _
      refine Sim.bind ih ?_
      rintro ⟨e1, b1, v1⟩ ⟨e2, c1, v2⟩ ⟨g1, g2, g3⟩
      dsimp only at g1 g2 g3
      subst g1 g3
      exact Sim.ok ⟨rfl, g2, rfl⟩

theorem fieldsSim_optional {C : FieldClass} {F : FieldsClass} (num idx : Nat) (h₁ : SimLaw C)
    (h₂ : FieldsSim F) : FieldsSim (.optional num idx C F) := by
  intro β γ _ _ S fuel fuel' id wt b c p x hf h
  simp only [FieldsClass.optional]
  split
  · show Sim _ _ _
    refine (Sim.refl (Presence.setBit p idx)).bind ?_
    rintro p' _ rfl
    refine (h₁.check S fuel fuel' b c wt x.1 hf h).bind ?_
    rintro ⟨e1, b1, v1⟩ ⟨e2, c1, v2⟩ ⟨g1, g2, g3⟩
    dsimp only at g1 g2 g3
    subst g1 g3
    exact Sim.ok ⟨rfl, g2, rfl⟩
  · have ih := h₂ S fuel fuel' id wt b c p x.2 hf h
    revert ih
    generalize F.dispatch fuel id wt b p x.2 = r₁
    generalize F.dispatch fuel' id wt c p x.2 = r₂
    intro ih
    match r₁, r₂, ih with
    | none, none, _ => trivial
    | some r₁, some r₂, ih =>
      show Sim _ _ _
      refine Sim.bind ih ?_
      rintro ⟨e1, b1, v1⟩ ⟨e2, c1, v2⟩ ⟨g1, g2, g3⟩
      dsimp only at g1 g2 g3
      subst g1 g3
      exact Sim.ok ⟨rfl, g2, rfl⟩

def AltsSim (A : AltsClass) : Prop :=
  ∀ {β γ : Type} [ReadBuffer β] [ReadBuffer γ] (S : ReadSim β γ) (fuel fuel' id : Nat) (wt : WireType)
    (b : β) (c : γ) (u : Option A.U), fuel ≤ fuel' → S.W b c →
    Sim (A.deserialize fuel id b wt u) (A.deserialize fuel' id c wt u) S.Out

theorem altsSim_nil : AltsSim .nil := fun _ _ _ _ _ _ _ _ _ h => Sim.ok ⟨rfl, h, rfl⟩

theorem altsSim_cons {C : FieldClass} {A : AltsClass} (num : Nat) (h₁ : SimLaw C) (h₂ : AltsSim A) :
    AltsSim (.cons num C A) := by
  intro β γ _ _ S fuel fuel' id wt b c u hf h
  simp only [AltsClass.cons]
  split
  · refine (Sim.refl (AltsClass.access (AltsClass.left? u))).bind ?_
    rintro x _ rfl
    refine (h₁.check S fuel fuel' b c wt x hf h).bind ?_
    rintro ⟨e1, b1, v1⟩ ⟨e2, c1, v2⟩ ⟨g1, g2, g3⟩
    dsimp only at g1 g2 g3
    subst g1 g3
    exact Sim.ok ⟨rfl, g2, rfl⟩
  · refine (h₂ S fuel fuel' id wt b c _ hf h).bind ?_
    rintro ⟨e1, b1, v1⟩ ⟨e2, c1, v2⟩ ⟨g1, g2, g3⟩
    dsimp only at g1 g2 g3
    subst g1 g3
    exact Sim.ok ⟨rfl, g2, rfl⟩

theorem AltsSim.obj {A : AltsClass} (hA : AltsSim A) {β γ : Type} [ReadBuffer β] [ReadBuffer γ]
    (S : ReadSim β γ) (fuel fuel' id : Nat) (wt : WireType) (b : β) (c : γ) (o : OneofObj A.U)
    (hf : fuel ≤ fuel') (h : S.W b c) :
    Sim (A.deserializeObj fuel id b wt o) (A.deserializeObj fuel' id c wt o) S.Out := by
  unfold AltsClass.deserializeObj
  refine (Sim.refl (A.activate o id)).bind ?_
  rintro o' _ rfl
  refine (hA S fuel fuel' _ wt b c _ hf h).bind ?_
  rintro ⟨e1, b1, v1⟩ ⟨e2, c1, v2⟩ ⟨g1, g2, g3⟩
  dsimp only at g1 g2 g3
  subst g1 g3
  dsimp only
  split
  · refine (Sim.refl (A.clearObj _)).bind ?_
    rintro o'' _ rfl
    exact Sim.ok ⟨rfl, g2, rfl⟩
  · exact Sim.ok ⟨rfl, g2, rfl⟩

def OneofsSim (O : OneofsClass) : Prop :=
  ∀ {β γ : Type} [ReadBuffer β] [ReadBuffer γ] (S : ReadSim β γ) (fuel fuel' id : Nat) (wt : WireType)
    (b : β) (c : γ) (x : O.State), fuel ≤ fuel' → S.W b c →
    OSim (O.dispatch fuel id wt b x) (O.dispatch fuel' id wt c x) S.Out

theorem oneofsSim_nil : OneofsSim .nil := fun _ _ _ _ _ _ _ _ _ _ => trivial

theorem oneofsSim_cons {A : AltsClass} {O : OneofsClass} (h₁ : AltsSim A) (h₂ : OneofsSim O) :
    OneofsSim (.cons A O) := by
  intro β γ _ _ S fuel fuel' id wt b c x hf h
  simp only [OneofsClass.cons]
  split
  · show Sim _ _ _
    refine (h₁.obj S fuel fuel' id wt b c x.1 hf h).bind ?_
    rintro ⟨e1, b1, v1⟩ ⟨e2, c1, v2⟩ ⟨g1, g2, g3⟩
    dsimp only at g1 g2 g3
    subst g1 g3
    exact Sim.ok ⟨rfl, g2, rfl⟩
  · have ih := h₂ S fuel fuel' id wt b c x.2 hf h
    revert ih
    generalize O.dispatch fuel id wt b x.2 = r₁
    generalize O.dispatch fuel' id wt c x.2 = r₂
    intro ih
    match r₁, r₂, ih with
    | none, none, _ => trivial
    | some r₁, some r₂, ih =>
      show Sim _ _ _
      refine Sim.bind ih ?_
      rintro ⟨e1, b1, v1⟩ ⟨e2, c1, v2⟩ ⟨g1, g2, g3⟩
      dsimp only at g1 g2 g3
      subst g1 g3
      exact Sim.ok ⟨rfl, g2, rfl⟩

theorem step_sim {F : FieldsClass} {O : OneofsClass} (h₁ : FieldsSim F) (h₂ : OneofsSim O)
    {β γ : Type} [ReadBuffer β] [ReadBuffer γ] (S : ReadSim β γ) (fuel fuel' id : Nat) (wt : WireType)
    (b : β) (c : γ) (x : MsgObj F.State O.State) (hf : fuel ≤ fuel') (h : S.W b c) :
    Sim (MsgObj.step F O fuel id wt b x) (MsgObj.step F O fuel' id wt c x) S.Out := by
  unfold MsgObj.step
  have i₁ := h₁ S fuel fuel' id wt b c x.presence x.fields hf h
  have i₂ := h₂ S fuel fuel' id wt b c x.oneofs hf h
  revert i₁ i₂
  generalize F.dispatch fuel id wt b x.presence x.fields = r₁
  generalize F.dispatch fuel' id wt c x.presence x.fields = r₂
  generalize O.dispatch fuel id wt b x.oneofs = q₁
  generalize O.dispatch fuel' id wt c x.oneofs = q₂
  intro i₁ i₂
  match r₁, r₂, i₁ with
  | some r₁, some r₂, ih =>
    refine Sim.bind ih ?_
    rintro ⟨e1, b1, v1⟩ ⟨e2, c1, v2⟩ ⟨g1, g2, g3⟩
    dsimp only at g1 g2 g3
    subst g1 g3
    exact Sim.ok ⟨rfl, g2, rfl⟩
  | none, none, _ =>
    match q₁, q₂, i₂ with
    | some r₁, some r₂, ih =>
      refine Sim.bind ih ?_
      rintro ⟨e1, b1, v1⟩ ⟨e2, c1, v2⟩ ⟨g1, g2, g3⟩
      dsimp only at g1 g2 g3
      subst g1 g3
      exact Sim.ok ⟨rfl, g2, rfl⟩
    | none, none, _ =>
      dsimp only
      split
      · exact Sim.ok ⟨rfl, h, rfl⟩
      · refine (S.skip wt h).bind ?_
        rintro ⟨e1, b1⟩ ⟨e2, c1⟩ ⟨g1, g2⟩
        dsimp only at g1 g2
        subst g1
        exact Sim.ok ⟨rfl, g2, rfl⟩

theorem tagLoop_sim {σ β γ : Type} [ReadBuffer β] [ReadBuffer γ] (S : ReadSim β γ)
    {f : Nat → WireType → β → σ → Res (Error × β × σ)} {g : Nat → WireType → γ → σ → Res (Error × γ × σ)}
    (hs : ∀ id wt b c x, S.W b c → Sim (f id wt b x) (g id wt c x) S.Out) (k k' : Nat) (b : β) (c : γ)
    (x : σ) (hk : k ≤ k') (h : S.W b c) : Sim (tagLoop f k b x) (tagLoop g k' c x) S.Out := by
  induction k generalizing k' b c x with
  | zero => exact fun _ h => nomatch h
  | succ k ih =>
    obtain ⟨j, rfl⟩ : ∃ j, k' = j + 1 := ⟨k' - 1, by omega⟩
    unfold tagLoop
    refine (S.tag h).bind ?_
    rintro ⟨r, b'⟩ ⟨r', c'⟩ ⟨h1, h2⟩
    dsimp only at h1 h2
    subst h1
    cases r with
    | error e => exact Sim.ok ⟨rfl, h2, rfl⟩
    | ok v =>
      refine (hs v.2 v.1 b' c' x h2).bind ?_
      rintro ⟨e1, b1, v1⟩ ⟨e2, c1, v2⟩ ⟨g1, g2, g3⟩
      dsimp only at g1 g2 g3
      subst g1 g3
      dsimp only
      split
      · exact ih _ _ _ _ (by omega) g2
      · exact Sim.ok ⟨rfl, g2, rfl⟩

theorem msg_sim {F : FieldsClass} {O : OneofsClass} (n : Nat) (h₁ : FieldsSim F) (h₂ : OneofsSim O) :
    SimLaw (messageClass n F O) := by
  have key : ∀ {β γ : Type} [ReadBuffer β] [ReadBuffer γ] (S : ReadSim β γ) (fuel fuel' : Nat) (b : β)
      (c : γ) (x : MsgObj F.State O.State), fuel ≤ fuel' → S.W b c →
      Sim (MsgObj.deserialize F O fuel b x) (MsgObj.deserialize F O fuel' c x) S.Out := by
    intro β γ _ _ S fuel fuel' b c x hf h
    exact tagLoop_sim S (fun id wt b c x h => step_sim h₁ h₂ S fuel fuel' id wt b c x hf h) fuel fuel' b c x hf h
  refine ⟨fun S fuel fuel' b c x hf h => key S fuel fuel' b c x hf h, fun S fuel fuel' b c wt x hf h => ?_⟩
  show Sim (MsgObj.deserializeCheckType F O fuel b wt x) (MsgObj.deserializeCheckType F O fuel' c wt x) _
  unfold MsgObj.deserializeCheckType
  split
  · refine (S.varint 32 h).bind ?_
    rintro ⟨r, b'⟩ ⟨r', c'⟩ ⟨⟨h1, h2⟩, _⟩
    dsimp only at h1 h2
    subst h1
    cases r with
    | error e => exact Sim.ok ⟨rfl, h2, rfl⟩
    | ok v =>
      refine (key S.section fuel fuel' _ _ x hf (S.new h2 v.toNat v.isLt)).bind ?_
      rintro ⟨e1, b1, v1⟩ ⟨e2, c1, v2⟩ ⟨g1, g2, g3⟩
      dsimp only at g1 g2 g3
      subst g1 g3
      exact Sim.ok ⟨rfl, S.parent g2, rfl⟩
  · exact Sim.ok ⟨rfl, h, rfl⟩

mutual
theorem ElemTy.sim_law : (t : ElemTy) → SimLaw t.cls
  | .scalar s => scalar_sim s
  | .str cap => str_sim cap
  | .msg fs os => msg_sim _ (Fields.sim_law fs 0) (Oneofs.sim_law os)
theorem Fields.sim_law : (fs : Fields) → (idx : Nat) → FieldsSim (fs.cls idx)
  | .nil, _ => fieldsSim_nil
  | .plain num t rest, idx => fieldsSim_plain num (ElemTy.sim_law t) (Fields.sim_law rest idx)
  | .optional num t rest, idx =>
    fieldsSim_optional num idx (ElemTy.sim_law t) (Fields.sim_law rest (idx + 1))
  | .repeated num cap t rest, idx =>
    fieldsSim_plain num (rep_sim (ElemTy.sim_law t) cap) (Fields.sim_law rest idx)
theorem Alts.sim_law : (a : Alts) → AltsSim a.cls
  | .nil => altsSim_nil
  | .cons num t rest => altsSim_cons num (ElemTy.sim_law t) (Alts.sim_law rest)
theorem Oneofs.sim_law : (os : Oneofs) → OneofsSim os.cls
  | .nil => oneofsSim_nil
  | .cons a rest => oneofsSim_cons (Alts.sim_law a) (Oneofs.sim_law rest)
end

/-! ## The reference buffer -/

/-- Every buffer that keeps the contract simulates the reference buffer. -/
def Canon.sim {γ : Type} [ReadBuffer γ] (M : ReadModel γ) : ReadSim Canon γ where
  len b := b.bytes.length
  R b c := M.Inv c ∧ M.view c = b.bytes
  E b c := M.Inv c ∧ M.view c = [] ∧ b.bytes = []
  size_lt b c h := ⟨Nat.lt_succ_self 4294967295, M.getSize_lt c h.1⟩
  size_le b c h := by
    have := M.view_lt c h.1
    rw [h.2] at this
    show _ ≤ 4294967295
    omega
  size_new b c n h hn := by
    have h1 := M.getSize_ge c h.1
    rw [h.2] at h1
    show min n 4294967295 = _ ∨ (_ < min n 4294967295 ∧ _)
    omega
  pop_some b c h h0 := by
    obtain ⟨bs⟩ := b
    cases bs with
    | nil => exact absurd h0 (Nat.lt_irrefl _)
    | cons x xs =>
      obtain ⟨c', h1, h2, h3⟩ := M.pop_cons c x xs h.1 h.2
      exact ⟨x, ⟨xs⟩, c', rfl, h1, ⟨h2, h3⟩, rfl, Nat.sub_le _ _⟩
  pop_end b c h h0 := by
    have : b.bytes = [] := List.eq_nil_of_length_eq_zero h0
    exact ⟨h.1, this ▸ h.2, this⟩
  end_left b c h := by
    obtain ⟨bs⟩ := b
    obtain ⟨h1, h2, rfl⟩ := h
    exact ⟨⟨[]⟩, rfl, h1, h2, rfl⟩
  end_right b c h := by
    obtain ⟨c', h1, h2, h3⟩ := M.pop_nil c h.1 h.2.1
    exact ⟨c', h1, h2, h3, h.2.2⟩
  advance_le b c n h hn := by
    obtain ⟨r, c', h1, h2, h3⟩ := M.advanceN_le c n h.1 (by rw [h.2]; exact hn)
    rw [h.2] at h3
    exact ⟨true, ⟨b.bytes.drop n⟩, r, c', if_pos hn, h1, ⟨h2, h3⟩, List.length_drop, Nat.sub_le _ _⟩
  advance_zero b c h := ⟨true, ⟨b.bytes.drop 0⟩, if_pos (Nat.zero_le _), h, rfl, Nat.le_refl _⟩
  over b c n h h1 _ := if_neg (Nat.not_le.mpr h1)
  advance b c n h _ := by
    show Sim (if n ≤ b.bytes.length then .ok (true, ⟨b.bytes.drop n⟩) else .ub : Res (Bool × Canon)) _ _
    split
    · rename_i hn
      obtain ⟨r, c', h1, h2, h3⟩ := M.advanceN_le c n h.1 (by rw [h.2]; exact hn)
      rw [h1]
      rw [h.2] at h3
      exact Sim.ok ⟨h2, h3⟩
    · exact fun _ h => nomatch h

/-- A run on the reference buffer predicts the run on any buffer with the same unread bytes: error,
object, and bytes left over. -/
theorem ElemTy.predict (t : ElemTy) {γ : Type} [ReadBuffer γ] (M : ReadModel γ) {fuel : Nat} (fuel' : Nat)
    {bs rest : List Byte} {x y : t.Obj} {e : Error} (c : γ) (hc : M.Inv c) (hv : M.view c = bs)
    (hf : fuel ≤ fuel') (h : t.cls.deserialize fuel (⟨bs⟩ : Canon) x = .ok (e, ⟨rest⟩, y)) :
    ∃ c', t.cls.deserialize fuel' c x = .ok (e, c', y) ∧ M.Inv c' ∧ M.view c' = rest := by
  obtain ⟨⟨e', c', y'⟩, h1, h2, h3, h4⟩ := (ElemTy.sim_law t).des (Canon.sim M) fuel fuel' ⟨bs⟩ c x hf
    (Or.inl ⟨hc, hv⟩) _ h
  dsimp only at h2 h3 h4
  subst h2 h4
  refine ⟨c', h1, ?_⟩
  rcases h3 with h3 | ⟨h3, h4, h5⟩
  · exact h3
  · dsimp only at h5
    rw [h5]
    exact ⟨h3, h4⟩

end EP
