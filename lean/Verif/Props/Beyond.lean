import Verif.Proof.Beyond
import Verif.Props.Parse
import Verif.Props.Decode

/-!
# Data in which no length is beyond the end: C21, C45, C64

The reference decoder leaves open what happens after an unknown field that is longer than the data.  Here: in data without
such a length it leaves nothing open.
-/

namespace EP
open Spec

section
variable {β : Type} [ReadBuffer β] (M : ReadModel β) (fs : Fields) (os : Oneofs)
local notation "T" => ElemTy.msg fs os

/-- **C64**: if no length in the data is beyond its end, the reference decoder has a result, which is that of `deserialize`. -/
theorem C64_within (x : (T).Obj) (b : β) (fuel : Nat) (h : (T).WF) (hx : (T).Reach x) (hb : M.Inv b)
    (hn : ¬ Beyond (M.view b)) (hf : (M.view b).length < fuel) :
    parseMessage fs os false (M.view b) ((T).held x) ≠ .overrun ∧
    Agrees fs os (parseMessage fs os false (M.view b) ((T).held x)) (fun b' => M.view b' = [])
      ((T).cls.deserialize fuel b x) := by
  refine ⟨fun ho => ?_, C64_reference M fs os x b fuel h hx hb hf⟩
  have := parseMessage_settled fs os false (M.view b) ((T).held x)
  rw [ho] at this
  exact hn this.2

/-- **C21**: decoding of any bytes from any buffer ends and is defined, unless a length is beyond the end of the data. -/
theorem C21_within (x : (T).Obj) (b : β) (fuel : Nat) (h : (T).WF) (hx : (T).Reach x) (hb : M.Inv b)
    (hn : ¬ Beyond (M.view b)) (hf : (M.view b).length < fuel) :
    ∃ e b' y, (T).cls.deserialize fuel b x = .ok (e, b', y) := by
  obtain ⟨h1, h2⟩ := C64_within M fs os x b fuel h hx hb hn hf
  unfold Agrees at h2
  cases hq : parseMessage fs os false (M.view b) ((T).held x) with
  | ok v rest =>
    rw [hq] at h2
    obtain ⟨b', y, g, _⟩ := h2
    exact ⟨_, b', y, g⟩
  | fail e v =>
    rw [hq] at h2
    obtain ⟨_, b', y, g, _⟩ := h2
    exact ⟨e, b', y, g⟩
  | overrun => exact absurd hq h1

/-- **C21**: when decoding from a `ReadBufferFixedSize` does not end, a length is beyond the end of the data, and some varint
in it wraps the read index. -/
theorem C21_only (x : (T).Obj) (cap : Nat) (bs : List Byte) (fuel : Nat) (h : (T).WF) (hx : (T).Reach x)
    (hbs : bs.length ≤ cap) (hcap : cap < 2 ^ 31) (hf : bs.length < fuel)
    (hd : (T).cls.deserialize fuel (ReadFixed.holding cap bs) x = .diverge) :
    Beyond bs ∧ ∃ p n, p <:+: bs ∧ Varint 32 p n ∧ 2 ^ 32 ≤ cap + n := by
  have hl : cap < 4294967296 := by omega
  constructor
  · refine Classical.byContradiction fun hn => ?_
    obtain ⟨e, b', y, g⟩ := C21_within (ReadFixed.model cap hl) fs os x (ReadFixed.holding cap bs) fuel h hx
      (ReadFixed.holding_inv cap hl bs hbs) (by rw [ReadFixed.holding_view]; exact hn) (by rw [ReadFixed.holding_view]; exact hf)
    exact nomatch g.symm.trans hd
  · refine Classical.byContradiction fun hn => ?_
    refine C21_terminates_partial fs os x cap bs h hx hbs hcap (fun p n hp hv => ?_) fuel hf hd
    exact Nat.lt_of_not_le fun hle => hn ⟨p, n, hp, hv, hle⟩

/-- **C21** in a section of a buffer that has all its bytes: decoding of any bytes ends. -/
theorem C21_section (x : (T).Obj) (b : β) (n fuel : Nat) (h : (T).WF) (hx : (T).Reach x) (hb : M.Inv b)
    (hn : n ≤ (M.view b).length) (hf : n < fuel) :
    ∃ e s y, (T).cls.deserialize fuel (Section.new b n) x = .ok (e, s, y) := by
  obtain ⟨h1, h2⟩ := C64_section M fs os x b n fuel h hx hb hn hf
  unfold Agrees at h2
  cases hq : parseMessage fs os true ((M.view b).take n) ((T).held x) with
  | ok v rest =>
    rw [hq] at h2
    obtain ⟨b', y, g, _⟩ := h2
    exact ⟨_, b', y, g⟩
  | fail e v =>
    rw [hq] at h2
    obtain ⟨_, b', y, g, _⟩ := h2
    exact ⟨e, b', y, g⟩
  | overrun => exact absurd hq h1

/-- **C45**: the same bytes in two buffers of any kinds give the same error and the same contents, if no length is beyond the
end of the data. -/
theorem C45_within {β₂ : Type} [ReadBuffer β₂] (M₂ : ReadModel β₂) (x : (T).Obj) (b₁ : β) (b₂ : β₂)
    (fuel₁ fuel₂ : Nat) (h : (T).WF) (hx : (T).Reach x) (h₁ : M.Inv b₁) (h₂ : M₂.Inv b₂)
    (hv : M.view b₁ = M₂.view b₂) (hn : ¬ Beyond (M.view b₁))
    (hf₁ : (M.view b₁).length < fuel₁) (hf₂ : (M.view b₁).length < fuel₂) :
    ∃ e c₁ c₂ y₁ y₂, (T).cls.deserialize fuel₁ b₁ x = .ok (e, c₁, y₁) ∧
      (T).cls.deserialize fuel₂ b₂ x = .ok (e, c₂, y₂) ∧ (T).held y₁ = (T).held y₂ ∧ (T).abs y₁ = (T).abs y₂ := by
  obtain ⟨e, c₁, c₂, y₁, y₂, g1, g2, g3, g4, _⟩ := C45_any M fs os M₂ x b₁ b₂ fuel₁ fuel₂ h hx h₁ h₂ hv
    (C64_within M fs os x b₁ fuel₁ h hx h₁ hn hf₁).1 hf₁ hf₂
  exact ⟨e, c₁, c₂, y₁, y₂, g1, g2, g3, g4⟩

end

/-- The bytes that are decoded forever: a length of 2³² - 6, and nothing follows. -/
example : Beyond wrapBytes := ⟨[], [0x12], [0xFA, 0xFF, 0xFF, 0xFF, 0x0F], [], 2, 4294967290, rfl, by decide, by decide, by decide⟩

/-- A uint32 that is 2³² - 1: a varint that would wrap the index, but it is not a length.  `C21_terminates_partial` does not
apply to these bytes; `C21_within` does. -/
example : ¬ Beyond [0x08, 0xFF, 0xFF, 0xFF, 0xFF, 0x0F] ∧ Varint 32 [0xFF, 0xFF, 0xFF, 0xFF, 0x0F] 4294967295 := by
  refine ⟨?_, by decide⟩
  rintro ⟨pre, tg, pl, rest, num, n, e, h1, _⟩
  cases tg with
  | nil => exact h1.1.elim
  | cons b t =>
    have hm : b ∈ [0x08, 0xFF, 0xFF, 0xFF, 0xFF, 0x0F] := by rw [e]; simp
    have hb : b.toNat % 8 = 2 := by
      have := h1.2
      simp only [groups] at this
      omega
    have : ∀ c ∈ ([0x08, 0xFF, 0xFF, 0xFF, 0xFF, 0x0F] : List Byte), c.toNat % 8 ≠ 2 := by decide
    exact this b hm hb

end EP
