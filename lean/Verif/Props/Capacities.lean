import Verif.Props.Buffers

/-!
# For which buffers: C08, C11
-/

namespace EP
open Spec

/-- **C11**, exactly the buffers: `advance(n)` of a buffer does what it should in all states and for all `n` only if the
buffer cannot hold a byte. -/
theorem C11_capacities (cap : Nat) (hcap : cap < 4294967296) :
    (∀ (b : ReadFixed) (n : Nat), b.WF cap → n < 4294967296 →
      ∃ r b', b.advanceN n = .ok (r, b') ∧ b.read ≤ b'.read ∧ b'.read ≤ b.read + n ∧ b'.read ≤ b.write ∧
        (r = true ↔ n ≤ b.write - b.read)) ↔ cap = 0 := by
  constructor
  · intro h
    refine Classical.byContradiction fun h0 => ?_
    have hw : ReadFixed.WF cap ⟨cap, List.replicate cap 0, cap, cap⟩ :=
      ⟨rfl, List.length_replicate, Nat.le_refl _, Nat.le_refl _⟩
    have hn : 4294967296 - cap < 4294967296 := by omega
    have := (C11_advance_iff cap _ _ hcap hw hn).1.mp (h _ _ hw hn)
    dsimp only at this
    omega
  · rintro rfl b n hw hn
    refine (C11_advance_iff 0 b n hcap hw hn).1.mpr ?_
    have := hw.read_le; have := hw.write_le; have := hw.cap_eq
    omega

/-- **C08** is false for every buffer that can hold a byte: after this byte, a block of `2^32 - 1` bytes. -/
theorem C08_never (cap : Nat) (h0 : 0 < cap) (hc : cap < 2147483648) (v : Byte) (bs : List Byte) (hbs : bs.length = 4294967295) :
    WriteFixed.run [.push v, .bulk bs] (WriteFixed.new cap) = .ub := by
  obtain ⟨w, h1, _, h2⟩ := WriteFixed.push_rep (WriteFixed.new cap) [] cap v (WriteFixed.new_rep cap hc)
  have hlt : ([] : List Byte).length < (WriteFixed.new cap).cap := h0
  rw [if_pos hlt, List.nil_append] at h2
  rw [decide_eq_true hlt] at h1
  have hu := (C08_block_iff w [v] _ bs h2 (by omega)).1.mpr (by rw [List.length_singleton]; omega)
  rw [WriteFixed.run, h1, Res.ok_bind]
  dsimp only
  rw [WriteFixed.run, hu]
  rfl

/-- There is such a block. -/
example : ∃ bs : List Byte, bs.length = 4294967295 := ⟨List.replicate 4294967295 0, List.length_replicate⟩

end EP
