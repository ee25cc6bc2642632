import Verif.Proof.Determinism
import Verif.Proof.Contracts

/-!
# Classes without string fields push single bytes only

Replace the bulk push of any buffer by a loop of single pushes.  This satisfies the contract with
slack 0, and for a class without string fields it makes no difference.
-/

namespace EP

variable {ω : Type}

/-- Push byte by byte. -/
def pushAll [WriteBuffer ω] : List Byte → ω → Res (Bool × ω)
  | [], w => .ok (true, w)
  | x :: xs, w => do
    let (r, w) ← WriteBuffer.push w x
    if r then pushAll xs w else pure (false, w)

/-- The buffer functions with the bulk push replaced; when there is no room nothing is written. -/
@[instance_reducible] def bytewise (i : WriteBuffer ω) : WriteBuffer ω where
  clear := i.clear
  getSize := i.getSize
  getMaxSize := i.getMaxSize
  getAvailableSize := i.getAvailableSize
  push := i.push
  pushBytes w bs := do
    let (r, w') ← @pushAll ω i bs w
    pure (r, if r then w' else w)

theorem pushAll_spec [i : WriteBuffer ω] (M : WriteModel ω) (bs : List Byte) (w : ω) (c : List Byte)
    (room : Nat) (h : M.Rep w c room) :
    (∃ w', pushAll bs w = .ok (true, w') ∧ M.Rep w' (c ++ bs) (room - bs.length)) ∨
    (∃ w', pushAll bs w = .ok (false, w') ∧ room < bs.length) := by
  induction bs generalizing w c room with
  | nil => exact Or.inl ⟨w, rfl, by simpa using h⟩
  | cons x xs ih =>
    by_cases hf : M.full w
    · obtain ⟨h1, h2⟩ := M.push_full w c room x h hf
      exact Or.inr ⟨w, by simp [pushAll, h1], by simp; omega⟩
    · obtain ⟨w1, h1, h2⟩ := M.push_ok w c room x h hf
      rcases ih w1 _ _ h2 with ⟨w2, h3, h4⟩ | ⟨w2, h3, h4⟩
      · refine Or.inl ⟨w2, by simp [pushAll, h1, h3], ?_⟩
        simpa [Nat.sub_sub, Nat.add_comm] using h4
      · exact Or.inr ⟨w2, by simp [pushAll, h1, h3], by simp; omega⟩

/-- The contract of the replaced functions. -/
def WriteModel.bytewise [i : WriteBuffer ω] (M : WriteModel ω) : @WriteModel ω (EP.bytewise i) :=
  @WriteModel.mk ω (EP.bytewise i) M.Rep M.full 0 M.avail M.push_ok M.push_full (by
    intro w c room bs h _
    rcases pushAll_spec M bs w c room h with ⟨w', h1, h2⟩ | ⟨w', h1, h2⟩
    · refine Or.inl ⟨w', ?_, h2⟩
      show (do let (r, w') ← pushAll bs w; pure (r, if r then w' else w) : Res (Bool × ω)) = _
      rw [h1]; rfl
    · refine Or.inr ⟨?_, h2⟩
      show (do let (r, w') ← pushAll bs w; pure (r, if r then w' else w) : Res (Bool × ω)) = _
      rw [h1]; rfl)

theorem bytewise_agree (i : WriteBuffer ω) : Agree i (bytewise i) false :=
  ⟨rfl, rfl, fun h => nomatch h⟩

/-- Without string fields the slack of the buffer does not matter. -/
theorem SerLaw.exact {V : Type} {C : FieldClass} {S : ClassSpec C V} {enc : V → List Byte}
    {txt : V → Bool} (h : SerLaw C S enc txt) (hd : DetLaw C S false) [i : WriteBuffer ω] (M : WriteModel ω)
    (x : C.State) (w : ω) (c : List Byte) (room : Nat) (hx : S.Inv x)
    (hl : (enc (S.abs x)).length < 4294967296) (hw : M.Rep w c room) :
    (C.serialize x w).Post fun p =>
      (p.1 = .noErrors ∧ M.Rep p.2 (c ++ enc (S.abs x)) (room - (enc (S.abs x)).length)) ∨
      (p.1 = .bufferFull ∧ room < (enc (S.abs x)).length) := by
  rw [hd.ser (bytewise_agree i) x x w hx hx rfl]
  have := @AppendsT.weaken ω (bytewise i) _ _ _ _ _ _
    (@h ω (bytewise i) M.bytewise x w c room hx (Or.inr rfl) hl hw)
  refine this.mono ?_
  rintro p (hp | ⟨h1, h2, _⟩)
  · exact Or.inl hp
  · exact Or.inr ⟨h1, h2⟩

end EP
