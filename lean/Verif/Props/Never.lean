import Verif.Proof.Groups
import Verif.Props.Refused
import Verif.Props.Decode

/-!
# For which declarations: C21, C26 and C36

For none: an unknown field is enough, and every declaration leaves field numbers unused (the language itself reserves some).
-/

namespace EP
open Spec

section
variable (fs : Fields) (os : Oneofs)
local notation "T" => ElemTy.msg fs os

/-- An unknown field of one byte, without the byte, is accepted. -/
theorem short_accepted (h : (T).WF) (num : Nat) (h0 : 0 < num) (hn : num < 536870912) (hk : num ∉ fs.numbers ++ os.numbers)
    (x : (T).Obj) : ∃ b', (T).cls.deserialize 8 (ReadFixed.holding 16 (tag num .lengthDelimited ++ [1])) x = .ok (.noErrors, b', x) := by
  have hs := tag_short num .lengthDelimited hn
  have hl : (tag num .lengthDelimited ++ [1]).length ≤ 16 := by rw [List.length_append, List.length_singleton]; omega
  obtain ⟨b', h1, h2, h3, h4, h5⟩ := cut_onward h x 8 16 (by decide) (ReadFixed.holding 16 (tag num .lengthDelimited ++ [1]))
    (ReadFixed.holding_inv 16 (by decide) _ hl) (tag num .lengthDelimited) [1] [] num 1 h0 hk (tag_spec num .lengthDelimited hn)
    (by decide) (ReadFixed.holding_view 16 (by decide) _) (by decide) (by decide)
  have e5 : b'.read = (tag num .lengthDelimited).length + 1 := by
    rw [h5, if_pos (by show 0 + _ + 1 + 1 < _; omega)]
    show 0 + _ + 1 = _
    omega
  have e4 : b'.write = (tag num .lengthDelimited).length + 1 := by
    rw [h4]
    exact List.length_append
  have hv : b'.unread = [] := List.eq_nil_of_length_eq_zero (by rw [h2.unread_length]; omega)
  obtain ⟨b2, k1, _⟩ := tagLoop_end (ReadFixed.model 16 (by decide)) (MsgObj.step (fs.cls 0) os.cls 7) 7 (x := x) h2 hv (by decide)
  exact ⟨b2, h1 _ k1⟩

/-- **C26** holds for no declaration: the end of an unknown field may be missing. -/
theorem C26_never (h : (T).WF) (num : Nat) (h0 : 0 < num) (hn : num < 536870912) (hk : num ∉ fs.numbers ++ os.numbers) :
    ¬ C26_Statement fs os := by
  intro hC
  have hs := tag_short num .lengthDelimited hn
  have hl : (tag num .lengthDelimited ++ [1]).length ≤ 6 := by rw [List.length_append, List.length_singleton]; omega
  have hview := ReadFixed.holding_view 16 (by decide) (tag num .lengthDelimited ++ [1])
  obtain ⟨b', hd⟩ := short_accepted fs os h num h0 hn hk (T).cls.init
  refine hC _ (ReadFixed.model 16 (by decide)) (T).cls.init _ ((T).abs (T).cls.init) _ [] (tag num .lengthDelimited ++ [1]) [0] 8 h
    .init (ReadFixed.holding_inv 16 (by decide) _ (by omega)) (.nil _) ?_ (by simp) (by simp) hview (by rw [hview]; omega) _ _ _ hd rfl
  exact ⟨num, .lengthDelimited, _, [1, 0], tag_spec num .lengthDelimited hn, by rw [List.append_assoc]; rfl,
    Or.inr (Or.inr ⟨h0, hk, ⟨[0], [1], by decide, rfl⟩, rfl⟩)⟩

/-- **C36** holds for no declaration, for the same reason. -/
theorem C36_never (h : (T).WF) (num : Nat) (h0 : 0 < num) (hn : num < 536870912) (hk : num ∉ fs.numbers ++ os.numbers) :
    ¬ C36_Statement fs os := by
  intro hC
  have hs := tag_short num .lengthDelimited hn
  have hl : (tag num .lengthDelimited ++ [1]).length ≤ 6 := by rw [List.length_append, List.length_singleton]; omega
  have hview := ReadFixed.holding_view 16 (by decide) (tag num .lengthDelimited ++ [1])
  obtain ⟨b', hd⟩ := short_accepted fs os h num h0 hn hk (T).cls.init
  exact (hC _ (ReadFixed.model 16 (by decide)) (T).cls.init _ _ [1] 8 num .lengthDelimited h .init
    (ReadFixed.holding_inv 16 (by decide) _ (by omega)) h0 hk (tag_spec num .lengthDelimited hn) hview (by rw [hview]; omega)).2
    [0] (by simp) ⟨[0], [1], by decide, rfl⟩ _ _ _ hd rfl

/-- An unknown field whose length leads back to the start of the data. -/
def backBytes (num : Nat) : List Byte :=
  tag num .lengthDelimited ++ varint (4294967296 - ((tag num .lengthDelimited).length + 5))

theorem back_varint {num : Nat} (hn : num < 536870912) :
    (varint (4294967296 - ((tag num .lengthDelimited).length + 5))).length = 5 := by
  have hs := tag_short num .lengthDelimited hn
  exact varint_length_eq 4 _ (by omega) (by omega)

theorem back_diverges (h : (T).WF) (num : Nat) (h0 : 0 < num) (hn : num < 536870912) (hk : num ∉ fs.numbers ++ os.numbers)
    (x : (T).Obj) (fuel k : Nat) :
    tagLoop (MsgObj.step (fs.cls 0) os.cls fuel) k (ReadFixed.holding 16 (backBytes num)) x = .diverge := by
  have hs := tag_short num .lengthDelimited hn
  have h5 := back_varint hn
  have hl : (backBytes num).length = (tag num .lengthDelimited).length + 5 := by
    unfold backBytes
    rw [List.length_append, h5]
  have hb : (ReadFixed.holding 16 (backBytes num)).WF 16 := ReadFixed.holding_inv 16 (by decide) _ (by omega)
  have hv : (ReadFixed.holding 16 (backBytes num)).unread = backBytes num := ReadFixed.holding_view 16 (by decide) _
  have hp : Varint 32 (varint (4294967296 - ((tag num .lengthDelimited).length + 5))) _ := varint_spec 32 _ (by decide) (by omega)
  induction k with
  | zero => rfl
  | succ k ih =>
    obtain ⟨⟨q, b₁⟩, t1, t2, t3, t4⟩ := (deserializeTag_ok
      (ReadFixed.modelOf 16 (by decide) (ReadFixed.holding 16 (backBytes num)).data (ReadFixed.holding 16 (backBytes num)).write)
      _ _ _ .lengthDelimited num (tag_spec num .lengthDelimited hn) rfl _ ⟨hb, rfl, rfl⟩ hv).exists
    dsimp only at t2 t3 t4
    subst t2
    obtain ⟨⟨r, b₂⟩, g1, g2, g3, g4⟩ := (deserializeVarint_ok
      (ReadFixed.modelOf 16 (by decide) (ReadFixed.holding 16 (backBytes num)).data (ReadFixed.holding 16 (backBytes num)).write)
      32 _ [] hp.1 b₁ t3 (t4.trans (List.append_nil _).symm)).exists
    dsimp only at g2 g3 g4
    subst g2
    obtain ⟨g5, g6, g7⟩ := id g3
    have hnn : (BitVec.ofNat 32 (groups (varint (4294967296 - ((tag num .lengthDelimited).length + 5))))).toNat =
        4294967296 - ((tag num .lengthDelimited).length + 5) := by rw [BitVec.toNat_ofNat]; exact hp.2.symm
    have hr : b₂.read = (tag num .lengthDelimited).length + 5 := by
      have e2 := g5.unread_length
      rw [show b₂.unread = [] from g4] at e2
      have a2 := g5.read_le
      have : b₂.write = (tag num .lengthDelimited).length + 5 := g7.trans hl
      simp only [List.length_nil] at e2
      omega
    have hadv : ReadBuffer.advanceN b₂ (4294967296 - ((tag num .lengthDelimited).length + 5)) =
        .ok (true, ReadFixed.holding 16 (backBytes num)) := by
      have hu : u32 (b₂.read + (4294967296 - ((tag num .lengthDelimited).length + 5))) = 0 := by simp only [u32, two32]; omega
      have hw : b₂.write = (tag num .lengthDelimited).length + 5 := g7.trans hl
      simp only [ReadBuffer.advanceN, ReadFixed.advanceN, hu]
      rw [if_pos (by omega), Res.pure_eq]
      cases b₂
      cases g5.cap_eq
      cases g6
      cases g7
      rfl
    refine (tagLoop_next _ k t1 (b₂ := ReadFixed.holding 16 (backBytes num)) (y := x) ?_).trans ih
    rw [unknown_step h fuel x hk h0]
    show (skipLengthDelimited b₁ >>= _) = _
    rw [skipLengthDelimited, g1]
    simp only [Res.ok_bind, hnn, hadv]
    rfl

/-- **C21** holds for no declaration: at most ten bytes are enough to make decoding go on for ever, whatever the object. -/
theorem C21_never (h : (T).WF) (num : Nat) (h0 : 0 < num) (hn : num < 536870912) (hk : num ∉ fs.numbers ++ os.numbers) :
    ∃ bs : List Byte, bs.length ≤ 10 ∧
      ∀ (x : (T).Obj) (fuel : Nat), (T).cls.deserialize fuel (ReadFixed.holding 16 bs) x = .diverge := by
  refine ⟨backBytes num, ?_, fun x fuel => back_diverges fs os h num h0 hn hk x fuel fuel⟩
  have hs := tag_short num .lengthDelimited hn
  unfold backBytes
  rw [List.length_append, back_varint hn]
  omega

theorem C21_never_false (h : (T).WF) (num : Nat) (h0 : 0 < num) (hn : num < 536870912) (hk : num ∉ fs.numbers ++ os.numbers) :
    ¬ C21_Statement fs os := by
  intro hC
  obtain ⟨bs, h1, h2⟩ := C21_never fs os h num h0 hn hk
  exact hC (T).cls.init 16 bs h .init (by omega) (by decide) 11 (by omega) (h2 _ _)

end

/-! ## Examples -/

/-- The declaration of `RefusedExample` does not use number 19000, which is reserved by the language. -/
example : ¬ C21_Statement RefusedExample.fields RefusedExample.oneofs ∧ ¬ C26_Statement RefusedExample.fields RefusedExample.oneofs ∧
    ¬ C36_Statement RefusedExample.fields RefusedExample.oneofs :=
  ⟨C21_never_false _ _ RefusedExample.wf' 19000 (by decide) (by decide) (by decide),
   C26_never _ _ RefusedExample.wf' 19000 (by decide) (by decide) (by decide),
   C36_never _ _ RefusedExample.wf' 19000 (by decide) (by decide) (by decide)⟩

end EP
