import Verif.Spec.Groups
import Verif.Spec.Truncate
import Verif.Proof.LostParse
import Verif.Proof.BufferModels
import Verif.Proof.Record

/-!
# Decoding messages with groups
-/

namespace EP
open Spec

section
variable {V : Type} {known : List Nat} {Step : List Byte → V → V → Prop}

/-- What is left without the tags is a message. -/
theorem Grouped.stream {bs flat : List Byte} {u w : V} (h : Grouped known Step bs flat u w) : Stream Step flat u w := by
  induction h with
  | nil v => exact .nil v
  | record h1 _ ih => exact .cons h1 ih
  | tag _ _ _ _ _ ih => exact ih

theorem Grouped.of_stream {bs : List Byte} {u w : V} (h : Stream Step bs u w) : Grouped known Step bs bs u w := by
  induction h with
  | nil v => exact .nil v
  | cons h1 _ ih => exact .record h1 ih

theorem Grouped.append {bs flat bs' flat' : List Byte} {u v w : V} (h : Grouped known Step bs flat u v)
    (h' : Grouped known Step bs' flat' v w) : Grouped known Step (bs ++ bs') (flat ++ flat') u w := by
  induction h with
  | nil v => exact h'
  | record h1 _ ih =>
    rw [List.append_assoc, List.append_assoc]
    exact .record h1 (ih h')
  | tag h1 h2 h3 h4 _ ih =>
    rw [List.append_assoc]
    exact .tag h1 h2 h3 h4 (ih h')

/-- A group around part of a message. -/
theorem Grouped.around {tg tg' bs flat : List Byte} {num : Nat} {u v : V} (h0 : 0 < num) (hn : num ∉ known)
    (ht : Varint 32 tg (8 * num + 3)) (ht' : Varint 32 tg' (8 * num + 4)) (h : Grouped known Step bs flat u v) :
    Grouped known Step (tg ++ (bs ++ tg')) flat u v := by
  have he : Grouped known Step tg' [] v v := by
    have := Grouped.tag (Step := Step) (wt := .endGroup) h0 hn (Or.inr rfl) ht' (.nil v)
    rwa [List.append_nil] at this
  have := h.append he
  rw [List.append_nil] at this
  exact .tag (wt := .startGroup) h0 hn (Or.inl rfl) ht this

/-- Nothing known in a group: its records change nothing. -/
theorem UnknownGroup.grouped {num : Nat} {p : List Byte} (h : UnknownGroup known num p)
    (hS : ∀ k wt tg q u, 0 < k → k ∉ known → Varint 32 tg (8 * k + wireNumber wt) → UnknownPayload wt q → Step (tg ++ q) u u)
    (h0 : 0 < num) (hn : num ∉ known) (u : V) : ∃ flat, Grouped known Step p flat u u := by
  induction h with
  | stop ht =>
    refine ⟨[], ?_⟩
    have := Grouped.tag (Step := Step) (wt := .endGroup) h0 hn (Or.inr rfl) ht (.nil u)
    rwa [List.append_nil] at this
  | @field num k wt tg q rest k1 k2 k3 k4 _ ih =>
    obtain ⟨flat, hg⟩ := ih h0 hn
    refine ⟨tg ++ q ++ flat, ?_⟩
    rw [← List.append_assoc]
    exact .record (hS _ _ _ _ _ k1 k2 k3 k4) hg
  | group k1 k2 k3 _ _ ih1 ih2 =>
    obtain ⟨f1, g1⟩ := ih1 k1 k2
    obtain ⟨f2, g2⟩ := ih2 h0 hn
    exact ⟨f1 ++ f2, .tag (wt := .startGroup) k1 k2 (Or.inl rfl) k3 (g1.append g2)⟩

/-- A group in which nothing is known is a group. -/
theorem UnknownGroup.isGroup {num : Nat} {p : List Byte} (h : UnknownGroup known num p) : Group num p := by
  induction h with
  | stop ht => exact .stop ht
  | field k1 _ k3 k4 _ ih => exact .field k1 k3 k4 ih
  | group k1 _ k3 _ _ ih1 ih2 => exact .group k1 k3 ih1 ih2

theorem Grouped.lift {U : Type} {Step' : List Byte → U → U → Prop} {f : U → V}
    {I : U → Prop} (h : ∀ bs u v, Step bs (f u) v → I u → ∃ v', Step' bs u v' ∧ f v' = v ∧ I v')
    {bs flat : List Byte} {a v : V} (hs : Grouped known Step bs flat a v) :
    ∀ u, f u = a → I u → ∃ v', Grouped known Step' bs flat u v' ∧ f v' = v ∧ I v' := by
  induction hs with
  | nil a => intro u hu hi; exact ⟨u, .nil u, hu, hi⟩
  | record h1 _ ih =>
    intro u hu hi
    subst hu
    obtain ⟨w, g1, g2, g3⟩ := h _ _ _ h1 hi
    obtain ⟨v', k1, k2⟩ := ih w g2 g3
    exact ⟨v', .record g1 k1, k2⟩
  | tag h1 h2 h3 h4 _ ih =>
    intro u hu hi
    obtain ⟨v', k1, k2⟩ := ih u hu hi
    exact ⟨v', .tag h1 h2 h3 h4 k1, k2⟩

end

/-- A larger bound makes no difference. -/
theorem parseLoop_more {α : Type} {record : Nat → WireType → List Byte → α → Parse α} (k k' : Nat) (hk : k ≤ k')
    (bs : List Byte) (u : α) (h : parseLoop record k bs u ≠ .overrun) : parseLoop record k' bs u = parseLoop record k bs u := by
  induction k generalizing k' bs u with
  | zero => exact absurd rfl h
  | succ k ih =>
    obtain ⟨k', rfl⟩ : ∃ j, k' = j + 1 := ⟨k' - 1, by omega⟩
    unfold parseLoop at h ⊢
    generalize readTag bs = r at *
    obtain ⟨r, rest⟩ := r
    cases r with
    | error e => cases e <;> rfl
    | ok t =>
      obtain ⟨num, wt⟩ := t
      cases wt with
      | none => rfl
      | some wt =>
        dsimp only at h ⊢
        cases hr : record num wt rest u with
        | ok v rest' =>
          rw [hr] at h
          exact ih k' (by omega) rest' v h
        | fail e v => rfl
        | overrun => rfl

theorem varint_pos {w : Nat} {t : List Byte} {n : Nat} (h : Varint w t n) : 0 < t.length := by
  cases t with
  | nil => cases hm : maxVarint w <;> · have := h.1; rw [hm] at this; exact this.elim
  | cons b t => simp

/-- Decoding does not see the tags. -/
theorem parseLoop_grouped {α : Type} {known : List Nat} {Step : List Byte → α → α → Prop}
    {record : Nat → WireType → List Byte → α → Parse α}
    (hS : ∀ bs u v, Step bs u v → ∃ num wt t p, Varint 32 t (8 * num + wireNumber wt) ∧ bs = t ++ p ∧
      ∀ r, record num wt (p ++ r) u = .ok v r)
    (hG : ∀ num wt bs u, 0 < num → num ∉ known → wt = .startGroup ∨ wt = .endGroup → record num wt bs u = .ok u bs)
    {bs flat : List Byte} {u w : α} (h : Grouped known Step bs flat u w) (tail : List Byte) (k k' : Nat)
    (hk : (flat ++ tail).length < k) (hk' : bs.length + k ≤ flat.length + k')
    (hn : parseLoop record k (flat ++ tail) u ≠ .overrun) :
    parseLoop record k' (bs ++ tail) u = parseLoop record k (flat ++ tail) u := by
  induction h generalizing k k' with
  | nil v => exact parseLoop_more k k' (by simpa using hk') _ _ hn
  | record h1 _ ih =>
    obtain ⟨num, wt, t, p, g1, rfl, g3⟩ := hS _ _ _ h1
    have ht := varint_pos g1
    simp only [List.length_append] at hk hk'
    obtain ⟨k, rfl⟩ : ∃ j, k = j + 1 := ⟨k - 1, by omega⟩
    obtain ⟨k', rfl⟩ : ∃ j, k' = j + 1 := ⟨k' - 1, by omega⟩
    rw [parseLoop] at hn
    rw [parseLoop, parseLoop]
    simp only [List.append_assoc, readTag_ok _ g1, g3] at hn ⊢
    exact ih k k' (by simp only [List.length_append]; omega) (by omega) hn
  | tag h1 h2 h3 g1 _ ih =>
    have ht := varint_pos g1
    simp only [List.length_append] at hk hk'
    obtain ⟨k', rfl⟩ : ∃ j, k' = j + 1 := ⟨k' - 1, by omega⟩
    rw [parseLoop.eq_def record (k' + 1)]
    simp only [List.append_assoc, readTag_ok _ g1, hG _ _ _ _ h1 h2 h3]
    exact ih k k' (by simp only [List.length_append]; omega) (by omega) hn

theorem parseRecord_group {fs : Fields} {os : Oneofs} (clip : Bool) (num : Nat) (wt : WireType) (bs : List Byte)
    (u : fs.Held × os.Held) (h0 : 0 < num) (hn : num ∉ fs.numbers ++ os.numbers) (hw : wt = .startGroup ∨ wt = .endGroup) :
    parseRecord fs os clip num wt bs u = .ok u bs := by
  simp only [List.mem_append, not_or] at hn
  unfold parseRecord
  rw [Fields.parse_none fs clip num wt _ u.1 hn.1, Oneofs.parse_none os clip num wt _ u.2 hn.2]
  simp only
  rw [if_neg (by omega)]
  rcases hw with rfl | rfl <;> rfl

/-- Groups and records in any message, then anything at all. -/
theorem parseMessage_grouped {fs : Fields} {os : Oneofs} (hw : (ElemTy.msg fs os).WF) (clip : Bool)
    {bs flat : List Byte} {u w : fs.Held × os.Held}
    (h : Grouped (fs.numbers ++ os.numbers) (RecordStep (fs.numbers ++ os.numbers) fs.HRecord os.HRecord) bs flat u w)
    (tail : List Byte) (hn : parseMessage fs os clip (flat ++ tail) u ≠ .overrun) :
    parseMessage fs os clip (bs ++ tail) u = parseMessage fs os clip (flat ++ tail) u := by
  simp only [ElemTy.WF] at hw
  have hd := List.nodup_append.mp hw.2.2.1
  exact parseLoop_grouped
    (parseRecord_step hw.2.2.1 clip (fun num wt p r u v => Fields.parse_ok fs hw.1.distinct hd.1 clip num wt p r u v)
      (fun num wt p r u v => Oneofs.parse_ok os hw.2.1.distinct hd.2.1 clip num wt p r u v))
    (fun num wt bs u => parseRecord_group clip num wt bs u) h tail _ _ (Nat.lt_succ_self _)
    (by simp only [List.length_append]; omega) hn

/-- A buffer with the data `d`, of which `w` bytes were written. -/
def ReadFixed.modelOf (cap : Nat) (hcap : cap < 4294967296) (d : List Byte) (w : Nat) : ReadModel ReadFixed where
  Inv b := b.WF cap ∧ b.data = d ∧ b.write = w
  view b := b.unread
  fwd n := cap + n < 4294967296
  strict := cap < 2147483648
  view_lt b h := (ReadFixed.model cap hcap).view_lt b h.1
  getSize_ge b h := (ReadFixed.model cap hcap).getSize_ge b h.1
  getSize_lt b h := (ReadFixed.model cap hcap).getSize_lt b h.1
  getSize_fwd hs b n h hn := (ReadFixed.model cap hcap).getSize_fwd hs b n h.1 hn
  pop_nil b h hv := by
    obtain ⟨h, hd, hw⟩ := h
    have hl := h.unread_length
    rw [hv] at hl
    refine ⟨b, ?_, ⟨h, hd, hw⟩, hv⟩
    simp at hl
    simp [ReadBuffer.pop, ReadFixed.pop]; omega
  pop_cons b x xs h hv := by
    obtain ⟨h, hd, hw⟩ := h
    obtain ⟨b', h1, h2, h3⟩ := (ReadFixed.model cap hcap).pop_cons b x xs h hv
    refine ⟨b', h1, ⟨h2, ?_⟩, h3⟩
    simp only [ReadBuffer.pop, ReadFixed.pop] at h1
    split at h1
    · have hlt : b.read < b.data.length := by
        have := h.length_eq; have := h.write_le; have := h.cap_eq; omega
      rw [arrayGet_of_lt hlt] at h1
      cases h1
      exact ⟨hd, hw⟩
    · cases h1
  advanceN_le b n h hn := by
    obtain ⟨h, hd, hw⟩ := h
    obtain ⟨r, b', h1, h2, h3⟩ := (ReadFixed.model cap hcap).advanceN_le b n h hn
    refine ⟨r, b', h1, ⟨h2, ?_⟩, h3⟩
    simp only [ReadBuffer.advanceN, ReadFixed.advanceN] at h1
    split at h1 <;> cases h1 <;> exact ⟨hd, hw⟩
  advanceN_gt b n h hn hlt := by
    obtain ⟨h, hd, hw⟩ := h
    obtain ⟨r, b', h1, h2, h3⟩ := (ReadFixed.model cap hcap).advanceN_gt b n h hn hlt
    refine ⟨r, b', h1, ⟨h2, ?_⟩, h3⟩
    simp only [ReadBuffer.advanceN, ReadFixed.advanceN] at h1
    split at h1 <;> cases h1 <;> exact ⟨hd, hw⟩

/-- Where reading goes on after an unknown length-delimited field that is longer than the data. -/
theorem cut_onward {fs : Fields} {os : Oneofs} (h : (ElemTy.msg fs os).WF) (x : (ElemTy.msg fs os).Obj) (fuel cap : Nat)
    (hcap : cap < 4294967296) (b : ReadFixed) (hb : b.WF cap) (tg pl body : List Byte) (num n : Nat) (h0 : 0 < num)
    (hn : num ∉ fs.numbers ++ os.numbers) (ht : Varint 32 tg (8 * num + wireNumber .lengthDelimited))
    (hp : Varint 32 pl n) (hv : b.unread = tg ++ (pl ++ body)) (hl : body.length < n) (hf : 0 < fuel) :
    ∃ b', Onward fs os fuel b x b' x ∧ b'.WF cap ∧ b'.data = b.data ∧ b'.write = b.write ∧
      b'.read = if b.read + tg.length + pl.length + n < 4294967296 then b.read + tg.length + pl.length
        else b.read + tg.length + pl.length + n - 4294967296 := by
  obtain ⟨b₁, h1, h2, h3⟩ := onward_of_step (ReadFixed.modelOf cap hcap b.data b.write) fuel b x tg (pl ++ body) num
    .lengthDelimited ⟨hb, rfl, rfl⟩ hv ht hf
  obtain ⟨⟨r, b₂⟩, g1, g2, g3, g4⟩ := (deserializeVarint_ok (ReadFixed.modelOf cap hcap b.data b.write) 32 pl body hp.1 b₁ h1
    h2).exists
  dsimp only at g2 g3 g4
  subst g2
  obtain ⟨g5, g6, g7⟩ := id g3
  have hnn : (BitVec.ofNat 32 (groups pl)).toNat = n := by rw [BitVec.toNat_ofNat]; exact hp.2.symm
  have hlt : n < 4294967296 := by rw [hp.2]; exact Nat.mod_lt _ (by decide)
  have e1 := hb.unread_length
  have e2 := g5.unread_length
  rw [hv] at e1
  rw [show b₂.unread = body from g4] at e2
  simp only [List.length_append] at e1
  have a1 := hb.read_le; have a2 := g5.read_le; have a3 := hb.write_le; have a4 := hb.cap_eq
  have hr : b₂.read = b.read + tg.length + pl.length := by omega
  have hstep : ∀ b', ReadBuffer.advanceN b₂ n = .ok b' →
      MsgObj.step (fs.cls 0) os.cls fuel num .lengthDelimited b₁ x = .ok (.noErrors, b'.2, x) := fun b' hb' => by
    rw [unknown_step h fuel x hn h0]
    show (skipLengthDelimited b₁ >>= _) = _
    rw [skipLengthDelimited, g1]
    simp only [Res.ok_bind, hnn, hb']
    rfl
  by_cases hw : b₂.read + n < 4294967296
  · refine ⟨b₂, h3 b₂ x (hstep (false, b₂) ?_), g5, g6, g7, ?_⟩
    · simp only [ReadBuffer.advanceN, ReadFixed.advanceN]
      rw [u32_of_lt hw, if_neg (by omega), Res.pure_eq]
    · rw [if_pos (by omega)]; exact hr
  · have hu : u32 (b₂.read + n) = b₂.read + n - 4294967296 := by simp only [u32, two32]; omega
    refine ⟨{ b₂ with read := b₂.read + n - 4294967296 }, h3 _ x (hstep (true, _) ?_),
      ⟨g5.cap_eq, g5.length_eq, by simp; omega, g5.write_le⟩, g6, g7, ?_⟩
    · simp only [ReadBuffer.advanceN, ReadFixed.advanceN, hu]
      rw [if_pos (by omega), Res.pure_eq]
    · rw [if_neg (by omega)]
      dsimp only
      omega

end EP
