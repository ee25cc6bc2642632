import Verif.Proof.Fail
import Verif.Spec.Truncate

/-! # Truncated input is malformed input -/

namespace EP
open Spec

theorem cut_of_isVarint {k : Nat} {q r : List Byte} (hr : r ≠ []) (h : IsVarint k (q ++ r)) :
    CutVarint k q := by
  induction q generalizing k with
  | nil =>
    cases k with
    | zero => exact h.elim
    | succ k => exact ⟨Nat.succ_pos k, fun _ h => nomatch h⟩
  | cons b q ih =>
    cases k with
    | zero => exact h.elim
    | succ k =>
      simp only [List.cons_append, IsVarint] at h
      split at h
      · rename_i hb
        obtain ⟨h1, h2⟩ := ih h
        refine ⟨by simpa using h1, fun c hc => ?_⟩
        rcases List.mem_cons.mp hc with rfl | hc
        · exact hb
        · exact h2 c hc
      · exact absurd (List.append_eq_nil_iff.mp h).2 hr

theorem bad_of_cut {w : Nat} {q r : List Byte} {n : Nat} (hr : r ≠ []) (h : Varint w (q ++ r) n) :
    BadVarint w q .endOfBuffer := Or.inl ⟨cut_of_isVarint hr h.1, rfl⟩

/-- The proper prefixes of a length-delimited block. -/
theorem cut_delimited {q r body : List Byte} (hr : r ≠ []) (h : Delimited (q ++ r) body) :
    (∃ r' n, r' ≠ [] ∧ Varint 32 (q ++ r') n) ∨
      ∃ p d, q = p ++ d ∧ Varint 32 p body.length ∧ d.length < body.length := by
  obtain ⟨p, hp, he⟩ := h
  rcases List.append_eq_append_iff.mp he with ⟨d, h1, h2⟩ | ⟨d, h1, h2⟩
  · by_cases hd : d = []
    · subst hd
      rw [List.append_nil] at h1
      refine Or.inr ⟨p, [], by rw [List.append_nil]; exact h1.symm, hp, ?_⟩
      rw [List.nil_append] at h2
      rw [← h2]
      exact List.length_pos_iff.mpr hr
    · exact Or.inl ⟨d, _, hd, h1 ▸ hp⟩
  · refine Or.inr ⟨p, d, h1, hp, ?_⟩
    rw [h2, List.length_append]
    have := List.length_pos_iff.mpr hr
    omega

theorem ScalarTy.bad_of_cut (s : ScalarTy) {q r : List Byte} {v : s.Val} (hr : r ≠ [])
    (h : s.Payload (q ++ r) v) : s.Bad q .endOfBuffer := by
  have hl := List.length_pos_iff.mpr hr
  cases s with
  | int32 => obtain ⟨n, h, _⟩ := h; exact EP.bad_of_cut hr h
  | int64 => obtain ⟨n, h, _⟩ := h; exact EP.bad_of_cut hr h
  | uint32 => obtain ⟨n, h, _⟩ := h; exact EP.bad_of_cut hr h
  | uint64 => obtain ⟨n, h, _⟩ := h; exact EP.bad_of_cut hr h
  | sint32 => obtain ⟨n, h, _⟩ := h; exact EP.bad_of_cut hr h
  | sint64 => exact EP.bad_of_cut hr h
  | enumeration => obtain ⟨n, h, _⟩ := h; exact EP.bad_of_cut hr h
  | boolean =>
    obtain ⟨n, hn, h, _⟩ := h
    refine ⟨?_, rfl⟩
    have : (q ++ r).length = 1 := by rw [h]; simp [varint, hn]
    rw [List.length_append] at this
    exact List.eq_nil_of_length_eq_zero (by omega)
  | fixed32 => have h1 := h.1; rw [List.length_append] at h1; exact ⟨by omega, rfl⟩
  | sfixed32 => have h1 := h.1; rw [List.length_append] at h1; exact ⟨by omega, rfl⟩
  | floatfixed => have h1 := h.1; rw [List.length_append] at h1; exact ⟨by omega, rfl⟩
  | fixed64 => have h1 := h.1; rw [List.length_append] at h1; exact ⟨by omega, rfl⟩
  | sfixed64 => have h1 := h.1; rw [List.length_append] at h1; exact ⟨by omega, rfl⟩
  | doublefixed => have h1 := h.1; rw [List.length_append] at h1; exact ⟨by omega, rfl⟩

theorem str_of_cut {cap : Nat} {q r v : List Byte} (hr : r ≠ []) (h : Delimited (q ++ r) v)
    (hv : v.length ≤ cap) (u : List Byte) : StrFail cap q u .endOfBuffer (fun _ => True) := by
  rcases cut_delimited hr h with ⟨r', n, h1, h2⟩ | ⟨p, d, h1, h2, h3⟩
  · exact Or.inl ⟨bad_of_cut h1 h2, trivial⟩
  · exact Or.inr ⟨p, d, _, h1, h2, Or.inr ⟨hv, h3, rfl, trivial⟩⟩

theorem UnknownBad.of_cut {wt : WireType} {q : List Byte} (h : UnknownCut wt q) :
    UnknownBad wt q .endOfBuffer := by
  cases wt with
  | varint => obtain ⟨r, h1, h2⟩ := h; exact Or.inl ⟨cut_of_isVarint h1 h2, rfl⟩
  | fixed64 => exact ⟨h, rfl⟩
  | fixed32 => exact ⟨h, rfl⟩
  | lengthDelimited => obtain ⟨r, n, h1, h2⟩ := h; exact bad_of_cut h1 h2
  | startGroup => exact h.elim
  | endGroup => exact h.elim

theorem ElemTy.cut_any (t : ElemTy) (q : List Byte) (u old : t.Val) (hm : t.isMsg = false) (h : t.Cut q u) :
    t.BodyFail q old .endOfBuffer (fun _ => True) := by
  cases t with
  | scalar s =>
    simp only [ElemTy.Cut] at h
    obtain ⟨r, v, h1, h2⟩ := h
    exact ⟨s.bad_of_cut h1 h2, trivial⟩
  | str cap =>
    simp only [ElemTy.Cut] at h
    obtain ⟨r, v, h1, h2, h3⟩ := h
    exact str_of_cut h1 h2 h3 old
  | msg fs os => exact nomatch hm

theorem message_cut_of (fs : Fields) (os : Oneofs)
    (hF : ∀ num wt q u, fs.Cut num wt q u → fs.Fail num wt q u .endOfBuffer (fun _ => True))
    (hO : ∀ num wt q u, os.Cut num wt q u → os.Fail num wt q u .endOfBuffer (fun _ => True))
    (bs : List Byte) (u : fs.Val × os.Val) (h : Truncated fs os bs u) :
    (ElemTy.msg fs os).BodyFail bs u .endOfBuffer (fun _ => True) := by
  obtain ⟨pre, tg, q, num, wt, v, h1, h2, h3, h4⟩ := h
  refine ⟨pre, tg ++ q, v, h1, h2, Or.inr ⟨tg, q, _, rfl, h3, Or.inr ⟨num, wt, rfl, Or.inr ?_⟩⟩⟩
  rcases h4 with h4 | h4 | ⟨h4, h5, h6⟩
  · exact Or.inl (hF num wt q v.1 h4)
  · exact Or.inr (Or.inl (hO num wt q v.2 h4))
  · exact Or.inr (Or.inr ⟨h4, h5, UnknownBad.of_cut h6, trivial⟩)

theorem ElemTy.cut_check_of (t : ElemTy)
    (hb : ∀ q u, t.isMsg = true → t.Cut q u →
      BlockFail t.BodyFail q u u .endOfBuffer (fun _ => True) (fun _ => True))
    (q : List Byte) (u : t.Val) (h : t.Cut q u) :
    CheckFail t.wire t.isMsg t.BodyFail t.wire q u .endOfBuffer (fun _ => True) := by
  refine Or.inr ⟨rfl, ?_⟩
  cases hm : t.isMsg with
  | true => exact hb q u hm h
  | false => exact t.cut_any q u u hm h

mutual
theorem ElemTy.cut_block : (t : ElemTy) → (q : List Byte) → (u : t.Val) → t.isMsg = true → t.Cut q u →
    BlockFail t.BodyFail q u u .endOfBuffer (fun _ => True) (fun _ => True)
  | .scalar s, q, u, hm, h => nomatch hm
  | .str cap, q, u, hm, h => nomatch hm
  | .msg fs os, q, u, _, h => by
    simp only [ElemTy.Cut] at h
    rcases h with ⟨r, n, h1, h2⟩ | ⟨p, body, n, h1, h2, h3, h4⟩
    · exact Or.inl ⟨bad_of_cut h1 h2, trivial⟩
    · refine Or.inr ⟨p, body, n, h1, h2, ?_⟩
      rw [List.take_of_length_le h3]
      exact message_cut_of fs os (Fields.cut_fail fs) (Oneofs.cut_fail os) body u h4
theorem Fields.cut_fail : (fs : Fields) → (num : Nat) → (wt : WireType) → (q : List Byte) →
    (u : fs.Val) → fs.Cut num wt q u → fs.Fail num wt q u .endOfBuffer (fun _ => True)
  | .nil, _, _, _, _, h => h.elim
  | .plain n t rest, num, wt, q, u, h => by
    simp only [Fields.Cut] at h
    rcases h with ⟨h1, rfl, h2⟩ | h
    · exact Or.inl ⟨h1, ElemTy.cut_check_of t (ElemTy.cut_block t) q u.1 h2⟩
    · exact Or.inr (Fields.cut_fail rest num wt q u.2 h)
  | .optional n t rest, num, wt, q, u, h => by
    simp only [Fields.Cut] at h
    rcases h with ⟨h1, rfl, h2⟩ | h
    · exact Or.inl ⟨h1, ElemTy.cut_check_of t (ElemTy.cut_block t) q _ h2⟩
    · exact Or.inr (Fields.cut_fail rest num wt q u.2 h)
  | .repeated n cap t rest, num, wt, q, u, h => by
    simp only [Fields.Cut] at h
    rcases h with ⟨h1, rfl, h2, h3, h4⟩ | h
    · refine Or.inl ⟨h1, Or.inr ⟨rfl, ?_⟩⟩
      rw [h2]
      refine Or.inr ⟨h3, ?_⟩
      cases hm : t.isMsg with
      | true => exact ElemTy.cut_block t q _ hm h4
      | false => exact fun old => ElemTy.cut_any t q _ old hm h4
    · exact Or.inr (Fields.cut_fail rest num wt q u.2 h)
theorem Alts.cut_fail : (a : Alts) → (num : Nat) → (wt : WireType) → (q : List Byte) →
    (u : Option a.Val) → a.Cut num wt q u → a.Fail num wt q u .endOfBuffer
  | .nil, _, _, _, _, h => h.elim
  | .cons n t rest, num, wt, q, u, h => by
    simp only [Alts.Cut] at h
    rcases h with ⟨h1, rfl, h2⟩ | h
    · exact Or.inl ⟨h1, ElemTy.cut_check_of t (ElemTy.cut_block t) q _ h2⟩
    · exact Or.inr (Alts.cut_fail rest num wt q _ h)
theorem Oneofs.cut_fail : (os : Oneofs) → (num : Nat) → (wt : WireType) → (q : List Byte) →
    (u : os.Val) → os.Cut num wt q u → os.Fail num wt q u .endOfBuffer (fun _ => True)
  | .nil, _, _, _, _, h => h.elim
  | .cons a rest, num, wt, q, u, h => by
    simp only [Oneofs.Cut] at h
    rcases h with h | h
    · exact Or.inl ⟨Alts.cut_fail a num wt q u.1 h, trivial⟩
    · exact Or.inr (Oneofs.cut_fail rest num wt q u.2 h)
end

theorem Truncated.fail {fs : Fields} {os : Oneofs} {bs : List Byte} {u : fs.Val × os.Val}
    (h : Truncated fs os bs u) : RecordsFail fs os bs u .endOfBuffer (fun _ => True) :=
  message_cut_of fs os (Fields.cut_fail fs) (Oneofs.cut_fail os) bs u h

theorem tag_cut {β : Type} [ReadBuffer β] (M : ReadModel β) (b : β) (hb : M.Inv b)
    (h : CutVarint 5 (M.view b)) :
    (deserializeTag b).Post fun p => p.1 = .error .endOfBuffer ∧ M.Inv p.2 := by
  unfold deserializeTag
  refine Res.Post_bind.mpr ?_
  refine (varint_bad M 32 (by decide) b .endOfBuffer hb (Or.inl ⟨h, rfl⟩)).mono ?_
  rintro ⟨r, b'⟩ ⟨h1, h2⟩
  dsimp only at h1 h2
  subst h1
  exact ⟨rfl, h2⟩

end EP
