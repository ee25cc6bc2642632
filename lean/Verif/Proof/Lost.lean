import Verif.Proof.Truncate
import Verif.Spec.Lost

/-! # The ways in which input can end inside a record -/

namespace EP
open Spec

/-- A stream that is cut off: complete records, and part of the next one (possibly nothing of it). -/
theorem Stream.cut {V : Type} {Step : List Byte → V → V → Prop} {q r bs : List Byte} {u v : V} (hr : r ≠ [])
    (h : Stream Step bs u v) (he : bs = q ++ r) :
    ∃ pre c w w' r', q = pre ++ c ∧ Stream Step pre u w ∧ Step (c ++ r') w w' ∧ r' ≠ [] := by
  induction h generalizing q with
  | nil v => exact absurd (List.append_eq_nil_iff.mp he.symm).2 hr
  | cons h1 _ ih =>
    rcases List.append_eq_append_iff.mp he with ⟨a, g1, g2⟩ | ⟨c, g1, g2⟩
    · obtain ⟨pre, c, w, w', r', k1, k2, k3, k4⟩ := ih g2
      exact ⟨_, c, w, w', r', by rw [g1, k1, List.append_assoc], .cons h1 k2, k3, k4⟩
    · by_cases hc : c = []
      · subst hc
        obtain ⟨pre, c, w, w', r', k1, k2, k3, k4⟩ := ih (q := []) g2.symm
        obtain ⟨k1, k1'⟩ := List.append_eq_nil_iff.mp k1.symm
        subst k1 k1'
        refine ⟨_, [], w, w', r', ?_, .cons h1 k2, k3, k4⟩
        rw [g1]; simp
      · exact ⟨[], q, _, _, c, rfl, .nil _, g1 ▸ h1, hc⟩

theorem Packed.cut {V : Type} {P : List Byte → V → Prop} {q r bs : List Byte} {vs : List V} (hr : r ≠ [])
    (h : Packed P bs vs) (he : bs = q ++ r) :
    ∃ good bad ys y r', q = good ++ bad ∧ Packed P good ys ∧ (∃ zs, vs = ys ++ zs) ∧ r' ≠ [] ∧ P (bad ++ r') y := by
  induction h generalizing q with
  | nil => exact absurd (List.append_eq_nil_iff.mp he.symm).2 hr
  | @cons bs bs' v vs h1 _ ih =>
    rcases List.append_eq_append_iff.mp he with ⟨a, g1, g2⟩ | ⟨c, g1, g2⟩
    · obtain ⟨good, bad, ys, y, r', k1, k2, ⟨zs, k3⟩, k4⟩ := ih g2
      exact ⟨_, bad, v :: ys, y, r', by rw [g1, k1, List.append_assoc], .cons h1 k2, ⟨zs, by rw [k3]; rfl⟩, k4⟩
    · by_cases hc : c = []
      · subst hc
        obtain ⟨good, bad, ys, y, r', k1, k2, ⟨zs, k3⟩, k4⟩ := ih (q := []) g2.symm
        obtain ⟨k1, k1'⟩ := List.append_eq_nil_iff.mp k1.symm
        subst k1 k1'
        refine ⟨_, [], v :: ys, y, r', ?_, .cons h1 k2, ⟨zs, by rw [k3]; rfl⟩, k4⟩
        rw [g1]; simp
      · exact ⟨[], q, [], v, c, rfl, .nil, ⟨_, rfl⟩, hc, g1 ▸ h1⟩

/-- A cut inside an unknown field. -/
theorem UnknownPayload.cut {wt : WireType} {q r : List Byte} (hr : r ≠ []) (h : UnknownPayload wt (q ++ r)) :
    UnknownCut wt q ∨ (wt = .lengthDelimited ∧ ∃ p body n, q = p ++ body ∧ Varint 32 p n ∧ body.length < n) := by
  have hl := List.length_pos_iff.mpr hr
  cases wt with
  | varint => exact Or.inl ⟨r, hr, h⟩
  | fixed64 =>
    have h : (q ++ r).length = 8 := h
    rw [List.length_append] at h
    exact Or.inl (show q.length < 8 by omega)
  | fixed32 =>
    have h : (q ++ r).length = 4 := h
    rw [List.length_append] at h
    exact Or.inl (show q.length < 4 by omega)
  | lengthDelimited =>
    obtain ⟨body, h⟩ := h
    rcases cut_delimited hr h with ⟨r', n, h1, h2⟩ | ⟨p, d, h1, h2, h3⟩
    · exact Or.inl ⟨r', n, h1, h2⟩
    · exact Or.inr ⟨rfl, p, d, _, h1, h2, h3⟩
  | startGroup => exact h.elim
  | endGroup => exact h.elim

theorem message_three {U V : Type} {known : List Nat} {F : Nat → WireType → List Byte → U → U → Prop}
    {O : Nat → WireType → List Byte → V → V → Prop} {FC FO : Nat → WireType → List Byte → U → Prop}
    {OC OO : Nat → WireType → List Byte → V → Prop} {FL : Nat → WireType → List Byte → U → U → Prop}
    {OL : Nat → WireType → List Byte → V → V → Prop}
    (hF : ∀ num wt q r u v, r ≠ [] → F num wt (q ++ r) u v →
      FC num wt q u ∨ (∃ v, FL num wt q u v) ∨ FO num wt q u)
    (hO : ∀ num wt q r u v, r ≠ [] → O num wt (q ++ r) u v →
      OC num wt q u ∨ (∃ v, OL num wt q u v) ∨ OO num wt q u)
    {q r : List Byte} {u v : U × V} (hr : r ≠ []) (h : Stream (RecordStep known F O) (q ++ r) u v) :
    MessageCut known (RecordStep known F O) FC OC q u ∨
    (∃ v, MessageLost (RecordStep known F O) FL OL q u v) ∨
    MessageOverlong known (RecordStep known F O) FO OO q u := by
  obtain ⟨pre, c, w, w', r', rfl, h2, ⟨num, wt, t, p, g1, g2, g3⟩, h4⟩ := Stream.cut hr h rfl
  rcases List.append_eq_append_iff.mp g2 with ⟨d, k1, k2⟩ | ⟨q', k1, k2⟩
  · by_cases hd : d = []
    · subst hd
      rw [List.append_nil] at k1
      subst k1
      rw [List.nil_append] at k2
      subst k2
      rcases g3 with ⟨g3, _⟩ | ⟨g3, _⟩ | ⟨g3, g4, g5, _⟩
      · rcases hF num wt [] _ _ _ h4 g3 with e | ⟨x, e⟩ | e
        · exact Or.inl ⟨pre, t, [], num, wt, w, by simp, h2, g1, Or.inl e⟩
        · exact Or.inr (Or.inl ⟨(x, w.2), pre, t, w, rfl, h2, Or.inr ⟨t, [], num, wt, by simp, g1, Or.inl ⟨e, rfl⟩⟩⟩)
        · exact Or.inr (Or.inr ⟨pre, t, [], num, wt, w, by simp, h2, g1, Or.inl e⟩)
      · rcases hO num wt [] _ _ _ h4 g3 with e | ⟨x, e⟩ | e
        · exact Or.inl ⟨pre, t, [], num, wt, w, by simp, h2, g1, Or.inr (Or.inl e)⟩
        · exact Or.inr (Or.inl ⟨(w.1, x), pre, t, w, rfl, h2, Or.inr ⟨t, [], num, wt, by simp, g1, Or.inr ⟨e, rfl⟩⟩⟩)
        · exact Or.inr (Or.inr ⟨pre, t, [], num, wt, w, by simp, h2, g1, Or.inr (Or.inl e)⟩)
      · rcases UnknownPayload.cut (q := []) h4 g5 with e | e
        · exact Or.inl ⟨pre, t, [], num, wt, w, by simp, h2, g1, Or.inr (Or.inr ⟨g3, g4, e⟩)⟩
        · exact Or.inr (Or.inr ⟨pre, t, [], num, wt, w, by simp, h2, g1, Or.inr (Or.inr ⟨g3, g4, e⟩)⟩)
    · exact Or.inr (Or.inl ⟨w, pre, c, w, rfl, h2, Or.inl ⟨cut_of_isVarint hd (k1 ▸ g1.1), rfl⟩⟩)
  · subst k1 k2
    rcases g3 with ⟨g3, _⟩ | ⟨g3, _⟩ | ⟨g3, g4, g5, _⟩
    · rcases hF num wt _ _ _ _ h4 g3 with e | ⟨x, e⟩ | e
      · exact Or.inl ⟨pre, t, _, num, wt, w, rfl, h2, g1, Or.inl e⟩
      · exact Or.inr (Or.inl ⟨(x, w.2), pre, _, w, rfl, h2, Or.inr ⟨t, _, num, wt, rfl, g1, Or.inl ⟨e, rfl⟩⟩⟩)
      · exact Or.inr (Or.inr ⟨pre, t, _, num, wt, w, rfl, h2, g1, Or.inl e⟩)
    · rcases hO num wt _ _ _ _ h4 g3 with e | ⟨x, e⟩ | e
      · exact Or.inl ⟨pre, t, _, num, wt, w, rfl, h2, g1, Or.inr (Or.inl e)⟩
      · exact Or.inr (Or.inl ⟨(w.1, x), pre, _, w, rfl, h2, Or.inr ⟨t, _, num, wt, rfl, g1, Or.inr ⟨e, rfl⟩⟩⟩)
      · exact Or.inr (Or.inr ⟨pre, t, _, num, wt, w, rfl, h2, g1, Or.inr (Or.inl e)⟩)
    · rcases UnknownPayload.cut h4 g5 with e | e
      · exact Or.inl ⟨pre, t, _, num, wt, w, rfl, h2, g1, Or.inr (Or.inr ⟨g3, g4, e⟩)⟩
      · exact Or.inr (Or.inr ⟨pre, t, _, num, wt, w, rfl, h2, g1, Or.inr (Or.inr ⟨g3, g4, e⟩)⟩)

theorem packed_lost {V : Type} {P : List Byte → V → Prop} {q r body : List Byte} {vs : List V} (hr : r ≠ [])
    (hd : Delimited (q ++ r) body) (hp : Packed P body vs) : ∃ ys, PackedLost P q ys ∧ ∃ zs, vs = ys ++ zs := by
  obtain ⟨p, hp1, he⟩ := hd
  rcases List.append_eq_append_iff.mp he with ⟨d, h1, h2⟩ | ⟨d, h1, h2⟩
  · by_cases hd : d = []
    · subst hd
      rw [List.append_nil] at h1
      rw [List.nil_append] at h2
      obtain ⟨good, bad, ys, y, r', k1, k2, k3, k4, k5⟩ := Packed.cut (q := []) hr hp h2.symm
      refine ⟨ys, Or.inr ⟨p, good, bad, r', y, body.length, ?_, hp1, ?_, k2, k4, k5⟩, k3⟩
      · rw [← k1, List.append_nil]; exact h1.symm
      · rw [← k1, ← h2]; exact List.length_pos_iff.mpr hr
    · exact ⟨[], Or.inl ⟨rfl, d, _, hd, h1 ▸ hp1⟩, _, rfl⟩
  · obtain ⟨good, bad, ys, y, r', k1, k2, k3, k4, k5⟩ := Packed.cut (q := d) hr hp h2
    refine ⟨ys, Or.inr ⟨p, good, bad, r', y, body.length, ?_, hp1, ?_, k2, k4, k5⟩, k3⟩
    · rw [← k1]; exact h1
    · rw [← k1, h2, List.length_append]
      have := List.length_pos_iff.mpr hr
      omega

mutual
theorem ElemTy.three : (t : ElemTy) → (q r : List Byte) → (u v : t.Val) → r ≠ [] → t.Payload (q ++ r) u v →
    t.Cut q u ∨ (∃ v, t.Lost q u v) ∨ t.Overlong q u
  | .scalar s, q, r, u, v, hr, h => by
    simp only [ElemTy.Cut]
    exact Or.inl ⟨r, v, hr, h⟩
  | .str cap, q, r, u, v, hr, h => by
    simp only [ElemTy.Cut]
    exact Or.inl ⟨r, v, hr, h⟩
  | .msg fs os, q, r, u, v, hr, h => by
    simp only [ElemTy.Payload] at h
    simp only [ElemTy.Cut, ElemTy.Lost, ElemTy.Overlong]
    obtain ⟨body, ⟨p, hp1, he⟩, hs⟩ := h
    rcases List.append_eq_append_iff.mp he with ⟨d, h1, h2⟩ | ⟨d, h1, h2⟩
    · by_cases hd : d = []
      · subst hd
        rw [List.append_nil] at h1
        rw [List.nil_append] at h2
        have hl : ([] : List Byte).length < body.length := by rw [← h2]; exact List.length_pos_iff.mpr hr
        rcases message_three (Fields.three fs) (Oneofs.three os) (q := []) hr (h2 ▸ hs) with e | ⟨x, e⟩ | e
        · exact Or.inl (Or.inr ⟨p, [], _, by simp [h1], hp1, Nat.le_of_lt hl, e⟩)
        · exact Or.inr (Or.inl ⟨x, p, [], _, by simp [h1], hp1, hl, e⟩)
        · exact Or.inr (Or.inr ⟨p, [], _, by simp [h1], hp1, hl, e⟩)
      · exact Or.inl (Or.inl ⟨d, _, hd, h1 ▸ hp1⟩)
    · have hl : d.length < body.length := by
        have := List.length_pos_iff.mpr hr
        rw [h2, List.length_append]; omega
      rcases message_three (Fields.three fs) (Oneofs.three os) (q := d) hr (h2 ▸ hs) with e | ⟨x, e⟩ | e
      · exact Or.inl (Or.inr ⟨p, d, _, h1, hp1, Nat.le_of_lt hl, e⟩)
      · exact Or.inr (Or.inl ⟨x, p, d, _, h1, hp1, hl, e⟩)
      · exact Or.inr (Or.inr ⟨p, d, _, h1, hp1, hl, e⟩)
theorem Fields.three : (fs : Fields) → (num : Nat) → (wt : WireType) → (q r : List Byte) → (u v : fs.Val) → r ≠ [] →
    fs.Record num wt (q ++ r) u v →
    fs.Cut num wt q u ∨ (∃ v, fs.Lost num wt q u v) ∨ fs.Overlong num wt q u
  | .nil, _, _, _, _, _, _, _, h => h.elim
  | .plain n t rest, num, wt, q, r, (u1, u2), (v1, v2), hr, h => by
    simp only [Fields.Record] at h
    simp only [Fields.Cut, Fields.Lost, Fields.Overlong]
    rcases h with ⟨h1, h2, h3, h4⟩ | ⟨h3, h4⟩
    · rcases ElemTy.three t q r u1 v1 hr h3 with e | ⟨x, e⟩ | e
      · exact Or.inl (Or.inl ⟨h1, h2, e⟩)
      · exact Or.inr (Or.inl ⟨(x, u2), Or.inl ⟨h1, h2, e, rfl⟩⟩)
      · exact Or.inr (Or.inr (Or.inl ⟨h1, h2, e⟩))
    · rcases Fields.three rest num wt q r u2 v2 hr h3 with e | ⟨x, e⟩ | e
      · exact Or.inl (Or.inr e)
      · exact Or.inr (Or.inl ⟨(u1, x), Or.inr ⟨e, rfl⟩⟩)
      · exact Or.inr (Or.inr (Or.inr e))
  | .optional n t rest, num, wt, q, r, (u1, u2), (v1, v2), hr, h => by
    simp only [Fields.Record] at h
    simp only [Fields.Cut, Fields.Lost, Fields.Overlong]
    rcases h with ⟨h1, h2, ⟨y, h3, _⟩, h4⟩ | ⟨h3, h4⟩
    · rcases ElemTy.three t q r _ y hr h3 with e | ⟨x, e⟩ | e
      · exact Or.inl (Or.inl ⟨h1, h2, e⟩)
      · exact Or.inr (Or.inl ⟨(some x, u2), Or.inl ⟨h1, h2, ⟨x, e, rfl⟩, rfl⟩⟩)
      · exact Or.inr (Or.inr (Or.inl ⟨h1, h2, e⟩))
    · rcases Fields.three rest num wt q r u2 v2 hr h3 with e | ⟨x, e⟩ | e
      · exact Or.inl (Or.inr e)
      · exact Or.inr (Or.inl ⟨(u1, x), Or.inr ⟨e, rfl⟩⟩)
      · exact Or.inr (Or.inr (Or.inr e))
  | .repeated n cap t rest, num, wt, q, r, (u1, u2), (v1, v2), hr, h => by
    simp only [Fields.Record] at h
    simp only [Fields.Cut, Fields.Lost, Fields.Overlong]
    rcases h with ⟨h1, h2, hlen, h4, h3⟩ | ⟨h3, h4⟩
    · have hlen : List.length (α := t.Val) v1 ≤ cap := hlen
      cases hsc : t.isScalar with
      | true =>
        rw [if_pos hsc] at h3
        obtain ⟨body, ys, g1, g2, g3⟩ := h3
        have g3 : v1 = List.append (α := t.Val) u1 ys := g3
        obtain ⟨zs, k1, zs', k2⟩ := packed_lost hr g1 g2
        refine Or.inr (Or.inl ⟨(List.append (α := t.Val) u1 zs, u2), Or.inl ⟨h1, h2, ?_, rfl, ?_⟩⟩)
        · show (List.append (α := t.Val) u1 zs).length ≤ cap
          rw [g3, k2] at hlen
          simp only [List.append_eq, List.length_append] at hlen ⊢
          omega
        · rw [if_pos rfl]
          exact ⟨zs, k1, rfl⟩
      | false =>
        rw [if_neg (by simp [hsc])] at h3
        obtain ⟨y, g1, g3⟩ := h3
        have g3 : v1 = List.append (α := t.Val) u1 [y] := g3
        have hl : List.length (α := t.Val) u1 + 1 ≤ cap := by
          rw [g3] at hlen
          simpa only [List.append_eq, List.length_append, List.length_cons, List.length_nil] using hlen
        rcases ElemTy.three t q r _ y hr g1 with e | ⟨x, e⟩ | e
        · exact Or.inl (Or.inl ⟨h1, h2, rfl, hl, e⟩)
        · refine Or.inr (Or.inl ⟨(List.append (α := t.Val) u1 [x], u2), Or.inl ⟨h1, h2, ?_, rfl, ?_⟩⟩)
          · show (List.append (α := t.Val) u1 [x]).length ≤ cap
            simpa only [List.append_eq, List.length_append, List.length_cons, List.length_nil] using hl
          · rw [if_neg (by simp)]
            exact ⟨x, e, rfl⟩
        · exact Or.inr (Or.inr (Or.inl ⟨h1, h2, rfl, hl, e⟩))
    · rcases Fields.three rest num wt q r u2 v2 hr h3 with e | ⟨x, e⟩ | e
      · exact Or.inl (Or.inr e)
      · exact Or.inr (Or.inl ⟨(u1, x), Or.inr ⟨e, rfl⟩⟩)
      · exact Or.inr (Or.inr (Or.inr e))
theorem Alts.three : (a : Alts) → (num : Nat) → (wt : WireType) → (q r : List Byte) → (u : Option a.Val) →
    (v : a.Val) → r ≠ [] → a.Record num wt (q ++ r) u v →
    a.Cut num wt q u ∨ (∃ v, a.Lost num wt q u v) ∨ a.Overlong num wt q u
  | .nil, _, _, _, _, _, _, _, h => h.elim
  | .cons n t rest, num, wt, q, r, u, v, hr, h => by
    simp only [Alts.Record] at h
    simp only [Alts.Cut, Alts.Lost, Alts.Overlong]
    rcases h with ⟨h1, h2, y, h3, _⟩ | ⟨y, h3, _⟩
    · rcases ElemTy.three t q r _ y hr h3 with e | ⟨x, e⟩ | e
      · exact Or.inl (Or.inl ⟨h1, h2, e⟩)
      · exact Or.inr (Or.inl ⟨.inl x, Or.inl ⟨h1, h2, x, e, rfl⟩⟩)
      · exact Or.inr (Or.inr (Or.inl ⟨h1, h2, e⟩))
    · rcases Alts.three rest num wt q r _ y hr h3 with e | ⟨x, e⟩ | e
      · exact Or.inl (Or.inr e)
      · exact Or.inr (Or.inl ⟨.inr x, Or.inr ⟨x, e, rfl⟩⟩)
      · exact Or.inr (Or.inr (Or.inr e))
theorem Oneofs.three : (os : Oneofs) → (num : Nat) → (wt : WireType) → (q r : List Byte) → (u v : os.Val) → r ≠ [] →
    os.Record num wt (q ++ r) u v →
    os.Cut num wt q u ∨ (∃ v, os.Lost num wt q u v) ∨ os.Overlong num wt q u
  | .nil, _, _, _, _, _, _, _, h => h.elim
  | .cons a rest, num, wt, q, r, (u1, u2), (v1, v2), hr, h => by
    simp only [Oneofs.Record] at h
    simp only [Oneofs.Cut, Oneofs.Lost, Oneofs.Overlong]
    rcases h with ⟨⟨y, h3, _⟩, _⟩ | ⟨h3, h4⟩
    · rcases Alts.three a num wt q r u1 y hr h3 with e | ⟨x, e⟩ | e
      · exact Or.inl (Or.inl e)
      · exact Or.inr (Or.inl ⟨(some x, u2), Or.inl ⟨⟨x, e, rfl⟩, rfl⟩⟩)
      · exact Or.inr (Or.inr (Or.inl e))
    · rcases Oneofs.three rest num wt q r u2 v2 hr h3 with e | ⟨x, e⟩ | e
      · exact Or.inl (Or.inr e)
      · exact Or.inr (Or.inl ⟨(u1, x), Or.inr ⟨e, rfl⟩⟩)
      · exact Or.inr (Or.inr (Or.inr e))
end

/-- Any proper prefix of a record stream. -/
theorem Records.three {fs : Fields} {os : Oneofs} {q r : List Byte} {u v : fs.Val × os.Val} (hr : r ≠ [])
    (h : Records fs os (q ++ r) u v) :
    Truncated fs os q u ∨ (∃ v, Lost fs os q u v) ∨ Overlong fs os q u :=
  message_three (Fields.three fs) (Oneofs.three os) hr h

end EP
