import Verif.Proof.ParseRecords
import Verif.Proof.Older

/-!
# Well formed records are applied, or there is no room (specification level)

A well formed record has an effect on what is held, as described by `HRecord`, or the reference decoder refuses it with
`ARRAY_FULL`.
-/

namespace EP
open Spec

/-- Refused for want of room. -/
def Parse.Full {α : Type} (z : Parse α) : Prop := ∃ v, z = .fail .arrayFull v

theorem Parse.Full.map {α γ : Type} {z : Parse α} (h : z.Full) (f : α → γ) : (z.map f).Full := by
  obtain ⟨v, rfl⟩ := h
  exact ⟨_, rfl⟩

theorem concat_packed {V : Type} {P : List Byte → V → Prop} {bs : List Byte} (h : Concat (fun b => ∃ v, P b v) bs) :
    ∃ ys, Packed P bs ys := by
  induction h with
  | nil => exact ⟨_, .nil⟩
  | cons h1 _ ih =>
    obtain ⟨y, h1⟩ := h1
    obtain ⟨ys, ih⟩ := ih
    exact ⟨_, .cons h1 ih⟩

theorem parsePacked_full {H : Type} {read : Reader H} {P : List Byte → H → Prop}
    (hP : ∀ p r y, P p y → read (p ++ r) = (.ok y, r)) {body : List Byte} {ys : List H} (h : Packed P body ys)
    (xs hs : List H) (hl : hs.length < ys.length) : (parsePacked read body xs hs).Full := by
  induction h generalizing xs hs with
  | nil => simp at hl
  | cons h1 _ ih =>
    rw [parsePacked, hP _ _ _ h1]
    cases hs with
    | nil => exact ⟨_, rfl⟩
    | cons g gs => exact ih (xs ++ [_]) gs (by simpa using hl)

theorem window_full {α : Type} {clip : Bool} {body r : List Byte} {f : Bool → List Byte → Parse α} (h : (f true body).Full) :
    (window clip body.length (body ++ r) f).Full := by
  unfold window
  rw [decide_eq_true (by simp), Bool.or_true, List.take_left]
  obtain ⟨v, h⟩ := h
  rw [h]
  exact ⟨v, rfl⟩

/-- A loop over records: all have an effect, or one is refused. -/
theorem parseLoop_exact {α : Type} {P : List Byte → Prop} {Step : List Byte → α → α → Prop}
    {record : Bool → Nat → WireType → List Byte → α → Parse α}
    (hS : ∀ bs u, P bs → ∃ num wt t p, Varint 32 t (8 * num + wireNumber wt) ∧ bs = t ++ p ∧
      ((∃ v, Step bs u v ∧ ∀ clip r, record clip num wt (p ++ r) u = .ok v r) ∨
        ∀ clip r, (record clip num wt (p ++ r) u).Full))
    {body : List Byte} (h : Concat P body) (u : α) :
    (∃ v, Stream Step body u v) ∨ ∀ clip k, body.length < k → (parseLoop (record clip) k body u).Full := by
  induction h generalizing u with
  | nil => exact Or.inl ⟨u, .nil u⟩
  | @cons bs bs' h1 _ ih =>
    obtain ⟨num, wt, t, p, g1, rfl, g2⟩ := hS _ u h1
    have ht : 0 < t.length := by
      cases t with
      | nil => exact g1.1.elim
      | cons b t => simp
    rcases g2 with ⟨v, g2, g3⟩ | g2
    · rcases ih v with ⟨w, hw⟩ | hf
      · exact Or.inl ⟨w, .cons g2 hw⟩
      · refine Or.inr fun clip k hk => ?_
        cases k with
        | zero => exact absurd hk (Nat.not_lt_zero _)
        | succ k =>
          rw [parseLoop]
          simp only [List.append_assoc, readTag_ok _ g1, g3]
          exact hf clip k (by simp only [List.length_append] at hk; omega)
    · refine Or.inr fun clip k hk => ?_
      cases k with
      | zero => exact absurd hk (Nat.not_lt_zero _)
      | succ k =>
        rw [parseLoop]
        obtain ⟨w, g2⟩ := g2 clip bs'
        simp only [List.append_assoc, readTag_ok _ g1, g2]
        exact ⟨w, rfl⟩

theorem parseRecord_exact {fs : Fields} {os : Oneofs} (hd : (fs.numbers ++ os.numbers).Nodup)
    (hF : ∀ num wt p r clip u v, fs.HRecord num wt p u v → fs.parse clip num wt (p ++ r) u = some (.ok v r))
    (hO : ∀ num wt p r clip u v, os.HRecord num wt p u v → os.parse clip num wt (p ++ r) u = some (.ok v r))
    (hF' : ∀ num wt p u, fs.Syntax num wt p → (∃ v, fs.HRecord num wt p u v) ∨
      ∀ clip r, ∃ z, fs.parse clip num wt (p ++ r) u = some z ∧ z.Full)
    (hO' : ∀ num wt p u, os.Syntax num wt p → (∃ v, os.HRecord num wt p u v) ∨
      ∀ clip r, ∃ z, os.parse clip num wt (p ++ r) u = some z ∧ z.Full)
    (bs : List Byte) (u : fs.Held × os.Held) (h : RecordSyntax (fs.numbers ++ os.numbers) fs.Syntax os.Syntax bs) :
    ∃ num wt t p, Varint 32 t (8 * num + wireNumber wt) ∧ bs = t ++ p ∧
      ((∃ v, RecordStep (fs.numbers ++ os.numbers) fs.HRecord os.HRecord bs u v ∧
          ∀ clip r, parseRecord fs os clip num wt (p ++ r) u = .ok v r) ∨
        ∀ clip r, (parseRecord fs os clip num wt (p ++ r) u).Full) := by
  obtain ⟨num, wt, t, p, h1, rfl, h3⟩ := h
  refine ⟨num, wt, t, p, h1, rfl, ?_⟩
  have hd' := List.nodup_append.mp hd
  rcases h3 with h3 | h3 | ⟨h3, h4, h5⟩
  · rcases hF' _ _ _ u.1 h3 with ⟨v, hv⟩ | hf
    · refine Or.inl ⟨(v, u.2), ⟨num, wt, t, p, h1, rfl, Or.inl ⟨hv, rfl⟩⟩, fun clip r => ?_⟩
      unfold parseRecord
      rw [hF _ _ _ r clip _ _ hv]; rfl
    · refine Or.inr fun clip r => ?_
      obtain ⟨z, hz, hf⟩ := hf clip r
      unfold parseRecord
      rw [hz]
      exact hf.map _
  · have hm := Oneofs.Syntax.mem h3
    have hn : ∀ clip r, fs.parse clip num wt (p ++ r) u.1 = none := fun clip r =>
      Fields.parse_none fs clip num wt _ u.1 (fun hm' => hd'.2.2 num hm' num hm rfl)
    rcases hO' _ _ _ u.2 h3 with ⟨v, hv⟩ | hf
    · refine Or.inl ⟨(u.1, v), ⟨num, wt, t, p, h1, rfl, Or.inr (Or.inl ⟨hv, rfl⟩)⟩, fun clip r => ?_⟩
      unfold parseRecord
      rw [hn, hO _ _ _ r clip _ _ hv]; rfl
    · refine Or.inr fun clip r => ?_
      obtain ⟨z, hz, hf⟩ := hf clip r
      unfold parseRecord
      rw [hn, hz]
      exact hf.map _
  · refine Or.inl ⟨u, ⟨num, wt, t, p, h1, rfl, Or.inr (Or.inr ⟨h3, h4, h5, rfl⟩)⟩, fun clip r => ?_⟩
    simp only [List.mem_append, not_or] at h4
    unfold parseRecord
    rw [Fields.parse_none fs clip num wt _ u.1 h4.1, Oneofs.parse_none os clip num wt _ u.2 h4.2]
    simp only
    rw [if_neg (by omega), skipField_ok clip r h5]; rfl

mutual
theorem ElemTy.exact : (t : ElemTy) → t.WF → (p : List Byte) → (u : t.Held) → t.Syntax p →
    (∃ v, t.HPayload p u v) ∨ ∀ clip r, (t.parse clip (p ++ r) u).Full
  | .scalar s, _, p, u, h => Or.inl h
  | .str cap, _, p, u, h => by
    obtain ⟨body, hb⟩ := h
    by_cases hc : body.length ≤ cap
    · exact Or.inl ⟨body, hb, hc⟩
    · refine Or.inr fun clip r => ⟨u, ?_⟩
      obtain ⟨pl, h1, rfl⟩ := hb
      rw [ElemTy.parse]
      unfold parseStr
      rw [List.append_assoc, readLen_ok _ h1]
      exact if_pos (Nat.lt_of_not_le hc)
  | .msg fs os, hw, p, u, h => by
    simp only [ElemTy.Syntax] at h
    obtain ⟨body, hb, hs⟩ := h
    simp only [ElemTy.WF] at hw
    have hd := List.nodup_append.mp hw.2.2.1
    rcases parseLoop_exact (parseRecord_exact hw.2.2.1
        (fun num wt p r clip u v => Fields.parse_ok fs hw.1.distinct hd.1 clip num wt p r u v)
        (fun num wt p r clip u v => Oneofs.parse_ok os hw.2.1.distinct hd.2.1 clip num wt p r u v)
        (fun num wt p u => Fields.exact fs hw.1 hd.1 num wt p u)
        (fun num wt p u => Oneofs.exact os hw.2.1 hd.2.1 num wt p u)) hs u with ⟨v, hv⟩ | hf
    · refine Or.inl ⟨v, ?_⟩
      simp only [ElemTy.HPayload]
      exact ⟨body, hb, hv⟩
    · refine Or.inr fun clip r => ?_
      obtain ⟨pl, h1, rfl⟩ := hb
      rw [msg_parse_eq, List.append_assoc, readLen_ok _ h1]
      exact window_full (hf true _ (Nat.lt_succ_self _))
theorem Fields.exact : (fs : Fields) → fs.WF → fs.numbers.Nodup → (num : Nat) → (wt : WireType) → (p : List Byte) →
    (u : fs.Held) → fs.Syntax num wt p → (∃ v, fs.HRecord num wt p u v) ∨
      ∀ clip r, ∃ z, fs.parse clip num wt (p ++ r) u = some z ∧ z.Full
  | .nil, _, _, _, _, _, _, h => h.elim
  | .plain n t rest, hw, hd, num, wt, p, u, h => by
    simp only [Fields.WF] at hw
    simp only [Fields.numbers, List.nodup_cons] at hd
    rcases h with ⟨h1, h2, h3⟩ | h3
    · rcases ElemTy.exact t hw.1 p u.1 h3 with ⟨v, hv⟩ | hf
      · exact Or.inl ⟨(v, u.2), Or.inl ⟨h1, h2, hv, rfl⟩⟩
      · exact Or.inr fun clip r => ⟨_, plain_here h1 h2 rfl, (hf clip r).map _⟩
    · have hm := Fields.Syntax.mem h3
      rcases Fields.exact rest hw.2 hd.2 num wt p u.2 h3 with ⟨v, hv⟩ | hf
      · exact Or.inl ⟨(u.1, v), Or.inr ⟨hv, rfl⟩⟩
      · refine Or.inr fun clip r => ?_
        obtain ⟨z, hz, hf⟩ := hf clip r
        exact ⟨_, plain_next (ne_of_mem hm hd.1) hz, hf.map _⟩
  | .optional n t rest, hw, hd, num, wt, p, u, h => by
    simp only [Fields.WF] at hw
    simp only [Fields.numbers, List.nodup_cons] at hd
    rcases h with ⟨h1, h2, h3⟩ | h3
    · rcases ElemTy.exact t hw.1 p (u.1.getD t.fresh) h3 with ⟨v, hv⟩ | hf
      · exact Or.inl ⟨(some v, u.2), Or.inl ⟨h1, h2, ⟨v, hv, rfl⟩, rfl⟩⟩
      · exact Or.inr fun clip r => ⟨_, optional_here h1 h2 rfl, (hf clip r).map _⟩
    · have hm := Fields.Syntax.mem h3
      rcases Fields.exact rest hw.2 hd.2 num wt p u.2 h3 with ⟨v, hv⟩ | hf
      · exact Or.inl ⟨(u.1, v), Or.inr ⟨hv, rfl⟩⟩
      · refine Or.inr fun clip r => ?_
        obtain ⟨z, hz, hf⟩ := hf clip r
        exact ⟨_, optional_next (ne_of_mem hm hd.1) hz, hf.map _⟩
  | .repeated n cap t rest, hw, hd, num, wt, p, ((xs, hs), u2), h => by
    simp only [Fields.WF] at hw
    simp only [Fields.numbers, List.nodup_cons] at hd
    rcases h with ⟨h1, h2, h3⟩ | h3
    · suffices hp : (∃ v1 : List t.Held × List t.Held, if t.isScalar then
            ∃ body ys, Delimited p body ∧ Packed (fun b y => t.HPayload b t.fresh y) body ys ∧
              ys.length ≤ hs.length ∧ v1 = (xs ++ ys, hs.drop ys.length)
           else ∃ g gs y, hs = g :: gs ∧ t.HPayload p g y ∧ v1 = (xs ++ [y], gs)) ∨
          ∀ clip r, (t.parseRep clip (p ++ r) (xs, hs)).Full by
        rcases hp with ⟨v1, hv⟩ | hf
        · exact Or.inl ⟨(v1, u2), Or.inl ⟨h1, h2, hv, rfl⟩⟩
        · exact Or.inr fun clip r => ⟨_, repeated_here (u := ((xs, hs), u2)) h1 h2 rfl, (hf clip r).map _⟩
      cases t with
      | scalar s =>
        rw [if_pos (by rfl)] at h3
        obtain ⟨body, hb, g2⟩ := h3
        obtain ⟨ys, g2⟩ := concat_packed (P := fun b y => s.Payload b y) g2
        by_cases hl : ys.length ≤ hs.length
        · exact Or.inl ⟨_, body, ys, hb, g2, hl, rfl⟩
        · refine Or.inr fun clip r => ?_
          obtain ⟨pl, g1, rfl⟩ := hb
          unfold ElemTy.parseRep parseScalars
          rw [List.append_assoc, readLen_ok _ g1]
          exact window_full (parsePacked_full (read := s.read) (P := fun b y => s.Payload b y)
            (fun p r y h => s.read_ok r h) g2 xs hs (Nat.lt_of_not_le hl))
      | str c =>
        rw [if_neg (by simp [ElemTy.isScalar])] at h3
        simp only [if_neg (show ¬(ElemTy.str c).isScalar = true by simp [ElemTy.isScalar])]
        cases hs with
        | nil => exact Or.inr fun clip r => ⟨_, rfl⟩
        | cons g gs =>
          rcases ElemTy.exact (.str c) hw.2.1 p g h3 with ⟨y, hy⟩ | hf
          · exact Or.inl ⟨_, g, gs, y, rfl, hy, rfl⟩
          · refine Or.inr fun clip r => ?_
            have := hf clip r
            rw [ElemTy.parse] at this
            exact this.map (fun y : (ElemTy.str c).Held => (xs ++ [y], gs))
      | msg fs os =>
        rw [if_neg (by simp [ElemTy.isScalar])] at h3
        simp only [if_neg (show ¬(ElemTy.msg fs os).isScalar = true by simp [ElemTy.isScalar])]
        cases hs with
        | nil => exact Or.inr fun clip r => ⟨_, rfl⟩
        | cons g gs =>
          rcases ElemTy.exact (.msg fs os) hw.2.1 p g h3 with ⟨y, hy⟩ | hf
          · exact Or.inl ⟨_, g, gs, y, rfl, hy, rfl⟩
          · refine Or.inr fun clip r => ?_
            have hf := hf clip r
            simp only [ElemTy.Syntax] at h3
            obtain ⟨body, ⟨pl, k1, rfl⟩, _⟩ := h3
            have e := parseElem_msg (parse := fun bs u => (ElemTy.msg fs os).parse clip bs u) (bs := pl ++ body ++ r)
              (xs := xs) (hs := gs) (h := g) (by rw [List.append_assoc]; exact readLen_ok _ k1)
            obtain ⟨w, hw'⟩ := hf.map (fun y => (xs ++ [y], gs))
            exact ⟨w, e.trans hw'⟩
    · have hm := Fields.Syntax.mem h3
      rcases Fields.exact rest hw.2.2 hd.2 num wt p u2 h3 with ⟨v, hv⟩ | hf
      · exact Or.inl ⟨((xs, hs), v), Or.inr ⟨hv, rfl⟩⟩
      · refine Or.inr fun clip r => ?_
        obtain ⟨z, hz, hf⟩ := hf clip r
        exact ⟨_, repeated_next (u := ((xs, hs), u2)) (ne_of_mem hm hd.1) hz, hf.map _⟩
theorem Alts.exact : (a : Alts) → a.WF → a.numbers.Nodup → (num : Nat) → (wt : WireType) → (p : List Byte) →
    (u : Option a.Held) → a.Syntax num wt p → (∃ v, a.HRecord num wt p u v) ∨
      ∀ clip r, ∃ z, a.parse clip num wt (p ++ r) u = some z ∧ z.Full
  | .nil, _, _, _, _, _, _, h => h.elim
  | .cons n t rest, hw, hd, num, wt, p, u, h => by
    simp only [Alts.WF] at hw
    simp only [Alts.numbers, List.nodup_cons] at hd
    rcases h with ⟨h1, h2, h3⟩ | h3
    · rcases ElemTy.exact t hw.1 p (leftD t.fresh u) h3 with ⟨v, hv⟩ | hf
      · exact Or.inl ⟨.inl v, Or.inl ⟨h1, h2, v, hv, rfl⟩⟩
      · exact Or.inr fun clip r => ⟨_, member_here h1 h2 rfl, (hf clip r).map _⟩
    · have hm := Alts.Syntax.mem h3
      rcases Alts.exact rest hw.2 hd.2 num wt p (rightOf u) h3 with ⟨v, hv⟩ | hf
      · exact Or.inl ⟨.inr v, Or.inr ⟨v, hv, rfl⟩⟩
      · refine Or.inr fun clip r => ?_
        obtain ⟨z, hz, hf⟩ := hf clip r
        exact ⟨_, member_next (ne_of_mem hm hd.1) hz, hf.map _⟩
theorem Oneofs.exact : (os : Oneofs) → os.WF → os.numbers.Nodup → (num : Nat) → (wt : WireType) → (p : List Byte) →
    (u : os.Held) → os.Syntax num wt p → (∃ v, os.HRecord num wt p u v) ∨
      ∀ clip r, ∃ z, os.parse clip num wt (p ++ r) u = some z ∧ z.Full
  | .nil, _, _, _, _, _, _, h => h.elim
  | .cons a rest, hw, hd, num, wt, p, u, h => by
    simp only [Oneofs.WF] at hw
    simp only [Oneofs.numbers] at hd
    have hd' := List.nodup_append.mp hd
    rcases h with h3 | h3
    · rcases Alts.exact a hw.1 hd'.1 num wt p u.1 h3 with ⟨v, hv⟩ | hf
      · exact Or.inl ⟨(some v, u.2), Or.inl ⟨⟨v, hv, rfl⟩, rfl⟩⟩
      · refine Or.inr fun clip r => ?_
        obtain ⟨_, hz, w, rfl⟩ := hf clip r
        refine ⟨.fail .arrayFull (none, u.2), ?_, _, rfl⟩
        rw [oneofs_parse_eq]
        unfold consParse
        rw [hz]; rfl
    · have hm := Oneofs.Syntax.mem h3
      rcases Oneofs.exact rest hw.2 hd'.2.1 num wt p u.2 h3 with ⟨v, hv⟩ | hf
      · exact Or.inl ⟨(u.1, v), Or.inr ⟨hv, rfl⟩⟩
      · refine Or.inr fun clip r => ?_
        obtain ⟨z, hz, hf⟩ := hf clip r
        exact ⟨_, oneof_next (fun hm' => hd'.2.2 num hm' num hm rfl) hz, hf.map _⟩
end

/-- A whole message. -/
theorem wellFormed_exact {fs : Fields} {os : Oneofs} (hw : (ElemTy.msg fs os).WF) {bs : List Byte} (h : WellFormed fs os bs)
    (u : fs.Held × os.Held) :
    (∃ v, HRecords fs os bs u v) ∨ ∀ clip, (parseMessage fs os clip bs u).Full := by
  simp only [ElemTy.WF] at hw
  have hd := List.nodup_append.mp hw.2.2.1
  rcases parseLoop_exact (parseRecord_exact hw.2.2.1
      (fun num wt p r clip u v => Fields.parse_ok fs hw.1.distinct hd.1 clip num wt p r u v)
      (fun num wt p r clip u v => Oneofs.parse_ok os hw.2.1.distinct hd.2.1 clip num wt p r u v)
      (fun num wt p u => Fields.exact fs hw.1 hd.1 num wt p u)
      (fun num wt p u => Oneofs.exact os hw.2.1 hd.2.1 num wt p u)) h u with hv | hf
  · exact Or.inl hv
  · exact Or.inr fun clip => hf clip _ (Nat.lt_succ_self _)

/-- What is held after a stream of records is settled by the bytes and what was held before. -/
theorem HRecords.parse {fs : Fields} {os : Oneofs} (hw : (ElemTy.msg fs os).Distinct) {bs : List Byte} {u v : fs.Held × os.Held}
    (h : HRecords fs os bs u v) (clip : Bool) : parseMessage fs os clip bs u = .ok v [] := by
  simp only [ElemTy.Distinct] at hw
  have hd := List.nodup_append.mp hw.2.2
  obtain ⟨k', e1, e2⟩ := parseLoop_stream
    (parseRecord_step hw.2.2 clip (fun num wt p r u v => Fields.parse_ok fs hw.1 hd.1 clip num wt p r u v)
      (fun num wt p r u v => Oneofs.parse_ok os hw.2.1 hd.2.1 clip num wt p r u v)) h (bs.length + 1) []
    (by simp)
  rw [List.append_nil] at e2
  exact e2.trans (parseLoop_done _ _ e1 _ _ .nil)

theorem HRecords.unique {fs : Fields} {os : Oneofs} (hw : (ElemTy.msg fs os).Distinct) {bs : List Byte} {u v w : fs.Held × os.Held}
    (h : HRecords fs os bs u v) (h' : HRecords fs os bs u w) : v = w := by
  have e := (h.parse hw true).symm.trans (h'.parse hw true)
  injection e

end EP
