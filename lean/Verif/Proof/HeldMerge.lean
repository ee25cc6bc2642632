import Verif.Spec.Held
import Verif.Proof.SpecMerge

/-! # An encoding, as a record stream on what is held (specification level) -/

namespace EP
open Spec

variable {H V : Type}

/-! ## Lists -/

theorem RoomList.cons {P : H → V → Prop} {h : H} {hs : List H} {y : V} {ys : List V}
    (hr : RoomList P (h :: hs) (y :: ys)) : P h y ∧ RoomList P hs ys := by
  obtain ⟨h1, h2⟩ := hr
  exact ⟨h2 (h, y) (by simp), by simpa using h1, fun p hp => h2 p (by simp [hp])⟩

theorem absorbList_cons (f : H → V → H) (xs : List H) (h : H) (hs : List H) (y : V) (ys : List V) :
    absorbList f (xs, h :: hs) (y :: ys) = absorbList f (xs ++ [f h y], hs) ys := by
  simp [absorbList]

theorem absorbList_const (f : V → V → V) (hf : ∀ h y, f h y = y) (xs hs ys : List V)
    (hl : ys.length ≤ hs.length) : absorbList f (xs, hs) ys = (xs ++ ys, hs.drop ys.length) := by
  have : List.zipWith f hs ys = ys := by
    induction hs generalizing ys with
    | nil => simp at hl; simp [hl]
    | cons h hs ih =>
      cases ys with
      | nil => rfl
      | cons y ys => rw [List.zipWith_cons_cons, hf, ih ys (by simpa using hl)]
  simp [absorbList, this]

/-! ## Encodings as record streams -/

section
variable {sc : (s : ScalarTy) → s.Val → List Byte}

theorem hrecords_of_streams (fs : Fields) (os : Oneofs) {b1 b2 : List Byte} {u v : fs.Held × os.Held}
    (h1 : Stream (Tagged fs.HRecord) b1 u.1 v.1) (h2 : Stream (Tagged os.HRecord) b2 u.2 v.2) :
    HRecords fs os (b1 ++ b2) u v := by
  have h1' := Stream.map (Step' := RecordStep (fs.numbers ++ os.numbers) fs.HRecord os.HRecord)
    (f := fun x : fs.Held => (x, u.2)) (by
      rintro bs a b ⟨num, wt, t, p, ht, he, hR⟩
      exact ⟨num, wt, t, p, ht, he, Or.inl ⟨hR, rfl⟩⟩) h1
  have h2' := Stream.map (Step' := RecordStep (fs.numbers ++ os.numbers) fs.HRecord os.HRecord)
    (f := fun x : os.Held => (v.1, x)) (by
      rintro bs a b ⟨num, wt, t, p, ht, he, hR⟩
      exact ⟨num, wt, t, p, ht, he, Or.inr (Or.inl ⟨hR, rfl⟩)⟩) h2
  exact h1'.append h2'

mutual
theorem ElemTy.hpayload_encode (hsc : Readable sc) : (t : ElemTy) → t.WF → (u : t.Held) → (v : t.Val) →
    t.Room u v → (t.wrap (t.encodeWith sc v)).length < 4294967296 →
    t.HPayload (t.wrap (t.encodeWith sc v)) u (t.absorb u v)
  | .scalar s, _, u, v, _, _ => hsc s v
  | .str cap, _, u, v, hf, hl => by
    refine ⟨delimited_lenDelim v ?_, hf⟩
    have hl : (varint (List.length v) ++ (show List Byte from v)).length < 4294967296 := hl
    rw [List.length_append] at hl
    exact Nat.lt_of_le_of_lt (Nat.le_add_left _ _) hl
  | .msg fs os, h, u, v, hf, hl => by
    simp only [ElemTy.WF] at h
    have hl : (lenDelim (fs.encodeWith sc v.1 ++ os.encodeWith sc v.2)).length < 4294967296 := hl
    simp only [lenDelim, List.length_append] at hl
    obtain ⟨hf1, hf2⟩ : fs.Room u.1 v.1 ∧ os.Room u.2 v.2 := hf
    refine ⟨fs.encodeWith sc v.1 ++ os.encodeWith sc v.2, delimited_lenDelim _ (by
      show (fs.encodeWith sc v.1 ++ os.encodeWith sc v.2).length < _
      rw [List.length_append]; omega), ?_⟩
    exact hrecords_of_streams fs os
      (Fields.hrecords_encode hsc fs h.1 (fun n hn => (h.2.2.2 n (List.mem_append_left _ hn)).2)
        u.1 v.1 hf1 (by omega))
      (Oneofs.hrecords_encode hsc os h.2.1 (fun n hn => (h.2.2.2 n (List.mem_append_right _ hn)).2)
        u.2 v.2 hf2 (by omega))
theorem Fields.hrecords_encode (hsc : Readable sc) : (fs : Fields) → fs.WF →
    (∀ n ∈ fs.numbers, n < 536870912) → (u : fs.Held) → (v : fs.Val) → fs.Room u v →
    (fs.encodeWith sc v).length < 4294967296 →
    Stream (Tagged fs.HRecord) (fs.encodeWith sc v) u (fs.absorb u v)
  | .nil, _, _, _, _, _, _ => Stream.nil _
  | .plain num t rest, h, hn, u, v, hf, hl => by
    simp only [Fields.WF] at h
    simp only [Fields.numbers, List.mem_cons, forall_eq_or_imp] at hn
    obtain ⟨u1, u2⟩ := u
    obtain ⟨v1, v2⟩ := v
    obtain ⟨hf1, hf2⟩ : (t.isDflt v1 = false → t.Room u1 v1) ∧ rest.Room u2 v2 := hf
    simp only [Fields.encodeWith, List.length_append] at hl
    have ih := Fields.hrecords_encode hsc rest h.2 hn.2 u2 v2 hf2 (by omega)
    have ih' := Stream.map (Step' := Tagged (Fields.plain num t rest).HRecord)
      (f := fun x : rest.Held => (if t.isDflt v1 then u1 else t.absorb u1 v1, x)) (by
        rintro bs a b ⟨num', wt, tg, p, ht, he, hR⟩
        exact ⟨num', wt, tg, p, ht, he, Or.inr ⟨hR, rfl⟩⟩) ih
    simp only [Fields.encodeWith]
    refine Stream.append (v := (if t.isDflt v1 then u1 else t.absorb u1 v1, u2)) ?_ ih'
    cases hd : t.isDflt v1 with
    | true => simp only [↓reduceIte]; exact Stream.nil _
    | false =>
      simp only [hd, Bool.false_eq_true, ↓reduceIte, List.length_append] at hl ⊢
      have hp := ElemTy.hpayload_encode hsc t h.1 u1 v1 (hf1 hd) (by omega)
      exact Stream.single (tagged_tag hn.1 (Or.inl ⟨rfl, rfl, hp, rfl⟩))
  | .optional num t rest, h, hn, u, v, hf, hl => by
    simp only [Fields.WF] at h
    simp only [Fields.numbers, List.mem_cons, forall_eq_or_imp] at hn
    obtain ⟨u1, u2⟩ := u
    obtain ⟨v1, v2⟩ := v
    obtain ⟨m1, hm1⟩ : ∃ m1, m1 = ((Fields.optional num t rest).absorb (u1, u2) (v1, v2)).1 := ⟨_, rfl⟩
    have hmm : (Fields.optional num t rest).absorb (u1, u2) (v1, v2) = (m1, rest.absorb u2 v2) := by
      rw [hm1]; rfl
    rw [hmm]
    obtain ⟨hf1, hf2⟩ : (∀ y, v1 = some y → t.Room (u1.getD t.fresh) y) ∧ rest.Room u2 v2 := hf
    simp only [Fields.encodeWith, List.length_append] at hl
    have ih := Fields.hrecords_encode hsc rest h.2 hn.2 u2 v2 hf2 (by omega)
    have ih' := Stream.map (Step' := Tagged (Fields.optional num t rest).HRecord)
      (f := fun x : rest.Held => (m1, x)) (by
        rintro bs a b ⟨num', wt, tg, p, ht, he, hR⟩
        exact ⟨num', wt, tg, p, ht, he, Or.inr ⟨hR, rfl⟩⟩) ih
    simp only [Fields.encodeWith]
    refine Stream.append (v := (m1, u2)) ?_ ih'
    cases v1 with
    | none =>
      have : m1 = u1 := hm1
      subst this
      exact Stream.nil _
    | some y =>
      simp only [List.length_append] at hl ⊢
      have hm : m1 = some (t.absorb (u1.getD t.fresh) y) := hm1
      have hp := ElemTy.hpayload_encode hsc t h.1 (u1.getD t.fresh) y (hf1 _ rfl) (by omega)
      exact Stream.single (tagged_tag hn.1 (Or.inl ⟨rfl, rfl, ⟨_, hp, hm⟩, rfl⟩))
  | .repeated num cap t rest, h, hn, u, v, hf, hl => by
    simp only [Fields.WF] at h
    simp only [Fields.numbers, List.mem_cons, forall_eq_or_imp] at hn
    obtain ⟨⟨xs, gs⟩, u2⟩ := u
    obtain ⟨v1, v2⟩ := v
    obtain ⟨hf1, hf2⟩ : RoomList t.Room gs v1 ∧ rest.Room u2 v2 := hf
    simp only [Fields.encodeWith, List.length_append] at hl
    have ih := Fields.hrecords_encode hsc rest h.2.2 hn.2 u2 v2 hf2 (by omega)
    have ih' := Stream.map (Step' := Tagged (Fields.repeated num cap t rest).HRecord)
      (f := fun x : rest.Held => (absorbList t.absorb (xs, gs) v1, x)) (by
        rintro bs a b ⟨num', wt, tg, p, ht, he, hR⟩
        exact ⟨num', wt, tg, p, ht, he, Or.inr ⟨hR, rfl⟩⟩) ih
    simp only [Fields.encodeWith]
    refine Stream.append (v := (absorbList t.absorb (xs, gs) v1, u2)) ?_ ih'
    have hpay : ∀ g y, t.Room g y → (t.wrap (t.encodeWith sc y)).length < 4294967296 →
        t.HPayload (t.wrap (t.encodeWith sc y)) g (t.absorb g y) :=
      fun g y hg hlen => ElemTy.hpayload_encode hsc t h.2.1 g y hg hlen
    clear ih ih' hf2
    unfold encodeRepeated at hl ⊢
    cases hs : t.isScalar with
    | true =>
      simp only [hs, ↓reduceIte] at hl ⊢
      have hw : ∀ bs, t.wrap bs = bs := by
        cases t with
        | scalar s => intro _; rfl
        | str _ => exact nomatch hs
        | msg _ _ => exact nomatch hs
      cases v1 with
      | nil =>
        simp only [List.map_nil, List.isEmpty_nil, ↓reduceIte]
        have : absorbList t.absorb (xs, gs) [] = (xs, gs) := by simp [absorbList]
        rw [this]
        exact Stream.nil _
      | cons y ys =>
        simp only [List.map_cons, List.isEmpty_cons, Bool.false_eq_true, ↓reduceIte,
          List.length_append, lenDelim] at hl
        simp only [List.map_cons, List.isEmpty_cons, Bool.false_eq_true, ↓reduceIte]
        refine Stream.single (tagged_tag hn.1 (Or.inl ⟨rfl, rfl, ?_, rfl⟩))
        rw [if_pos hs]
        cases t with
        | str _ => exact nomatch hs
        | msg _ _ => exact nomatch hs
        | scalar s =>
          refine ⟨_, y :: ys, delimited_lenDelim _ (by omega), ?_, hf1.1,
            absorbList_const _ (fun _ _ => rfl) xs gs (y :: ys) hf1.1⟩
          exact packed_flatten (P := fun b z => s.Payload b z) (enc := sc s) (y :: ys) (fun z _ => hsc s z)
    | false =>
      simp only [hs, Bool.false_eq_true, ↓reduceIte] at hl ⊢
      have hw : ∀ bs, t.wrap bs = lenDelim bs := by
        cases t with
        | scalar s => exact nomatch hs
        | str _ => intro _; rfl
        | msg _ _ => intro _; rfl
      revert hl
      induction v1 generalizing xs gs with
      | nil =>
        intro hl
        simp only [List.map_nil, List.flatten_nil]
        have : absorbList t.absorb (xs, gs) [] = (xs, gs) := by simp [absorbList]
        rw [this]
        exact Stream.nil _
      | cons y ys ihy =>
        intro hl
        cases gs with
        | nil => exact absurd hf1.1 (by simp)
        | cons g gs =>
        simp only [List.map_cons, List.flatten_cons, List.length_append] at hl ⊢
        have h1 : Tagged (Fields.repeated num cap t rest).HRecord
            (tag num .lengthDelimited ++ lenDelim (t.encodeWith sc y)) ((xs, g :: gs), u2)
            ((xs ++ [t.absorb g y], gs), u2) := by
          refine tagged_tag hn.1 (Or.inl ⟨rfl, rfl, ?_, rfl⟩)
          rw [if_neg (by simp [hs])]
          have := hpay g y hf1.cons.1 (by rw [hw]; omega)
          rw [hw] at this
          exact ⟨g, gs, _, rfl, this, rfl⟩
        rw [absorbList_cons]
        exact Stream.cons h1 (ihy (xs ++ [t.absorb g y]) gs hf1.cons.2 (by omega))
theorem Alts.hrecord_encode (hsc : Readable sc) : (a : Alts) → a.WF →
    (∀ n ∈ a.numbers, n < 536870912) → (u : Option a.Held) → (v : a.Val) → a.Room u v →
    (a.encodeWith sc v).length < 4294967296 →
    ∃ num wt p, num < 536870912 ∧ a.encodeWith sc v = tag num wt ++ p ∧ a.HRecord num wt p u (a.absorb u v)
  | .nil, _, _, _, v, _, _ => nomatch v
  | .cons num t rest, h, hn, u, .inl y, hf, hl => by
    simp only [Alts.WF] at h
    simp only [Alts.numbers, List.mem_cons, forall_eq_or_imp] at hn
    simp only [Alts.encodeWith, List.length_append] at hl ⊢
    exact ⟨num, t.wire, _, hn.1, rfl, Or.inl ⟨rfl, rfl, _,
      ElemTy.hpayload_encode hsc t h.1 (leftD t.fresh u) y hf (by omega), rfl⟩⟩
  | .cons num t rest, h, hn, u, .inr y, hf, hl => by
    simp only [Alts.WF] at h
    simp only [Alts.numbers, List.mem_cons, forall_eq_or_imp] at hn
    simp only [Alts.encodeWith] at hl ⊢
    obtain ⟨num', wt, p, h1, h2, h3⟩ := Alts.hrecord_encode hsc rest h.2 hn.2 (rightOf u) y hf hl
    exact ⟨num', wt, p, h1, h2, Or.inr ⟨_, h3, rfl⟩⟩
theorem Oneofs.hrecords_encode (hsc : Readable sc) : (os : Oneofs) → os.WF →
    (∀ n ∈ os.numbers, n < 536870912) → (u : os.Held) → (v : os.Val) → os.Room u v →
    (os.encodeWith sc v).length < 4294967296 →
    Stream (Tagged os.HRecord) (os.encodeWith sc v) u (os.absorb u v)
  | .nil, _, _, _, _, _, _ => Stream.nil _
  | .cons a rest, h, hn, u, v, hf, hl => by
    simp only [Oneofs.WF] at h
    simp only [Oneofs.numbers, List.mem_append] at hn
    obtain ⟨u1, u2⟩ := u
    obtain ⟨v1, v2⟩ := v
    obtain ⟨m1, hm1⟩ : ∃ m1, m1 = ((Oneofs.cons a rest).absorb (u1, u2) (v1, v2)).1 := ⟨_, rfl⟩
    have hmm : (Oneofs.cons a rest).absorb (u1, u2) (v1, v2) = (m1, rest.absorb u2 v2) := by
      rw [hm1]; rfl
    rw [hmm]
    obtain ⟨hf1, hf2⟩ : (∀ y, v1 = some y → a.Room u1 y) ∧ rest.Room u2 v2 := hf
    simp only [Oneofs.encodeWith, List.length_append] at hl
    have ih := Oneofs.hrecords_encode hsc rest h.2 (fun n hn' => hn n (Or.inr hn')) u2 v2 hf2 (by omega)
    have ih' := Stream.map (Step' := Tagged (Oneofs.cons a rest).HRecord)
      (f := fun x : rest.Held => (m1, x)) (by
        rintro bs c b ⟨num', wt, tg, p, ht, he, hR⟩
        exact ⟨num', wt, tg, p, ht, he, Or.inr ⟨hR, rfl⟩⟩) ih
    simp only [Oneofs.encodeWith]
    refine Stream.append (v := (m1, u2)) ?_ ih'
    cases v1 with
    | none =>
      have : m1 = u1 := hm1
      subst this
      exact Stream.nil _
    | some y =>
      have hm : m1 = some (a.absorb u1 y) := hm1
      obtain ⟨num, wt, p, h1, h2, h3⟩ := Alts.hrecord_encode hsc a h.1 (fun n hn' => hn n (Or.inl hn'))
        u1 y (hf1 y rfl) (by simp only at hl; omega)
      simp only
      rw [h2]
      exact Stream.single (tagged_tag h1 (Or.inl ⟨⟨_, h3, hm⟩, rfl⟩))
end

/-- The encoding of a message body, as a record stream on what is held. -/
theorem hrecords_encode (hsc : Readable sc) (fs : Fields) (os : Oneofs)
    (h : (ElemTy.msg fs os).WF) (u : (ElemTy.msg fs os).Held) (v : (ElemTy.msg fs os).Val)
    (hf : (ElemTy.msg fs os).Room u v)
    (hl : ((ElemTy.msg fs os).encodeWith sc v).length < 4294967296) :
    HRecords fs os ((ElemTy.msg fs os).encodeWith sc v) u ((ElemTy.msg fs os).absorb u v) := by
  simp only [ElemTy.WF] at h
  obtain ⟨hf1, hf2⟩ : fs.Room u.1 v.1 ∧ os.Room u.2 v.2 := hf
  have hl : (fs.encodeWith sc v.1 ++ os.encodeWith sc v.2).length < 4294967296 := hl
  rw [List.length_append] at hl
  exact hrecords_of_streams fs os
    (Fields.hrecords_encode hsc fs h.1 (fun n hn => (h.2.2.2 n (List.mem_append_left _ hn)).2)
      u.1 v.1 hf1 (by omega))
    (Oneofs.hrecords_encode hsc os h.2.1 (fun n hn => (h.2.2.2 n (List.mem_append_right _ hn)).2)
      u.2 v.2 hf2 (by omega))

end

end EP
