import Verif.Proof.Blank
import Verif.Proof.OkOrFull

/-!
# What is seen of records applied to what is held (specification level)

The converse of `ElemTy.lift`: with blank leftovers, the effect of records on what is held is, as far as it can be seen,
their effect on the value.
-/

namespace EP
open Spec

variable {U V : Type}

theorem Stream.lower {Step : List Byte → V → V → Prop} {Step' : List Byte → U → U → Prop} {f : U → V} {I : U → Prop}
    (h : ∀ bs u v, Step' bs u v → I u → Step bs (f u) (f v) ∧ I v) {bs : List Byte} {u v : U} (hs : Stream Step' bs u v)
    (hi : I u) : Stream Step bs (f u) (f v) ∧ I v := by
  induction hs with
  | nil a => exact ⟨.nil _, hi⟩
  | cons h1 _ ih =>
    obtain ⟨g1, g2⟩ := h _ _ _ h1 hi
    obtain ⟨k1, k2⟩ := ih g2
    exact ⟨.cons g1 k1, k2⟩

theorem recordStep_lower {A B A' B' : Type} {known : List Nat} {f : A' → A} {g : B' → B} {I : A' → Prop}
    {J : B' → Prop} {F : Nat → WireType → List Byte → A → A → Prop}
    {F' : Nat → WireType → List Byte → A' → A' → Prop} {O : Nat → WireType → List Byte → B → B → Prop}
    {O' : Nat → WireType → List Byte → B' → B' → Prop}
    (hF : ∀ num wt bs u v, F' num wt bs u v → I u → F num wt bs (f u) (f v) ∧ I v)
    (hO : ∀ num wt bs u v, O' num wt bs u v → J u → O num wt bs (g u) (g v) ∧ J v)
    (bs : List Byte) (u v : A' × B') (h : RecordStep known F' O' bs u v) (hi : I u.1 ∧ J u.2) :
    RecordStep known F O bs (f u.1, g u.2) (f v.1, g v.2) ∧ I v.1 ∧ J v.2 := by
  obtain ⟨num, wt, t, p, h1, h2, h3⟩ := h
  rcases h3 with ⟨h3, h4⟩ | ⟨h3, h4⟩ | ⟨h3, h4, h5, h6⟩
  · obtain ⟨k1, k2⟩ := hF _ _ _ _ _ h3 hi.1
    exact ⟨⟨num, wt, t, p, h1, h2, Or.inl ⟨k1, congrArg g h4⟩⟩, k2, h4 ▸ hi.2⟩
  · obtain ⟨k1, k2⟩ := hO _ _ _ _ _ h3 hi.2
    exact ⟨⟨num, wt, t, p, h1, h2, Or.inr (Or.inl ⟨k1, congrArg f h4⟩)⟩, h4 ▸ hi.1, k2⟩
  · exact ⟨⟨num, wt, t, p, h1, h2, Or.inr (Or.inr ⟨h3, h4, h5, by rw [h6]⟩)⟩, h6 ▸ hi⟩

mutual
theorem ElemTy.lower : (t : ElemTy) → (bs : List Byte) → (u v : t.Held) → t.HPayload bs u v → t.Blank u ∧ t.Sized u →
    t.Payload bs (t.seen u) (t.seen v) ∧ t.Blank v ∧ t.Sized v
  | .scalar _, _, _, _, h, _ => ⟨h, trivial, trivial⟩
  | .str _, _, _, _, h, _ => ⟨h, trivial, trivial⟩
  | .msg fs os, bs, u, v, h, hi => by
    obtain ⟨body, hd, hs⟩ := h
    obtain ⟨h1, h3⟩ := Stream.lower (f := fun u : fs.Held × os.Held => (fs.seen u.1, os.seen u.2))
      (I := fun u : fs.Held × os.Held => (fs.Blank u.1 ∧ fs.Sized u.1) ∧ os.Blank u.2 ∧ os.Sized u.2)
      (recordStep_lower (fun num wt bs u v => Fields.lower fs num wt bs u v)
        (fun num wt bs u v => Oneofs.lower os num wt bs u v)) hs
      ⟨⟨hi.1.1, hi.2.1⟩, hi.1.2, hi.2.2⟩
    exact ⟨⟨body, hd, h1⟩, ⟨h3.1.1, h3.2.1⟩, h3.1.2, h3.2.2⟩
theorem Fields.lower : (fs : Fields) → (num : Nat) → (wt : WireType) → (bs : List Byte) → (u v : fs.Held) →
    fs.HRecord num wt bs u v → fs.Blank u ∧ fs.Sized u →
    fs.Record num wt bs (fs.seen u) (fs.seen v) ∧ fs.Blank v ∧ fs.Sized v
  | .nil, _, _, _, _, _, h, _ => h.elim
  | .plain n t rest, num, wt, bs, (u1, u2), (v1, v2), h, hi => by
    rcases h with ⟨h1, h2, h3, h4⟩ | ⟨h3, h4⟩
    · obtain rfl : v2 = u2 := h4
      obtain ⟨k1, k3, k4⟩ := ElemTy.lower t bs u1 v1 h3 ⟨hi.1.1, hi.2.1⟩
      exact ⟨Or.inl ⟨h1, h2, k1, rfl⟩, ⟨k3, hi.1.2⟩, ⟨k4, hi.2.2⟩⟩
    · obtain rfl : v1 = u1 := h4
      obtain ⟨k1, k3, k4⟩ := Fields.lower rest num wt bs u2 v2 h3 ⟨hi.1.2, hi.2.2⟩
      exact ⟨Or.inr ⟨k1, rfl⟩, ⟨hi.1.1, k3⟩, ⟨hi.2.1, k4⟩⟩
  | .optional n t rest, num, wt, bs, (u1, u2), (v1, v2), h, hi => by
    rcases h with ⟨h1, h2, ⟨y, h3, h5⟩, h4⟩ | ⟨h3, h4⟩
    · obtain rfl : v2 = u2 := h4
      have hg : t.seen (u1.getD t.fresh) = (u1.map t.seen).getD t.dflt ∧ t.Blank (u1.getD t.fresh) ∧
          t.Sized (u1.getD t.fresh) := by
        cases u1 with
        | none => exact ElemTy.fresh_spec t
        | some x => exact ⟨rfl, hi.1.1 x rfl, hi.2.1 x rfl⟩
      obtain ⟨k1, k3, k4⟩ := ElemTy.lower t bs (u1.getD t.fresh) y h3 hg.2
      have h5 : v1 = some y := h5
      subst h5
      rw [hg.1] at k1
      refine ⟨Or.inl ⟨h1, h2, ⟨t.seen y, k1, rfl⟩, rfl⟩, ⟨?_, hi.1.2⟩, ⟨?_, hi.2.2⟩⟩
      · intro x hx; injection hx with hx; subst hx; exact k3
      · intro x hx; injection hx with hx; subst hx; exact k4
    · obtain rfl : v1 = u1 := h4
      obtain ⟨k1, k3, k4⟩ := Fields.lower rest num wt bs u2 v2 h3 ⟨hi.1.2, hi.2.2⟩
      exact ⟨Or.inr ⟨k1, rfl⟩, ⟨hi.1.1, k3⟩, ⟨hi.2.1, k4⟩⟩
  | .repeated n cap t rest, num, wt, bs, ((xs, hs), u2), (v1, v2), h, hi => by
    rcases h with ⟨h1, h2, h3, h4⟩ | ⟨h3, h4⟩
    · obtain rfl : v2 = u2 := h4
      obtain ⟨⟨hb, hb2⟩, ⟨hsz, hs1, hs2⟩, hsz2⟩ := id hi
      dsimp only at hb hsz hs1 hs2 hb2 hsz2
      cases hsc : t.isScalar with
      | true =>
        rw [if_pos hsc] at h3
        obtain ⟨body, ys, g1, g2, g3, g4⟩ := h3
        obtain rfl : v1 = (xs ++ ys, hs.drop ys.length) := g4
        cases t with
        | str c => exact nomatch hsc
        | msg fs os => exact nomatch hsc
        | scalar s =>
          have g3 : ys.length ≤ hs.length := g3
          refine ⟨Or.inl ⟨h1, h2, ?_, rfl, ?_⟩, ⟨fun hm => (nomatch hm), hb2⟩,
            ⟨⟨?_, fun _ _ => trivial, fun _ _ => trivial⟩, hsz2⟩⟩
          · show (List.map (ElemTy.scalar s).seen (xs ++ ys)).length ≤ cap
            simp only [List.length_map, List.length_append]; omega
          · rw [if_pos hsc]
            refine ⟨body, List.map (ElemTy.scalar s).seen ys, g1, ?_, ?_⟩
            · have e : List.map (ElemTy.scalar s).seen ys = ys := List.map_id _
              rw [e]; exact g2
            · show List.map (ElemTy.scalar s).seen (xs ++ ys) = _
              rw [List.map_append]; rfl
          · show (xs ++ ys).length + (hs.drop ys.length).length = cap
            simp only [List.length_append, List.length_drop]; omega
      | false =>
        rw [if_neg (by simp [hsc])] at h3
        obtain ⟨g, gs, y, g1, g2, g3⟩ := h3
        obtain rfl : hs = g :: gs := g1
        obtain rfl : v1 = (xs ++ [y], gs) := g3
        obtain ⟨k1, k3, k4⟩ : t.Payload bs t.dflt (t.seen y) ∧ t.Blank y ∧ t.Sized y := by
          cases t with
          | scalar s => exact nomatch hsc
          | str c => exact ⟨g2, trivial, trivial⟩
          | msg fs os =>
            obtain ⟨e1, e2⟩ := hb rfl g List.mem_cons_self
            have := ElemTy.lower (.msg fs os) bs g y g2 ⟨e2, hs2 g List.mem_cons_self⟩
            rw [e1] at this
            exact this
        simp only [List.length_cons] at hsz
        refine ⟨Or.inl ⟨h1, h2, ?_, rfl, ?_⟩,
          ⟨fun hm x hx => hb hm x (List.mem_cons_of_mem _ hx), hb2⟩, ⟨⟨?_, ?_, ?_⟩, hsz2⟩⟩
        · show (List.map t.seen (xs ++ [y])).length ≤ cap
          simp only [List.length_map, List.length_append, List.length_cons, List.length_nil]; omega
        · rw [if_neg (by simp [hsc])]
          refine ⟨t.seen y, k1, ?_⟩
          show List.map t.seen (xs ++ [y]) = _
          rw [List.map_append]; rfl
        · show (xs ++ [y]).length + gs.length = cap
          simp only [List.length_append, List.length_cons, List.length_nil]; omega
        · intro x hx
          rcases List.mem_append.mp hx with hx | hx
          · exact hs1 x hx
          · rw [List.mem_singleton.mp hx]; exact k4
        · exact fun x hx => hs2 x (List.mem_cons_of_mem _ hx)
    · obtain rfl : v1 = (xs, hs) := h4
      obtain ⟨k1, k3, k4⟩ := Fields.lower rest num wt bs u2 v2 h3 ⟨hi.1.2, hi.2.2⟩
      exact ⟨Or.inr ⟨k1, rfl⟩, ⟨hi.1.1, k3⟩, ⟨hi.2.1, k4⟩⟩
theorem Alts.lower : (a : Alts) → (num : Nat) → (wt : WireType) → (bs : List Byte) → (u : Option a.Held) →
    (v : a.Held) → a.HRecord num wt bs u v → (∀ x, u = some x → a.Blank x ∧ a.Sized x) →
    a.Record num wt bs (u.map a.seen) (a.seen v) ∧ a.Blank v ∧ a.Sized v
  | .nil, _, _, _, _, v, _, _ => nomatch v
  | .cons n t rest, num, wt, bs, u, v, h, hi => by
    rcases h with ⟨h1, h2, y, h3, rfl⟩ | ⟨y, h3, rfl⟩
    · have hg : t.seen (leftD t.fresh u) = leftD t.dflt (u.map (Alts.cons n t rest).seen) ∧
          t.Blank (leftD t.fresh u) ∧ t.Sized (leftD t.fresh u) := by
        cases u with
        | none => exact ElemTy.fresh_spec t
        | some u =>
          cases u with
          | inl x => exact ⟨rfl, hi _ rfl⟩
          | inr x => exact ElemTy.fresh_spec t
      obtain ⟨k1, k3, k4⟩ := ElemTy.lower t bs (leftD t.fresh u) y h3 hg.2
      rw [hg.1] at k1
      exact ⟨Or.inl ⟨h1, h2, t.seen y, k1, rfl⟩, k3, k4⟩
    · have hg : (rightOf u).map rest.seen = rightOf (u.map (Alts.cons n t rest).seen) ∧
          ∀ x, rightOf u = some x → rest.Blank x ∧ rest.Sized x := by
        cases u with
        | none => exact ⟨rfl, fun _ h => (nomatch h)⟩
        | some u =>
          cases u with
          | inl x => exact ⟨rfl, fun _ h => (nomatch h)⟩
          | inr x =>
            refine ⟨rfl, fun z hz => ?_⟩
            injection hz with hz
            subst hz
            exact hi _ rfl
      obtain ⟨k1, k3, k4⟩ := Alts.lower rest num wt bs (rightOf u) y h3 hg.2
      rw [hg.1] at k1
      exact ⟨Or.inr ⟨rest.seen y, k1, rfl⟩, k3, k4⟩
theorem Oneofs.lower : (os : Oneofs) → (num : Nat) → (wt : WireType) → (bs : List Byte) → (u v : os.Held) →
    os.HRecord num wt bs u v → os.Blank u ∧ os.Sized u →
    os.Record num wt bs (os.seen u) (os.seen v) ∧ os.Blank v ∧ os.Sized v
  | .nil, _, _, _, _, _, h, _ => h.elim
  | .cons a rest, num, wt, bs, (u1, u2), (v1, v2), h, hi => by
    rcases h with ⟨⟨y, h3, h5⟩, h4⟩ | ⟨h3, h4⟩
    · obtain rfl : v2 = u2 := h4
      obtain ⟨k1, k3, k4⟩ := Alts.lower a num wt bs u1 y h3 (fun x hx => ⟨hi.1.1 x hx, hi.2.1 x hx⟩)
      have h5 : v1 = some y := h5
      subst h5
      refine ⟨Or.inl ⟨⟨a.seen y, k1, rfl⟩, rfl⟩, ⟨?_, hi.1.2⟩, ⟨?_, hi.2.2⟩⟩
      · intro x hx; injection hx with hx; subst hx; exact k3
      · intro x hx; injection hx with hx; subst hx; exact k4
    · obtain rfl : v1 = u1 := h4
      obtain ⟨k1, k3, k4⟩ := Oneofs.lower rest num wt bs u2 v2 h3 ⟨hi.1.2, hi.2.2⟩
      exact ⟨Or.inr ⟨k1, rfl⟩, ⟨hi.1.1, k3⟩, ⟨hi.2.1, k4⟩⟩
end

/-- With blank leftovers, records have their usual effect. -/
theorem HRecords.seen {fs : Fields} {os : Oneofs} {bs : List Byte} {u v : (ElemTy.msg fs os).Held}
    (h : HRecords fs os bs u v) (hb : (ElemTy.msg fs os).Blank u) (hs : (ElemTy.msg fs os).Sized u) :
    Records fs os bs ((ElemTy.msg fs os).seen u) ((ElemTy.msg fs os).seen v) :=
  (Stream.lower (f := fun u : fs.Held × os.Held => (fs.seen u.1, os.seen u.2))
    (I := fun u : fs.Held × os.Held => (fs.Blank u.1 ∧ fs.Sized u.1) ∧ os.Blank u.2 ∧ os.Sized u.2)
    (recordStep_lower (fun num wt bs u v => Fields.lower fs num wt bs u v)
      (fun num wt bs u v => Oneofs.lower os num wt bs u v)) h ⟨⟨hb.1, hs.1⟩, hb.2, hs.2⟩).1

/-- The value after a stream of records is settled by the bytes and the value before. -/
theorem Records.unique {fs : Fields} {os : Oneofs} (hw : (ElemTy.msg fs os).Distinct) {bs : List Byte} {v w : fs.Val × os.Val}
    (h : Records fs os bs (ElemTy.msg fs os).dflt v) (h' : Records fs os bs (ElemTy.msg fs os).dflt w) : v = w := by
  obtain ⟨e1, e2, e3⟩ := (ElemTy.msg fs os).fresh_spec
  rw [← e1] at h h'
  obtain ⟨a, g1, g2, _⟩ := h.held _ e2 e3
  obtain ⟨b, k1, k2, _⟩ := h'.held _ e2 e3
  rw [← g2, ← k2, g1.unique hw k1]

end EP
