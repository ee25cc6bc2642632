import Verif.Proof.SpecMerge
import Verif.Spec.Syntax

/-!
# Encodings and record streams are well formed

Whatever the value and however long its strings and arrays are (as long as lengths fit into 32 bits).
-/

namespace EP
open Spec

theorem Concat.append {P : List Byte → Prop} {bs bs' : List Byte} (h : Concat P bs) (h' : Concat P bs') :
    Concat P (bs ++ bs') := by
  induction h with
  | nil => exact h'
  | cons h1 _ ih => rw [List.append_assoc]; exact .cons h1 ih

theorem Concat.single {P : List Byte → Prop} {bs : List Byte} (h : P bs) : Concat P bs := by
  rw [← List.append_nil bs]; exact .cons h .nil

theorem Concat.mono {P Q : List Byte → Prop} (hpq : ∀ bs, P bs → Q bs) {bs : List Byte}
    (h : Concat P bs) : Concat Q bs := by
  induction h with
  | nil => exact .nil
  | cons h1 _ ih => exact .cons (hpq _ h1) ih

theorem lenDelim_lt {body : List Byte} (h : (lenDelim body).length < 4294967296) :
    body.length < 4294967296 := by
  rw [lenDelim, List.length_append] at h
  omega

/-- A record known to `R`. -/
def TaggedSyntax (R : Nat → WireType → List Byte → Prop) (bs : List Byte) : Prop :=
  ∃ num wt t p, Varint 32 t (8 * num + wireNumber wt) ∧ bs = t ++ p ∧ R num wt p

theorem taggedSyntax_tag {R : Nat → WireType → List Byte → Prop} {num : Nat} {wt : WireType}
    {p : List Byte} (h : num < 536870912) (hr : R num wt p) : TaggedSyntax R (tag num wt ++ p) :=
  ⟨num, wt, _, p, tag_spec num wt h, rfl, hr⟩

theorem TaggedSyntax.mono {R R' : Nat → WireType → List Byte → Prop}
    (h : ∀ num wt p, R num wt p → R' num wt p) {bs : List Byte} (hb : TaggedSyntax R bs) :
    TaggedSyntax R' bs := by
  obtain ⟨num, wt, t, p, h1, h2, h3⟩ := hb
  exact ⟨num, wt, t, p, h1, h2, h _ _ _ h3⟩

section
variable {sc : (s : ScalarTy) → s.Val → List Byte}

mutual
theorem ElemTy.encode_syntax (hsc : Readable sc) : (t : ElemTy) → t.WF → (v : t.Val) →
    (t.wrap (t.encodeWith sc v)).length < 4294967296 → t.Syntax (t.wrap (t.encodeWith sc v))
  | .scalar s, _, v, _ => ⟨v, hsc s v⟩
  | .str cap, _, v, hl => by
    exact ⟨v, delimited_lenDelim _ (lenDelim_lt hl)⟩
  | .msg fs os, h, v, hl => by
    simp only [ElemTy.WF] at h
    have hl : (lenDelim (fs.encodeWith sc v.1 ++ os.encodeWith sc v.2)).length < 4294967296 := hl
    have hl := lenDelim_lt hl
    have hl' := hl
    rw [List.length_append] at hl'
    refine ⟨fs.encodeWith sc v.1 ++ os.encodeWith sc v.2, delimited_lenDelim _ hl, Concat.append ?_ ?_⟩
    · exact (Fields.encode_syntax hsc fs h.1 (fun n hn => (h.2.2.2 n (List.mem_append_left _ hn)).2) v.1
        (by omega)).mono (fun bs ⟨num, wt, t, p, h1, h2, h3⟩ => ⟨num, wt, t, p, h1, h2, Or.inl h3⟩)
    · exact (Oneofs.encode_syntax hsc os h.2.1 (fun n hn => (h.2.2.2 n (List.mem_append_right _ hn)).2) v.2
        (by omega)).mono (fun bs ⟨num, wt, t, p, h1, h2, h3⟩ => ⟨num, wt, t, p, h1, h2, Or.inr (Or.inl h3)⟩)
theorem Fields.encode_syntax (hsc : Readable sc) : (fs : Fields) → fs.WF →
    (∀ n ∈ fs.numbers, n < 536870912) → (v : fs.Val) → (fs.encodeWith sc v).length < 4294967296 →
    Concat (TaggedSyntax fs.Syntax) (fs.encodeWith sc v)
  | .nil, _, _, _, _ => .nil
  | .plain num t rest, h, hn, v, hl => by
    simp only [Fields.WF] at h
    simp only [Fields.numbers, List.mem_cons, forall_eq_or_imp] at hn
    simp only [Fields.encodeWith, List.length_append] at hl ⊢
    refine Concat.append ?_ ((Fields.encode_syntax hsc rest h.2 hn.2 v.2 (by omega)).mono
      (fun bs hb => hb.mono (fun _ _ _ hr => Or.inr hr)))
    by_cases hd : t.isDflt v.1 = true
    · rw [if_pos hd]; exact .nil
    · rw [if_neg hd, List.length_append] at hl
      rw [if_neg hd]
      exact Concat.single (taggedSyntax_tag hn.1 (Or.inl ⟨rfl, rfl,
        ElemTy.encode_syntax hsc t h.1 v.1 (by omega)⟩))
  | .optional num t rest, h, hn, (v1, v2), hl => by
    simp only [Fields.WF] at h
    simp only [Fields.numbers, List.mem_cons, forall_eq_or_imp] at hn
    simp only [Fields.encodeWith, List.length_append] at hl ⊢
    refine Concat.append ?_ ((Fields.encode_syntax hsc rest h.2 hn.2 v2 (by omega)).mono
      (fun bs hb => hb.mono (fun _ _ _ hr => Or.inr hr)))
    cases v1 with
    | none => exact .nil
    | some y =>
      simp only [List.length_append] at hl
      exact Concat.single (taggedSyntax_tag hn.1 (Or.inl ⟨rfl, rfl,
        ElemTy.encode_syntax hsc t h.1 y (by omega)⟩))
  | .repeated num cap t rest, h, hn, (v1, v2), hl => by
    simp only [Fields.WF] at h
    simp only [Fields.numbers, List.mem_cons, forall_eq_or_imp] at hn
    simp only [Fields.encodeWith, List.length_append] at hl ⊢
    refine Concat.append ?_ ((Fields.encode_syntax hsc rest h.2.2 hn.2 v2 (by omega)).mono
      (fun bs hb => hb.mono (fun _ _ _ hr => Or.inr hr)))
    have hpay : ∀ y, (t.wrap (t.encodeWith sc y)).length < 4294967296 → t.Syntax (t.wrap (t.encodeWith sc y)) :=
      fun y hy => ElemTy.encode_syntax hsc t h.2.1 y hy
    clear h
    unfold encodeRepeated at hl ⊢
    cases hs : t.isScalar with
    | true =>
      simp only [hs, ↓reduceIte] at hl ⊢
      have hw : ∀ bs, t.wrap bs = bs := by
        cases t with
        | scalar s => intro _; rfl
        | str _ => exact nomatch hs
        | msg _ _ => exact nomatch hs
      cases v1 with
      | nil =>
        simp only [List.map_nil, List.isEmpty_nil, ↓reduceIte]
        exact .nil
      | cons y ys =>
        simp only [List.map_cons, List.isEmpty_cons, Bool.false_eq_true, ↓reduceIte,
          List.length_append, lenDelim] at hl
        simp only [List.map_cons, List.isEmpty_cons, Bool.false_eq_true, ↓reduceIte]
        refine Concat.single (taggedSyntax_tag hn.1 (Or.inl ⟨rfl, rfl, ?_⟩))
        rw [if_pos hs]
        refine ⟨_, delimited_lenDelim _ (by omega), ?_⟩
        have : ∀ l : List t.Val, (l.map (t.encodeWith sc)).flatten.length < 4294967296 →
            Concat t.Syntax (l.map (t.encodeWith sc)).flatten := by
          intro l
          induction l with
          | nil => intro _; exact .nil
          | cons z l ih =>
            intro hz
            simp only [List.map_cons, List.flatten_cons, List.length_append] at hz ⊢
            have := hpay z (by rw [hw]; omega)
            rw [hw] at this
            exact .cons this (ih (by omega))
        have := this (y :: ys) (by simp only [List.map_cons]; omega)
        simpa only [List.map_cons] using this
    | false =>
      simp only [hs, Bool.false_eq_true, ↓reduceIte] at hl ⊢
      have hw : ∀ bs, t.wrap bs = lenDelim bs := by
        cases t with
        | scalar s => exact nomatch hs
        | str _ => intro _; rfl
        | msg _ _ => intro _; rfl
      revert hl
      induction v1 with
      | nil =>
        intro hl
        exact .nil
      | cons y ys ihy =>
        intro hl
        simp only [List.map_cons, List.flatten_cons, List.length_append] at hl ⊢
        refine .cons (taggedSyntax_tag hn.1 (Or.inl ⟨rfl, rfl, ?_⟩)) (ihy (by omega))
        rw [if_neg (by simp [hs])]
        have := hpay y (by rw [hw]; omega)
        rwa [hw] at this
theorem Alts.encode_syntax (hsc : Readable sc) : (a : Alts) → a.WF →
    (∀ n ∈ a.numbers, n < 536870912) → (v : a.Val) → (a.encodeWith sc v).length < 4294967296 →
    TaggedSyntax a.Syntax (a.encodeWith sc v)
  | .nil, _, _, v, _ => nomatch v
  | .cons num t rest, h, hn, .inl y, hl => by
    simp only [Alts.WF] at h
    simp only [Alts.numbers, List.mem_cons, forall_eq_or_imp] at hn
    simp only [Alts.encodeWith, List.length_append] at hl ⊢
    exact taggedSyntax_tag hn.1 (Or.inl ⟨rfl, rfl, ElemTy.encode_syntax hsc t h.1 y (by omega)⟩)
  | .cons num t rest, h, hn, .inr y, hl => by
    simp only [Alts.WF] at h
    simp only [Alts.numbers, List.mem_cons, forall_eq_or_imp] at hn
    simp only [Alts.encodeWith] at hl ⊢
    exact (Alts.encode_syntax hsc rest h.2 hn.2 y hl).mono (fun _ _ _ hr => Or.inr hr)
theorem Oneofs.encode_syntax (hsc : Readable sc) : (os : Oneofs) → os.WF →
    (∀ n ∈ os.numbers, n < 536870912) → (v : os.Val) → (os.encodeWith sc v).length < 4294967296 →
    Concat (TaggedSyntax os.Syntax) (os.encodeWith sc v)
  | .nil, _, _, _, _ => .nil
  | .cons a rest, h, hn, (v1, v2), hl => by
    simp only [Oneofs.WF] at h
    simp only [Oneofs.numbers, List.mem_append] at hn
    simp only [Oneofs.encodeWith, List.length_append] at hl ⊢
    refine Concat.append ?_ ((Oneofs.encode_syntax hsc rest h.2 (fun n hn' => hn n (Or.inr hn')) v2
      (by omega)).mono (fun bs hb => hb.mono (fun _ _ _ hr => Or.inr hr)))
    cases v1 with
    | none => exact .nil
    | some y =>
      exact Concat.single ((Alts.encode_syntax hsc a h.1 (fun n hn' => hn n (Or.inl hn')) y
        (by simp only at hl; omega)).mono (fun _ _ _ hr => Or.inl hr))
end

/-- Encodings are well formed, also when the arrays of a receiver are too short for the value. -/
theorem encode_wellFormed (hsc : Readable sc) (fs : Fields) (os : Oneofs) (h : (ElemTy.msg fs os).WF)
    (v : (ElemTy.msg fs os).Val) (hl : ((ElemTy.msg fs os).encodeWith sc v).length < 4294967296) :
    WellFormed fs os ((ElemTy.msg fs os).encodeWith sc v) := by
  simp only [ElemTy.WF] at h
  have hl : (fs.encodeWith sc v.1 ++ os.encodeWith sc v.2).length < 4294967296 := hl
  rw [List.length_append] at hl
  refine Concat.append ?_ ?_
  · exact (Fields.encode_syntax hsc fs h.1 (fun n hn => (h.2.2.2 n (List.mem_append_left _ hn)).2) v.1
      (by omega)).mono (fun bs ⟨num, wt, t, p, h1, h2, h3⟩ => ⟨num, wt, t, p, h1, h2, Or.inl h3⟩)
  · exact (Oneofs.encode_syntax hsc os h.2.1 (fun n hn => (h.2.2.2 n (List.mem_append_right _ hn)).2) v.2
      (by omega)).mono (fun bs ⟨num, wt, t, p, h1, h2, h3⟩ => ⟨num, wt, t, p, h1, h2, Or.inr (Or.inl h3)⟩)

end

/-! ## Record streams -/

theorem Stream.concat {Step : List Byte → V → V → Prop} {P : List Byte → Prop}
    (hs : ∀ bs u v, Step bs u v → P bs) {bs : List Byte} {u v : V} (h : Stream Step bs u v) : Concat P bs := by
  induction h with
  | nil _ => exact .nil
  | cons h1 _ ih => exact .cons (hs _ _ _ h1) ih

theorem Packed.concat {P : List Byte → V → Prop} {Q : List Byte → Prop} (hs : ∀ bs v, P bs v → Q bs)
    {bs : List Byte} {vs : List V} (h : Packed P bs vs) : Concat Q bs := by
  induction h with
  | nil => exact .nil
  | cons h1 _ ih => exact .cons (hs _ _ h1) ih

theorem RecordStep.syntax {U V : Type} {known : List Nat} {F : Nat → WireType → List Byte → U → U → Prop}
    {O : Nat → WireType → List Byte → V → V → Prop} {F' O' : Nat → WireType → List Byte → Prop}
    (hF : ∀ num wt p u v, F num wt p u v → F' num wt p) (hO : ∀ num wt p u v, O num wt p u v → O' num wt p)
    {bs : List Byte} {u v : U × V} (h : RecordStep known F O bs u v) : RecordSyntax known F' O' bs := by
  obtain ⟨num, wt, t, p, h1, h2, h3⟩ := h
  refine ⟨num, wt, t, p, h1, h2, ?_⟩
  rcases h3 with h3 | h3 | h3
  · exact Or.inl (hF _ _ _ _ _ h3.1)
  · exact Or.inr (Or.inl (hO _ _ _ _ _ h3.1))
  · exact Or.inr (Or.inr ⟨h3.1, h3.2.1, h3.2.2.1⟩)

mutual
theorem ElemTy.Payload.syntax : (t : ElemTy) → (bs : List Byte) → (u v : t.Val) → t.Payload bs u v →
    t.Syntax bs
  | .scalar _, _, _, v, h => ⟨v, h⟩
  | .str _, _, _, v, h => ⟨v, h.1⟩
  | .msg fs os, _, _, _, h => by
    obtain ⟨body, h1, h2⟩ := h
    exact ⟨body, h1, h2.concat (fun _ _ _ hs => hs.syntax (Fields.Record.syntax fs) (Oneofs.Record.syntax os))⟩
theorem Fields.Record.syntax : (fs : Fields) → (num : Nat) → (wt : WireType) → (bs : List Byte) →
    (u v : fs.Val) → fs.Record num wt bs u v → fs.Syntax num wt bs
  | .nil, _, _, _, _, _, h => h
  | .plain n t rest, num, wt, bs, u, v, h => by
    rcases h with h | h
    · exact Or.inl ⟨h.1, h.2.1, ElemTy.Payload.syntax t _ _ _ h.2.2.1⟩
    · exact Or.inr (Fields.Record.syntax rest _ _ _ _ _ h.1)
  | .optional n t rest, num, wt, bs, u, v, h => by
    rcases h with ⟨h1, h2, ⟨y, h3, _⟩, _⟩ | h
    · exact Or.inl ⟨h1, h2, ElemTy.Payload.syntax t _ _ _ h3⟩
    · exact Or.inr (Fields.Record.syntax rest _ _ _ _ _ h.1)
  | .repeated n cap t rest, num, wt, bs, u, v, h => by
    rcases h with ⟨h1, h2, _, _, h3⟩ | h
    · refine Or.inl ⟨h1, h2, ?_⟩
      by_cases hs : t.isScalar = true
      · rw [if_pos hs] at h3 ⊢
        obtain ⟨body, ys, h4, h5, _⟩ := h3
        exact ⟨body, h4, h5.concat (fun _ _ hp => ElemTy.Payload.syntax t _ _ _ hp)⟩
      · rw [if_neg hs] at h3 ⊢
        obtain ⟨y, h4, _⟩ := h3
        exact ElemTy.Payload.syntax t _ _ _ h4
    · exact Or.inr (Fields.Record.syntax rest _ _ _ _ _ h.1)
theorem Alts.Record.syntax : (a : Alts) → (num : Nat) → (wt : WireType) → (bs : List Byte) →
    (u : Option a.Val) → (v : a.Val) → a.Record num wt bs u v → a.Syntax num wt bs
  | .nil, _, _, _, _, _, h => h
  | .cons n t rest, num, wt, bs, u, v, h => by
    rcases h with ⟨h1, h2, y, h3, _⟩ | ⟨y, h1, _⟩
    · exact Or.inl ⟨h1, h2, ElemTy.Payload.syntax t _ _ _ h3⟩
    · exact Or.inr (Alts.Record.syntax rest _ _ _ _ _ h1)
theorem Oneofs.Record.syntax : (os : Oneofs) → (num : Nat) → (wt : WireType) → (bs : List Byte) →
    (u v : os.Val) → os.Record num wt bs u v → os.Syntax num wt bs
  | .nil, _, _, _, _, _, h => h
  | .cons a rest, num, wt, bs, u, v, h => by
    rcases h with ⟨⟨y, h1, _⟩, _⟩ | h
    · exact Or.inl (Alts.Record.syntax a _ _ _ _ _ h1)
    · exact Or.inr (Oneofs.Record.syntax rest _ _ _ _ _ h.1)
end

/-- Record streams are well formed. -/
theorem Records.wellFormed {fs : Fields} {os : Oneofs} {bs : List Byte} {u v : fs.Val × os.Val}
    (h : Records fs os bs u v) : WellFormed fs os bs :=
  Stream.concat (fun _ _ _ hs => hs.syntax (Fields.Record.syntax fs) (Oneofs.Record.syntax os)) h

end EP
