import Verif.Proof.Standard
import Verif.Proof.Fail

/-!
# Encodings with a scalar that is refused

Given an encoding of scalars of which those with `P` are read back and all others are refused with the error `e`: the
encoding of a value in which some scalar, at any depth, has not `P` is refused with `e`.
-/

namespace EP
open Spec

/-- A record, with its tag, that is refused. -/
def TaggedFail {V : Type} (F : Nat → WireType → List Byte → V → Error → (V → Prop) → Prop) (bs : List Byte) (u : V)
    (e : Error) : Prop :=
  ∃ num wt t p, Varint 32 t (8 * num + wireNumber wt) ∧ bs = t ++ p ∧ F num wt p u e fun _ => True

/-- Records, then one that is refused. -/
def StreamRefused {V : Type} (R : Nat → WireType → List Byte → V → V → Prop)
    (F : Nat → WireType → List Byte → V → Error → (V → Prop) → Prop) (bs : List Byte) (u : V) (e : Error) : Prop :=
  ∃ pre bad w, bs = pre ++ bad ∧ Stream (Tagged R) pre u w ∧ TaggedFail F bad w e

theorem StreamRefused.after {V : Type} {R : Nat → WireType → List Byte → V → V → Prop}
    {F : Nat → WireType → List Byte → V → Error → (V → Prop) → Prop} {bs bs' : List Byte} {u v : V} {e : Error}
    (h : Stream (Tagged R) bs u v) (h' : StreamRefused R F bs' v e) : StreamRefused R F (bs ++ bs') u e := by
  obtain ⟨pre, bad, w, rfl, hs, hb⟩ := h'
  exact ⟨bs ++ pre, bad, w, (List.append_assoc _ _ _).symm, h.append hs, hb⟩

theorem StreamRefused.map {V W : Type} {R : Nat → WireType → List Byte → V → V → Prop}
    {F : Nat → WireType → List Byte → V → Error → (V → Prop) → Prop} {R' : Nat → WireType → List Byte → W → W → Prop}
    {F' : Nat → WireType → List Byte → W → Error → (W → Prop) → Prop} {bs : List Byte} {u : V} {e : Error} {f : V → W}
    (h : StreamRefused R F bs u e) (hR : ∀ num wt p a b, R num wt p a b → R' num wt p (f a) (f b))
    (hF : ∀ num wt p a, F num wt p a e (fun _ => True) → F' num wt p (f a) e (fun _ => True)) :
    StreamRefused R' F' bs (f u) e := by
  obtain ⟨pre, bad, w, rfl, hs, num, wt, t, p, ht, rfl, hb⟩ := h
  refine ⟨pre, _, f w, rfl, Stream.map ?_ hs, num, wt, t, p, ht, rfl, hF _ _ _ _ hb⟩
  rintro bs a b ⟨num, wt, t, p, ht, e, h⟩
  exact ⟨num, wt, t, p, ht, e, hR _ _ _ _ _ h⟩

theorem StreamRefused.now {V : Type} {R : Nat → WireType → List Byte → V → V → Prop}
    {F : Nat → WireType → List Byte → V → Error → (V → Prop) → Prop} {num : Nat} {wt : WireType} {p : List Byte} {u : V}
    {e : Error} (hn : num < 536870912) (h : F num wt p u e fun _ => True) : StreamRefused R F (tag num wt ++ p) u e :=
  ⟨[], _, u, rfl, .nil _, num, wt, _, p, tag_spec num wt hn, rfl, h⟩

/-- The first of a list without a property. -/
theorem exists_first {α : Type} {Q : α → Prop} : ∀ {l : List α}, (¬ ∀ x ∈ l, Q x) →
    ∃ a x b, l = a ++ x :: b ∧ (∀ y ∈ a, Q y) ∧ ¬ Q x
  | [], h => absurd (fun _ hx => nomatch hx) h
  | y :: l, h => by
    by_cases hy : Q y
    · obtain ⟨a, x, b, rfl, h1, h2⟩ := exists_first (l := l) fun hl => h fun z hz =>
        (List.mem_cons.mp hz).elim (fun e => e ▸ hy) (hl z)
      exact ⟨y :: a, x, b, rfl, fun z hz => (List.mem_cons.mp hz).elim (fun e => e ▸ hy) (h1 z), h2⟩
    · exact ⟨[], y, l, rfl, fun _ hz => (nomatch hz), hy⟩

section
set_option linter.unusedSectionVars false
variable {P : (s : ScalarTy) → s.Val → Prop}

mutual
theorem ElemTy.allScalars_dflt (h0 : ∀ s : ScalarTy, P s s.zero) : (t : ElemTy) → t.AllScalars P t.dflt
  | .scalar s => h0 s
  | .str _ => trivial
  | .msg fs os => ⟨fs.allScalars_dflt h0, os.allScalars_dflt h0⟩
theorem Fields.allScalars_dflt (h0 : ∀ s : ScalarTy, P s s.zero) : (fs : Fields) → fs.AllScalars P fs.dflt
  | .nil => trivial
  | .plain _ t rest => ⟨t.allScalars_dflt h0, rest.allScalars_dflt h0⟩
  | .optional _ _ rest => ⟨fun _ h => (nomatch h), rest.allScalars_dflt h0⟩
  | .repeated _ _ _ rest => ⟨fun _ h => (nomatch h), rest.allScalars_dflt h0⟩
theorem Oneofs.allScalars_dflt (h0 : ∀ s : ScalarTy, P s s.zero) : (os : Oneofs) → os.AllScalars P os.dflt
  | .nil => trivial
  | .cons _ rest => ⟨fun _ h => (nomatch h), rest.allScalars_dflt h0⟩
end

variable {sc sc' : (s : ScalarTy) → s.Val → List Byte} {e : Error} (hp : ∀ s v, P s v → sc s v = sc' s v)
  (hr : Readable sc') (hb : ∀ s v r, ¬ P s v → s.Bad (sc s v ++ r) e) (h0 : ∀ s : ScalarTy, P s s.zero)
  (he : e ≠ .endOfBuffer)
include hp hr hb h0 he

/-- The records of the first field. -/
theorem plain_head {num : Nat} {t : ElemTy} (rest : Fields) (h : t.WF) (hn : num < 536870912) {v : t.Val} (w : rest.Val)
    (hf : t.Fits v) (ha : t.AllScalars P v)
    (hl : (if t.isDflt v then [] else tag num t.wire ++ t.wrap (t.encodeWith sc v)).length < 4294967296) :
    Stream (Tagged (Fields.plain num t rest).Record)
      (if t.isDflt v then [] else tag num t.wire ++ t.wrap (t.encodeWith sc v)) (t.dflt, w) (v, w) := by
  have hm := Fields.merge_dflt (.plain num t .nil) (v, ())
  have hc : (Fields.plain num t .nil).encodeWith sc' (v, ()) =
      if t.isDflt v then [] else tag num t.wire ++ t.wrap (t.encodeWith sc v) := by
    rw [← Fields.encodeWith_congr hp (.plain num t .nil) (v, ()) ⟨ha, trivial⟩]
    exact List.append_nil _
  have := Fields.records_encode hr (.plain num t .nil) ⟨h, trivial⟩ (by simpa [Fields.numbers] using hn) (t.dflt, ())
    (v, ()) (hm.symm ▸ ⟨hf, trivial⟩) (by rw [hc]; exact hl)
  rw [hc] at this
  rw [show (Fields.plain num t .nil).merge (t.dflt, ()) (v, ()) = (v, ()) from hm] at this
  refine Stream.map (f := fun x : (Fields.plain num t .nil).Val => ((x.1, w) : (Fields.plain num t rest).Val)) ?_ this
  rintro bs a b ⟨num', wt, tg, p, ht, he, hR⟩
  exact ⟨num', wt, tg, p, ht, he, hR.elim (fun ⟨h1, h2, h3, _⟩ => .inl ⟨h1, h2, h3, rfl⟩) fun ⟨h, _⟩ => h.elim⟩

theorem optional_head {num : Nat} {t : ElemTy} (rest : Fields) (h : t.WF) (hn : num < 536870912) {v : t.Val} (w : rest.Val)
    (hf : t.Fits v) (ha : t.AllScalars P v) (hl : (tag num t.wire ++ t.wrap (t.encodeWith sc v)).length < 4294967296) :
    Stream (Tagged (Fields.optional num t rest).Record)
      (tag num t.wire ++ t.wrap (t.encodeWith sc v)) (none, w) (some v, w) := by
  have hm := Fields.merge_dflt (.optional num t .nil) (some v, ())
  have hc : (Fields.optional num t .nil).encodeWith sc' (some v, ()) =
      tag num t.wire ++ t.wrap (t.encodeWith sc v) := by
    rw [← Fields.encodeWith_congr hp (.optional num t .nil) (some v, ()) ⟨fun x hx => by cases hx; exact ha, trivial⟩]
    exact List.append_nil _
  have := Fields.records_encode hr (.optional num t .nil) ⟨h, trivial⟩ (by simpa [Fields.numbers] using hn) (none, ())
    (some v, ()) (hm.symm ▸ ⟨fun x hx => by cases hx; exact hf, trivial⟩) (by rw [hc]; exact hl)
  rw [hc] at this
  rw [show (Fields.optional num t .nil).merge (none, ()) (some v, ()) = (some v, ()) from hm] at this
  refine Stream.map (f := fun x : (Fields.optional num t .nil).Val => ((x.1, w) : (Fields.optional num t rest).Val)) ?_ this
  rintro bs a b ⟨num', wt, tg, p, ht, he, hR⟩
  exact ⟨num', wt, tg, p, ht, he, hR.elim (fun ⟨h1, h2, h3, _⟩ => .inl ⟨h1, h2, h3, rfl⟩) fun ⟨h, _⟩ => h.elim⟩

theorem repeated_head {num cap : Nat} {t : ElemTy} (rest : Fields) (h : t.WF) (hc1 : cap < 2147483648)
    (hn : num < 536870912) {v : List t.Val} (w : rest.Val) (hf : v.length ≤ cap ∧ ∀ x ∈ v, t.Fits x)
    (ha : ∀ x ∈ v, t.AllScalars P x)
    (hl : (encodeRepeated t num (v.map (t.encodeWith sc))).length < 4294967296) :
    Stream (Tagged (Fields.repeated num cap t rest).Record)
      (encodeRepeated t num (v.map (t.encodeWith sc))) ([], w) (v, w) := by
  have hm := Fields.merge_dflt (.repeated num cap t .nil) (v, ())
  have hc : (Fields.repeated num cap t .nil).encodeWith sc' (v, ()) = encodeRepeated t num (v.map (t.encodeWith sc)) := by
    rw [← Fields.encodeWith_congr hp (.repeated num cap t .nil) (v, ()) ⟨ha, trivial⟩]
    exact List.append_nil _
  have := Fields.records_encode hr (.repeated num cap t .nil) ⟨hc1, h, trivial⟩ (by simpa [Fields.numbers] using hn)
    ([], ()) (v, ()) (hm.symm ▸ ⟨hf, trivial⟩) (by rw [hc]; exact hl)
  rw [hc] at this
  rw [show (Fields.repeated num cap t .nil).merge ([], ()) (v, ()) = (v, ()) from hm] at this
  refine Stream.map (f := fun x : (Fields.repeated num cap t .nil).Val => ((x.1, w) : (Fields.repeated num cap t rest).Val)) ?_
    this
  rintro bs a b ⟨num', wt, tg, p, ht, he, hR⟩
  exact ⟨num', wt, tg, p, ht, he, hR.elim (fun ⟨h1, h2, h3, _, h5⟩ => .inl ⟨h1, h2, h3, rfl, h5⟩) fun ⟨h, _⟩ => h.elim⟩

theorem message_refused (fs : Fields) (os : Oneofs)
    (IHf : fs.WF → (∀ n ∈ fs.numbers, n < 536870912) → (v : fs.Val) → fs.Fits v → ¬ fs.AllScalars P v →
      (fs.encodeWith sc v).length < 4294967296 → ∀ r,
      StreamRefused fs.Record fs.Fail (fs.encodeWith sc v ++ r) fs.dflt e)
    (IHo : os.WF → (∀ n ∈ os.numbers, n < 536870912) → (v : os.Val) → os.Fits v → ¬ os.AllScalars P v →
      (os.encodeWith sc v).length < 4294967296 → StreamRefused os.Record os.Fail (os.encodeWith sc v) os.dflt e)
    (h : (ElemTy.msg fs os).WF) (v : (ElemTy.msg fs os).Val)
    (hf : (ElemTy.msg fs os).Fits v) (ha : ¬ (ElemTy.msg fs os).AllScalars P v)
    (hl : ((ElemTy.msg fs os).encodeWith sc v).length < 4294967296) :
    (ElemTy.msg fs os).BodyFail ((ElemTy.msg fs os).encodeWith sc v) (ElemTy.msg fs os).dflt e fun _ => True := by
    simp only [ElemTy.WF] at h
    have hl : (fs.encodeWith sc v.1 ++ os.encodeWith sc v.2).length < 4294967296 := hl
    rw [List.length_append] at hl
    show StreamFail _ _ (fs.encodeWith sc v.1 ++ os.encodeWith sc v.2) (fs.dflt, os.dflt) e _
    have key : ∀ {bs : List Byte} {u : fs.Val × os.Val},
        StreamRefused (fun num wt p (a b : fs.Val × os.Val) => (fs.Record num wt p a.1 b.1 ∧ b.2 = a.2) ∨
            (os.Record num wt p a.2 b.2 ∧ b.1 = a.1))
          (fun num wt p a e K => fs.Fail num wt p a.1 e (fun y => K (y, a.2)) ∨ os.Fail num wt p a.2 e (fun y => K (a.1, y)))
          bs u e →
        StreamFail (RecordStep (fs.numbers ++ os.numbers) fs.Record os.Record)
          (RecordFail (fs.numbers ++ os.numbers) fs.Fail os.Fail) bs u e fun _ => True := by
      rintro bs u ⟨pre, bad, w, rfl, hs, num, wt, t, p, ht, rfl, hb⟩
      refine ⟨pre, _, w, rfl, Stream.map (f := id) ?_ hs, .inr ⟨t, p, _, rfl, ht, .inr ⟨num, wt, rfl, .inr ?_⟩⟩⟩
      · rintro bs a b ⟨num, wt, t, p, ht, e, h⟩
        exact ⟨num, wt, t, p, ht, e, h.elim .inl fun h => .inr (.inl h)⟩
      · exact hb.elim .inl fun h => .inr (.inl h)
    apply key
    by_cases hfa : fs.AllScalars P v.1
    · have hoa : ¬ os.AllScalars P v.2 := fun ho => ha ⟨hfa, ho⟩
      have hm := Fields.merge_dflt fs v.1
      have hc := Fields.encodeWith_congr hp fs v.1 hfa
      have h1 := Fields.records_encode hr fs h.1 (fun n hn => (h.2.2.2 n (List.mem_append_left _ hn)).2) fs.dflt v.1
        (hm.symm ▸ hf.1) (by rw [← hc]; omega)
      rw [hm, ← hc] at h1
      have h2 := IHo h.2.1 (fun n hn => (h.2.2.2 n (List.mem_append_right _ hn)).2) v.2 hf.2 hoa (by omega)
      refine StreamRefused.after (Stream.map (f := fun x : fs.Val => (x, os.dflt)) ?_ h1)
        (h2.map (f := fun y : os.Val => (v.1, y)) (fun _ _ _ _ _ h => .inr ⟨h, rfl⟩) fun _ _ _ _ h => .inr h)
      rintro bs a b ⟨num, wt, t, p, ht, e, h⟩
      exact ⟨num, wt, t, p, ht, e, .inl ⟨h, rfl⟩⟩
    · exact (IHf h.1 (fun n hn => (h.2.2.2 n (List.mem_append_left _ hn)).2) v.1 hf.1 hfa (by omega) _).map
        (f := fun x : fs.Val => (x, os.dflt)) (fun _ _ _ _ _ h => .inl ⟨h, rfl⟩) fun _ _ _ _ h => .inl h

mutual
theorem ElemTy.refused : (t : ElemTy) → t.WF → (v : t.Val) → t.Fits v → ¬ t.AllScalars P v →
    (t.wrap (t.encodeWith sc v)).length < 4294967296 → ∀ r,
    CheckFail t.wire t.isMsg t.BodyFail t.wire (t.wrap (t.encodeWith sc v) ++ r) t.dflt e fun _ => True
  | .scalar s, _, v, _, ha, _, r => .inr ⟨rfl, hb s v r ha, trivial⟩
  | .str _, _, _, _, ha, _, _ => absurd trivial ha
  | .msg fs os, h, v, hf, ha, hl, r => by
    refine .inr ⟨rfl, .inr ⟨_, ((ElemTy.msg fs os).encodeWith sc v) ++ r, _, List.append_assoc _ _ _,
      varint_spec 32 _ (by decide) ?_, ?_⟩⟩
    · have hl : (varint ((ElemTy.msg fs os).encodeWith sc v).length ++ (ElemTy.msg fs os).encodeWith sc v).length <
        4294967296 := hl
      rw [List.length_append] at hl
      exact Nat.lt_of_le_of_lt (Nat.le_add_left _ _) hl
    · rw [List.take_left]
      have hl : (varint ((ElemTy.msg fs os).encodeWith sc v).length ++ (ElemTy.msg fs os).encodeWith sc v).length <
        4294967296 := hl
      rw [List.length_append] at hl
      exact message_refused hp hr hb h0 he fs os (Fields.refused fs) (Oneofs.refused os) h v hf ha (by omega)
theorem Fields.refused : (fs : Fields) → fs.WF → (∀ n ∈ fs.numbers, n < 536870912) → (v : fs.Val) → fs.Fits v →
    ¬ fs.AllScalars P v → (fs.encodeWith sc v).length < 4294967296 → ∀ r,
    StreamRefused fs.Record fs.Fail (fs.encodeWith sc v ++ r) fs.dflt e
  | .nil, _, _, _, _, ha, _, _ => absurd trivial ha
  | .plain num t rest, h, hn, v, hf, ha, hl, r => by
    simp only [Fields.WF] at h
    simp only [Fields.numbers, List.mem_cons, forall_eq_or_imp] at hn
    obtain ⟨v1, v2⟩ := v
    simp only [Fields.encodeWith, List.length_append] at hl
    simp only [Fields.encodeWith, List.append_assoc]
    by_cases hta : t.AllScalars P v1
    · have hra : ¬ rest.AllScalars P v2 := fun ho => ha ⟨hta, ho⟩
      have h1 := plain_head hp hr hb h0 he (v := v1) rest h.1 hn.1 rest.dflt hf.1 hta (by omega)
      refine StreamRefused.after h1 ?_
      exact (Fields.refused rest h.2 hn.2 v2 hf.2 hra (by omega) r).map
        (f := fun x : rest.Val => ((v1, x) : (Fields.plain num t rest).Val))
        (fun _ _ _ _ _ h => .inr ⟨h, rfl⟩) fun _ _ _ _ h => .inr h
    · have hd : t.isDflt v1 = false := by
        rw [← Bool.not_eq_true]
        exact fun hd => hta ((t.isDflt_iff v1).mp hd ▸ t.allScalars_dflt h0)
      rw [hd] at hl ⊢
      simp only [Bool.false_eq_true, ↓reduceIte, List.length_append] at hl
      rw [if_neg (by decide), List.append_assoc]
      exact StreamRefused.now hn.1 (.inl ⟨rfl, ElemTy.refused t h.1 v1 hf.1 hta (by omega) _⟩)
  | .optional num t rest, h, hn, v, hf, ha, hl, r => by
    simp only [Fields.WF] at h
    simp only [Fields.numbers, List.mem_cons, forall_eq_or_imp] at hn
    obtain ⟨v1, v2⟩ := v
    have hrest : ∀ (w : Option t.Val), ¬ rest.AllScalars P v2 → (rest.encodeWith sc v2).length < 4294967296 →
        StreamRefused (Fields.optional num t rest).Record (Fields.optional num t rest).Fail (rest.encodeWith sc v2 ++ r)
          ((w, rest.dflt) : (Fields.optional num t rest).Val) e := fun w hra hl =>
      (Fields.refused rest h.2 hn.2 v2 hf.2 hra hl r).map
        (f := fun x : rest.Val => ((w, x) : (Fields.optional num t rest).Val))
        (fun _ _ _ _ _ h => .inr ⟨h, rfl⟩) fun _ _ _ _ h => .inr h
    cases v1 with
    | none =>
      simp only [Fields.encodeWith, List.length_append] at hl
      simp only [Fields.encodeWith, List.nil_append]
      exact hrest none (fun ho => ha ⟨fun _ hx => (nomatch hx), ho⟩) (by omega)
    | some y =>
      simp only [Fields.encodeWith, List.length_append] at hl
      simp only [Fields.encodeWith, List.append_assoc]
      by_cases hta : t.AllScalars P y
      · have h1 := optional_head hp hr hb h0 he rest h.1 hn.1 rest.dflt (hf.1 y rfl) hta (by rw [List.length_append]; omega)
        have := StreamRefused.after h1 (hrest (some y) (fun ho => ha ⟨fun x hx => by cases hx; exact hta, ho⟩) (by omega))
        rw [List.append_assoc] at this
        exact this
      · exact StreamRefused.now hn.1 (.inl ⟨rfl, ElemTy.refused t h.1 y (hf.1 y rfl) hta (by omega) _⟩)
  | .repeated num cap t rest, h, hn, v, hf, ha, hl, r => by
    simp only [Fields.WF] at h
    simp only [Fields.numbers, List.mem_cons, forall_eq_or_imp] at hn
    obtain ⟨v1, v2⟩ := v
    obtain ⟨⟨hf1, hf3⟩, hf2⟩ : (v1.length ≤ cap ∧ ∀ x ∈ v1, t.Fits x) ∧ rest.Fits v2 := hf
    simp only [Fields.encodeWith, List.length_append] at hl
    simp only [Fields.encodeWith, List.append_assoc]
    by_cases hta : ∀ x ∈ v1, t.AllScalars P x
    · have hra : ¬ rest.AllScalars P v2 := fun ho => ha ⟨hta, ho⟩
      have h1 := repeated_head hp hr hb h0 he rest h.2.1 h.1 hn.1 rest.dflt ⟨hf1, hf3⟩ hta (by omega)
      refine StreamRefused.after h1 ?_
      exact (Fields.refused rest h.2.2 hn.2 v2 hf2 hra (by omega) r).map
        (f := fun x : rest.Val => ((v1, x) : (Fields.repeated num cap t rest).Val))
        (fun _ _ _ _ _ h => .inr ⟨h, rfl⟩) fun _ _ _ _ h => .inr h
    · obtain ⟨a, x, b, hv, h1, h2⟩ := exists_first hta
      subst hv
      have hx := hf3 x (by simp)
      have hlen : a.length + 1 ≤ cap := by
        rw [List.length_append, List.length_cons] at hf1
        omega
      have IH := ElemTy.refused t h.2.1
      match t, x, a, b, hf1, hf3, h1, h2, hl, hx, hlen, hta, h, IH with
      | .str _, _, _, _, _, _, _, h2, _, _, _, _, _, _ => exact absurd trivial h2
      | .scalar s, x, a, b, hf1, hf3, h1, h2, hl, hx, hlen, _, h, IH =>
        have hne : ((a ++ x :: b).map ((ElemTy.scalar s).encodeWith sc)).isEmpty = false := by simp
        unfold encodeRepeated at hl ⊢
        rw [if_pos (show (ElemTy.scalar s).isScalar = true from rfl), hne, if_neg (by decide)] at hl ⊢
        simp only [List.length_append, lenDelim] at hl
        rw [List.append_assoc]
        refine StreamRefused.now hn.1 (.inl ⟨rfl, .inr ⟨rfl, ?_⟩⟩)
        rw [if_neg (by decide), if_pos (show (ElemTy.scalar s).isScalar = true from rfl)]
        refine ⟨_, _, _, (a.map ((ElemTy.scalar s).encodeWith sc)).flatten,
          sc s x ++ (b.map ((ElemTy.scalar s).encodeWith sc)).flatten, a,
          List.append_assoc _ _ _, varint_spec 32 _ (by decide) (by omega), ?_, ?_, ?_, trivial, .inl ⟨⟨hb s x _ h2, trivial⟩, he⟩⟩
        · rw [List.take_left]
          simp [ElemTy.encodeWith]
        · refine packed_flatten a fun y hy => ?_
          show s.Payload (sc s y) y
          rw [hp s y (h1 y hy)]
          exact hr s y
        · show 0 + a.length ≤ cap
          omega
      | .msg fs os, x, a, b, hf1, hf3, h1, h2, hl, hx, hlen, _, h, IH =>
        have hsplit : encodeRepeated (.msg fs os) num ((a ++ x :: b).map ((ElemTy.msg fs os).encodeWith sc)) =
            encodeRepeated (.msg fs os) num (a.map ((ElemTy.msg fs os).encodeWith sc)) ++
              (tag num .lengthDelimited ++ (lenDelim ((ElemTy.msg fs os).encodeWith sc x) ++
                encodeRepeated (.msg fs os) num (b.map ((ElemTy.msg fs os).encodeWith sc)))) := by
          unfold encodeRepeated
          simp [ElemTy.isScalar]
        rw [hsplit] at hl ⊢
        simp only [List.length_append] at hl
        have e1 := repeated_head hp hr hb h0 he (cap := cap) rest h.2.1 h.1 hn.1 rest.dflt
          ⟨by omega, fun y hy => hf3 y (List.mem_append_left _ hy)⟩ h1 (by omega)
        rw [List.append_assoc]
        refine StreamRefused.after e1 ?_
        rw [List.append_assoc, List.append_assoc]
        refine StreamRefused.now hn.1 (.inl ⟨rfl, .inr ⟨rfl, ?_⟩⟩)
        rw [if_neg (by decide), if_neg (show ¬ (ElemTy.msg fs os).isScalar = true from Bool.false_ne_true)]
        refine .inr ⟨show a.length < cap by omega, ?_⟩
        have := IH x hx h2 (by show (lenDelim _).length < _; omega)
          (encodeRepeated (.msg fs os) num (b.map ((ElemTy.msg fs os).encodeWith sc)) ++ (rest.encodeWith sc v2 ++ r))
        rcases this with ⟨h, _⟩ | ⟨_, h⟩
        · exact absurd rfl h
        · exact h
theorem Alts.refused : (a : Alts) → a.WF → (∀ n ∈ a.numbers, n < 536870912) → (v : a.Val) → a.Fits v →
    ¬ a.AllScalars P v → (a.encodeWith sc v).length < 4294967296 → ∀ r,
    ∃ num wt p, num < 536870912 ∧ a.encodeWith sc v ++ r = tag num wt ++ p ∧ a.Fail num wt p none e
  | .nil, _, _, v, _, _, _, _ => nomatch v
  | .cons num t rest, h, hn, .inl v, hf, ha, hl, r => by
    simp only [Alts.WF] at h
    simp only [Alts.numbers, List.mem_cons, forall_eq_or_imp] at hn
    simp only [Alts.encodeWith, List.length_append] at hl
    exact ⟨num, t.wire, _, hn.1, List.append_assoc _ _ _, .inl ⟨rfl, ElemTy.refused t h.1 v hf ha (by omega) r⟩⟩
  | .cons num t rest, h, hn, .inr v, hf, ha, hl, r => by
    simp only [Alts.WF] at h
    simp only [Alts.numbers, List.mem_cons, forall_eq_or_imp] at hn
    obtain ⟨num, wt, p, h1, h2, h3⟩ := Alts.refused rest h.2 hn.2 v hf ha hl r
    exact ⟨num, wt, p, h1, h2, .inr h3⟩
theorem Oneofs.refused : (os : Oneofs) → os.WF → (∀ n ∈ os.numbers, n < 536870912) → (v : os.Val) → os.Fits v →
    ¬ os.AllScalars P v → (os.encodeWith sc v).length < 4294967296 →
    StreamRefused os.Record os.Fail (os.encodeWith sc v) os.dflt e
  | .nil, _, _, _, _, ha, _ => absurd trivial ha
  | .cons a rest, h, hn, v, hf, ha, hl => by
    simp only [Oneofs.WF] at h
    simp only [Oneofs.numbers, List.mem_append] at hn
    obtain ⟨v1, v2⟩ := v
    simp only [Oneofs.encodeWith, List.length_append] at hl
    have hrest : ∀ (w : Option a.Val), ¬ rest.AllScalars P v2 →
        StreamRefused (Oneofs.cons a rest).Record (Oneofs.cons a rest).Fail (rest.encodeWith sc v2)
          ((w, rest.dflt) : (Oneofs.cons a rest).Val) e := fun w hra =>
      (Oneofs.refused rest h.2 (fun n hn' => hn n (.inr hn')) v2 hf.2 hra (by omega)).map
        (f := fun x : rest.Val => ((w, x) : (Oneofs.cons a rest).Val))
        (fun _ _ _ _ _ h => .inr ⟨h, rfl⟩) fun _ _ _ _ h => .inr h
    cases v1 with
    | none =>
      simp only [Oneofs.encodeWith, List.nil_append]
      exact hrest none fun ho => ha ⟨fun _ hx => (nomatch hx), ho⟩
    | some y =>
      simp only [Oneofs.encodeWith]
      dsimp only at hl
      by_cases hta : a.AllScalars P y
      · have hc := Alts.encodeWith_congr hp a y hta
        obtain ⟨num, wt, p, g1, g2, g3⟩ := Alts.record_encode hr a h.1 (fun n hn' => hn n (.inl hn')) none y y rfl (hf.1 y rfl)
          (by rw [← hc]; omega)
        rw [hc, g2]
        refine StreamRefused.after (Stream.single (tagged_tag (v := ((some y, rest.dflt) : (Oneofs.cons a rest).Val)) g1
          (.inl ⟨⟨y, g3, rfl⟩, rfl⟩))) (hrest (some y) fun ho => ha ⟨fun x hx => by cases hx; exact hta, ho⟩)
      · obtain ⟨num, wt, p, g1, g2, g3⟩ := Alts.refused a h.1 (fun n hn' => hn n (.inl hn')) y (hf.1 y rfl) hta (by omega)
          (rest.encodeWith sc v2)
        rw [g2]
        exact StreamRefused.now g1 (.inl ⟨g3, trivial⟩)
end

end
end EP
