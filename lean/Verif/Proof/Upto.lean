import Verif.Proof.Lost
import Verif.Proof.SpecMerge
import Verif.Proof.Fits
import Verif.Spec.Upto

/-! # The proper prefixes of an encoding -/

namespace EP
open Spec

theorem Fields.upto_dflt : (fs : Fields) → (v : fs.Val) → fs.Upto fs.dflt v
  | .nil, _ => trivial
  | .plain _ _ _, _ => Or.inr ⟨Or.inl rfl, rfl⟩
  | .optional _ _ _, _ => Or.inr ⟨Or.inl rfl, rfl⟩
  | .repeated _ _ _ _, v => Or.inr ⟨⟨[], v.1, rfl, Or.inl rfl⟩, rfl⟩

theorem Oneofs.upto_dflt : (os : Oneofs) → (v : os.Val) → os.Upto os.dflt v
  | .nil, _ => trivial
  | .cons _ _, _ => Or.inr ⟨Or.inl rfl, rfl⟩

/-- `q` ends inside a tag, or inside a record by `C` or `L`; the records before it change the value `d`; if the end is
not noticed, the result is as `U` says. -/
def PieceCut {V : Type} (R : Nat → WireType → List Byte → V → V → Prop) (C : Nat → WireType → List Byte → V → Prop)
    (L : Nat → WireType → List Byte → V → V → Prop) (U : V → Prop) (d : V) (q : List Byte) : Prop :=
  ∃ pre tail w, q = pre ++ tail ∧ Stream (Tagged R) pre d w ∧
    ((CutVarint 5 tail ∧ U w) ∨ ∃ tg q' num wt, tail = tg ++ q' ∧ Varint 32 tg (8 * num + wireNumber wt) ∧
      (C num wt q' w ∨ ∃ z, L num wt q' w z ∧ U z))

theorem PieceCut.map {V W : Type} {R : Nat → WireType → List Byte → V → V → Prop}
    {C : Nat → WireType → List Byte → V → Prop} {L : Nat → WireType → List Byte → V → V → Prop} {U : V → Prop}
    {R' : Nat → WireType → List Byte → W → W → Prop} {C' : Nat → WireType → List Byte → W → Prop}
    {L' : Nat → WireType → List Byte → W → W → Prop} {U' : W → Prop} {d : V} {q : List Byte} (f : V → W)
    (h : PieceCut R C L U d q) (hR : ∀ num wt b u v, R num wt b u v → R' num wt b (f u) (f v))
    (hC : ∀ num wt b u, C num wt b u → C' num wt b (f u))
    (hL : ∀ num wt b u v, L num wt b u v → L' num wt b (f u) (f v)) (hU : ∀ u, U u → U' (f u))
    {d' : W} {A : List Byte} (hA : Stream (Tagged R') A d' (f d)) : PieceCut R' C' L' U' d' (A ++ q) := by
  obtain ⟨pre, tail, w, h1, h2, h3⟩ := h
  refine ⟨A ++ pre, tail, f w, by rw [h1, List.append_assoc], hA.append (Stream.map ?_ h2), ?_⟩
  · rintro bs u v ⟨num, wt, t, p, g1, g2, g3⟩
    exact ⟨num, wt, t, p, g1, g2, hR _ _ _ _ _ g3⟩
  · rcases h3 with ⟨h3, h4⟩ | ⟨tg, q', num, wt, h3, h4, h5⟩
    · exact Or.inl ⟨h3, hU _ h4⟩
    · refine Or.inr ⟨tg, q', num, wt, h3, h4, ?_⟩
      rcases h5 with h5 | ⟨z, h5, h6⟩
      · exact Or.inl (hC _ _ _ _ h5)
      · exact Or.inr ⟨f z, hL _ _ _ _ _ h5, hU _ h6⟩

/-- Where a cut is in two pieces. -/
theorem cut_append {q r A B : List Byte} (h : q ++ r = A ++ B) :
    (∃ a, a ≠ [] ∧ q ++ a = A) ∨ ∃ c, q = A ++ c ∧ c ++ r = B := by
  rcases List.append_eq_append_iff.mp h with ⟨d, h1, h2⟩ | ⟨d, h1, h2⟩
  · by_cases hd : d = []
    · subst hd
      exact Or.inr ⟨[], by simpa using h1.symm, by simpa using h2⟩
    · exact Or.inl ⟨d, hd, h1.symm⟩
  · exact Or.inr ⟨d, h1, h2.symm⟩

theorem cut_record {num : Nat} {wt : WireType} {P q r : List Byte} (hn : num < 536870912)
    (h : q ++ r = tag num wt ++ P) : CutVarint 5 q ∨ ∃ q', q = tag num wt ++ q' ∧ q' ++ r = P := by
  rcases cut_append h with ⟨a, ha, e⟩ | h
  · exact Or.inl (cut_of_isVarint ha (e ▸ (tag_spec num wt hn).1))
  · exact Or.inr h

/-- One record that is cut. -/
theorem PieceCut.record {V : Type} {R : Nat → WireType → List Byte → V → V → Prop}
    {C : Nat → WireType → List Byte → V → Prop} {L : Nat → WireType → List Byte → V → V → Prop} {U : V → Prop} {d : V}
    {num : Nat} {wt : WireType} {P q r : List Byte} (hn : num < 536870912)
    (h : q ++ r = tag num wt ++ P) (hd : U d)
    (hP : ∀ q', q' ++ r = P → C num wt q' d ∨ ∃ z, L num wt q' d z ∧ U z) : PieceCut R C L U d q := by
  refine ⟨[], q, d, rfl, .nil _, ?_⟩
  rcases cut_record hn h with h | ⟨q', h1, h2⟩
  · exact Or.inl ⟨h, hd⟩
  · exact Or.inr ⟨_, q', num, wt, h1, tag_spec num wt hn, hP q' h2⟩

section
variable {sc : (s : ScalarTy) → s.Val → List Byte}

theorem encodeRepeated_nil (t : ElemTy) (num : Nat) : encodeRepeated t num [] = [] := by
  unfold encodeRepeated; cases t.isScalar <;> rfl

theorem Fields.encode_dflt : (fs : Fields) → fs.encodeWith sc fs.dflt = []
  | .nil => rfl
  | .plain num t rest => by
    have h := (ElemTy.isDflt_iff t t.dflt).mpr rfl
    have h' : (if t.isDflt t.dflt then [] else tag num t.wire ++ t.wrap (t.encodeWith sc t.dflt)) = [] := if_pos h
    exact (congrArg (· ++ _) h').trans (Fields.encode_dflt rest)
  | .optional _ _ rest => Fields.encode_dflt rest
  | .repeated num _ t rest => (congrArg (· ++ _) (encodeRepeated_nil t num)).trans (Fields.encode_dflt rest)

theorem Oneofs.encode_dflt : (os : Oneofs) → os.encodeWith sc os.dflt = []
  | .nil => rfl
  | .cons _ rest => Oneofs.encode_dflt rest

/-- Complete records of the fields. -/
theorem Fields.whole (hsc : Readable sc) (fs : Fields) (h : fs.WF) (hn : ∀ n ∈ fs.numbers, n < 536870912) (v : fs.Val)
    (hf : fs.Fits v) (hl : (fs.encodeWith sc v).length < 4294967296) :
    Stream (Tagged fs.Record) (fs.encodeWith sc v) fs.dflt v := by
  have := Fields.records_encode hsc fs h hn fs.dflt v
  rw [Fields.merge_dflt] at this
  exact this hf hl

theorem Oneofs.whole (hsc : Readable sc) (os : Oneofs) (h : os.WF) (hn : ∀ n ∈ os.numbers, n < 536870912) (v : os.Val)
    (hf : os.Fits v) (hl : (os.encodeWith sc v).length < 4294967296) :
    Stream (Tagged os.Record) (os.encodeWith sc v) os.dflt v := by
  have := Oneofs.records_encode hsc os h hn os.dflt v
  rw [Oneofs.merge_dflt] at this
  exact this hf hl

/-- The pieces of a message. -/
theorem message_piece {fs : Fields} {os : Oneofs} {v : fs.Val × os.Val} {q : List Byte}
    (h : PieceCut fs.Record fs.Cut fs.Lost (fun w => fs.Upto w v.1) fs.dflt q ∨
      ∃ A c, q = A ++ c ∧ Stream (Tagged fs.Record) A fs.dflt v.1 ∧
        PieceCut os.Record os.Cut os.Lost (fun w => os.Upto w v.2) os.dflt c) :
    Truncated fs os q (fs.dflt, os.dflt) ∨
      ∃ w : (ElemTy.msg fs os).Val, Lost fs os q (fs.dflt, os.dflt) w ∧ (ElemTy.msg fs os).Upto w v := by
  have lf : ∀ (o : os.Val) {A : List Byte} {a b : fs.Val}, Stream (Tagged fs.Record) A a b →
      Stream (RecordStep (fs.numbers ++ os.numbers) fs.Record os.Record) A (a, o) (b, o) := by
    intro o A a b h
    refine Stream.map (f := fun x : fs.Val => (x, o)) ?_ h
    rintro bs a b ⟨num, wt, t, p, ht, he, hR⟩
    exact ⟨num, wt, t, p, ht, he, Or.inl ⟨hR, rfl⟩⟩
  have lo : ∀ (f : fs.Val) {A : List Byte} {a b : os.Val}, Stream (Tagged os.Record) A a b →
      Stream (RecordStep (fs.numbers ++ os.numbers) fs.Record os.Record) A (f, a) (f, b) := by
    intro f A a b h
    refine Stream.map (f := fun x : os.Val => (f, x)) ?_ h
    rintro bs a b ⟨num, wt, t, p, ht, he, hR⟩
    exact ⟨num, wt, t, p, ht, he, Or.inr (Or.inl ⟨hR, rfl⟩)⟩
  rcases h with ⟨pre, tail, w, rfl, h2, h3⟩ | ⟨A, c, rfl, hA, pre, tail, w, rfl, h2, h3⟩
  · rcases h3 with ⟨h3, h4⟩ | ⟨tg, q', num, wt, rfl, h4, h5 | ⟨z, h5, h6⟩⟩
    · exact Or.inr ⟨(w, os.dflt), ⟨pre, tail, (w, os.dflt), rfl, lf _ h2, Or.inl ⟨h3, rfl⟩⟩, Or.inl ⟨h4, rfl⟩⟩
    · exact Or.inl ⟨pre, tg, q', num, wt, (w, os.dflt), rfl, lf _ h2, h4, Or.inl h5⟩
    · exact Or.inr ⟨(z, os.dflt), ⟨pre, _, (w, os.dflt), rfl, lf _ h2,
        Or.inr ⟨tg, q', num, wt, rfl, h4, Or.inl ⟨h5, rfl⟩⟩⟩, Or.inl ⟨h6, rfl⟩⟩
  · have h2 := (lf os.dflt hA).append (lo v.1 h2)
    rcases h3 with ⟨h3, h4⟩ | ⟨tg, q', num, wt, rfl, h4, h5 | ⟨z, h5, h6⟩⟩
    · exact Or.inr ⟨(v.1, w), ⟨A ++ pre, tail, (v.1, w), by simp, h2, Or.inl ⟨h3, rfl⟩⟩, Or.inr ⟨rfl, h4⟩⟩
    · exact Or.inl ⟨A ++ pre, tg, q', num, wt, (v.1, w), by simp, h2, h4, Or.inr (Or.inl h5)⟩
    · exact Or.inr ⟨(v.1, z), ⟨A ++ pre, _, (v.1, w), by simp, h2,
        Or.inr ⟨tg, q', num, wt, rfl, h4, Or.inr ⟨h5, rfl⟩⟩⟩, Or.inr ⟨rfl, h6⟩⟩

theorem body_cut (hsc : Readable sc) {fs : Fields} {os : Oneofs}
    (h : fs.WF ∧ os.WF ∧ (fs.numbers ++ os.numbers).Nodup ∧ ∀ n ∈ fs.numbers ++ os.numbers, 0 < n ∧ n < 536870912)
    {v : fs.Val × os.Val} {q r : List Byte} (hf : fs.Fits v.1 ∧ os.Fits v.2)
    (hl : (fs.encodeWith sc v.1).length + (os.encodeWith sc v.2).length < 4294967296)
    (he : q ++ r = fs.encodeWith sc v.1 ++ os.encodeWith sc v.2)
    (hF : (∀ n ∈ fs.numbers, n < 536870912) → ∀ a, a ≠ [] → q ++ a = fs.encodeWith sc v.1 →
      PieceCut fs.Record fs.Cut fs.Lost (fun w => fs.Upto w v.1) fs.dflt q)
    (hO : (∀ n ∈ os.numbers, n < 536870912) → ∀ c, c ++ r = os.encodeWith sc v.2 →
      PieceCut os.Record os.Cut os.Lost (fun w => os.Upto w v.2) os.dflt c) :
    PieceCut fs.Record fs.Cut fs.Lost (fun w => fs.Upto w v.1) fs.dflt q ∨
      ∃ A c, q = A ++ c ∧ Stream (Tagged fs.Record) A fs.dflt v.1 ∧
        PieceCut os.Record os.Cut os.Lost (fun w => os.Upto w v.2) os.dflt c := by
  rcases cut_append he with ⟨a, ha, e⟩ | ⟨c, hc, e⟩
  · exact Or.inl (hF (fun n hn => (h.2.2.2 n (List.mem_append_left _ hn)).2) a ha e)
  · exact Or.inr ⟨_, c, hc, Fields.whole hsc fs h.1 (fun n hn => (h.2.2.2 n (List.mem_append_left _ hn)).2) v.1 hf.1
      (by omega), hO (fun n hn => (h.2.2.2 n (List.mem_append_right _ hn)).2) c e⟩

/-- The elements of an array of strings or messages. -/
theorem elems_cut {num cap : Nat} {t : ElemTy} {rest : Fields} (hn : num < 536870912) (hsc : t.isScalar = false)
    (enc : t.Val → List Byte) (v2 : rest.Val) {r : List Byte} (hr : r ≠ []) (v1 : List t.Val) :
    ∀ (u1 : List t.Val) (q : List Byte),
    (∀ y ∈ v1, t.Payload (lenDelim (enc y)) t.dflt y ∧ ∀ q r, r ≠ [] → q ++ r = lenDelim (enc y) →
      t.Cut q t.dflt ∨ ∃ w, t.Lost q t.dflt w ∧ t.Upto w y) → (u1 ++ v1).length ≤ cap →
    q ++ r = ((v1.map enc).map fun e => tag num .lengthDelimited ++ lenDelim e).flatten →
    PieceCut (Fields.repeated num cap t rest).Record (Fields.repeated num cap t rest).Cut
      (Fields.repeated num cap t rest).Lost (fun w => (Fields.repeated num cap t rest).Upto w (u1 ++ v1, v2))
      (u1, rest.dflt) q := by
  induction v1 with
  | nil => intro u1 q _ _ he; exact absurd (List.append_eq_nil_iff.mp he).2 hr
  | cons y ys ih =>
    intro u1 q hp hcap he
    rw [List.map_cons, List.map_cons, List.flatten_cons] at he
    have hl : u1.length < cap := by rw [List.length_append, List.length_cons] at hcap; omega
    rcases cut_append he with ⟨a, ha, e⟩ | ⟨c, rfl, e⟩
    · refine PieceCut.record hn e (Or.inr ⟨⟨u1, y :: ys, rfl, Or.inl rfl⟩, rfl⟩) fun q' hq' => ?_
      rcases (hp y List.mem_cons_self).2 q' a ha hq' with g | ⟨w, g1, g2⟩
      · exact Or.inl (Or.inl ⟨rfl, rfl, hsc, hl, g⟩)
      · refine Or.inr ⟨(u1 ++ [w], rest.dflt), Or.inl ⟨rfl, rfl, ?_, rfl, ?_⟩,
          Or.inr ⟨⟨u1, y :: ys, rfl, Or.inr ⟨w, y, ys, rfl, g2, rfl⟩⟩, rfl⟩⟩
        · show (u1 ++ [w]).length ≤ cap
          rw [List.length_append]; exact hl
        · rw [if_neg (by simp [hsc])]
          exact ⟨w, g1, rfl⟩
    · have := ih (u1 ++ [y]) c (fun z hz => hp z (List.mem_cons_of_mem _ hz)) (by simpa using hcap) e
      refine this.map id (fun _ _ _ _ _ h => h) (fun _ _ _ _ h => h) (fun _ _ _ _ _ h => h) ?_ ?_
      · intro u hu
        simpa using hu
      · refine Stream.single (tagged_tag hn (Or.inl ⟨rfl, rfl, ?_, rfl, ?_⟩))
        · show (u1 ++ [y]).length ≤ cap
          rw [List.length_append]; exact hl
        · rw [if_neg (by simp [hsc])]
          exact ⟨y, (hp y List.mem_cons_self).1, rfl⟩

/-- A packed array. -/
theorem packed_cut {num cap : Nat} {t : ElemTy} {rest : Fields} (hn : num < 536870912) (hsc : t.isScalar = true)
    (enc : t.Val → List Byte) (v2 : rest.Val) {q r : List Byte} (hr : r ≠ []) (v1 : List t.Val)
    (hp : ∀ y ∈ v1, t.Payload (enc y) t.dflt y) (hcap : v1.length ≤ cap)
    (hl : (v1.map enc).flatten.length < 4294967296)
    (he : q ++ r = tag num .lengthDelimited ++ lenDelim (v1.map enc).flatten) :
    PieceCut (Fields.repeated num cap t rest).Record (Fields.repeated num cap t rest).Cut
      (Fields.repeated num cap t rest).Lost (fun w => (Fields.repeated num cap t rest).Upto w (v1, v2))
      (Fields.repeated num cap t rest).dflt q := by
  refine PieceCut.record hn he (Fields.upto_dflt (.repeated num cap t rest) _) fun q' hq' => Or.inr ?_
  obtain ⟨ys, k1, zs, k2⟩ := packed_lost (P := fun b y => t.Payload b t.dflt y) hr (hq' ▸ delimited_lenDelim _ hl)
    (packed_flatten v1 hp)
  refine ⟨(ys, rest.dflt), Or.inl ⟨rfl, rfl, ?_, rfl, ?_⟩, Or.inr ⟨⟨ys, zs, k2, Or.inl rfl⟩, rfl⟩⟩
  · show ys.length ≤ cap
    rw [k2, List.length_append] at hcap
    omega
  · rw [if_pos hsc]
    exact ⟨ys, k1, rfl⟩

mutual
theorem ElemTy.encode_cut (hsc : Readable sc) : (t : ElemTy) → t.WF → (v : t.Val) → (q r : List Byte) → t.Fits v →
    (t.wrap (t.encodeWith sc v)).length < 4294967296 → r ≠ [] → q ++ r = t.wrap (t.encodeWith sc v) →
    t.Cut q t.dflt ∨ ∃ w, t.Lost q t.dflt w ∧ t.Upto w v
  | .scalar s, _, v, q, r, _, _, hr, he => by
    simp only [ElemTy.Cut]
    exact Or.inl ⟨r, v, hr, he ▸ hsc s v⟩
  | .str cap, _, v, q, r, hf, hl, hr, he => by
    simp only [ElemTy.Cut]
    have hl' : List.length (α := Byte) v < 4294967296 := by
      have hl : (varint (List.length v) ++ (show List Byte from v)).length < 4294967296 := hl
      rw [List.length_append] at hl
      exact Nat.lt_of_le_of_lt (Nat.le_add_left _ _) hl
    refine Or.inl ⟨r, v, hr, ?_, hf⟩
    rw [he]
    exact delimited_lenDelim v hl'
  | .msg fs os, h, v, q, r, hf, hl, hr, he => by
    simp only [ElemTy.WF] at h
    have hl : (lenDelim (fs.encodeWith sc v.1 ++ os.encodeWith sc v.2)).length < 4294967296 := hl
    have he : q ++ r = varint (fs.encodeWith sc v.1 ++ os.encodeWith sc v.2).length ++
      (fs.encodeWith sc v.1 ++ os.encodeWith sc v.2) := he
    simp only [lenDelim, List.length_append] at hl
    simp only [ElemTy.Cut, ElemTy.Lost]
    have hv : Varint 32 (varint (fs.encodeWith sc v.1 ++ os.encodeWith sc v.2).length)
        (fs.encodeWith sc v.1 ++ os.encodeWith sc v.2).length :=
      varint_spec 32 _ (by decide) (by rw [List.length_append]; omega)
    rcases cut_append he with ⟨a, ha, e⟩ | ⟨c, hc, e⟩
    · exact Or.inl (Or.inl ⟨a, _, ha, e ▸ hv⟩)
    · have hlt : c.length < (fs.encodeWith sc v.1 ++ os.encodeWith sc v.2).length := by
        rw [← e, List.length_append]
        have := List.length_pos_iff.mpr hr
        omega
      rcases message_piece (body_cut hsc h hf (by omega) e
        (fun hn a ha e => Fields.encode_cut hsc fs h.1 hn v.1 c a hf.1 (by omega) ha e)
        (fun hn c e => Oneofs.encode_cut hsc os h.2.1 hn v.2 c r hf.2 (by omega) hr e)) with g | ⟨w, g1, g2⟩
      · exact Or.inl (Or.inr ⟨_, c, _, hc, hv, Nat.le_of_lt hlt, g⟩)
      · exact Or.inr ⟨w, ⟨_, c, _, hc, hv, hlt, g1⟩, g2⟩
theorem Fields.encode_cut (hsc : Readable sc) : (fs : Fields) → fs.WF → (∀ n ∈ fs.numbers, n < 536870912) →
    (v : fs.Val) → (q r : List Byte) → fs.Fits v → (fs.encodeWith sc v).length < 4294967296 → r ≠ [] →
    q ++ r = fs.encodeWith sc v →
    PieceCut fs.Record fs.Cut fs.Lost (fun w => fs.Upto w v) fs.dflt q
  | .nil, _, _, _, q, r, _, _, hr, he => absurd (List.append_eq_nil_iff.mp he).2 hr
  | .plain num t rest, h, hn, (v1, v2), q, r, hf, hl, hr, he => by
    have hA := Fields.whole hsc (.plain num t rest) h hn (v1, rest.dflt) ⟨hf.1, Fields.fits_dflt rest⟩
    simp only [Fields.WF] at h
    simp only [Fields.numbers, List.mem_cons, forall_eq_or_imp] at hn
    obtain ⟨hf1, hf2⟩ : t.Fits v1 ∧ rest.Fits v2 := hf
    simp only [Fields.encodeWith, List.length_append, Fields.encode_dflt, List.append_nil] at hl he hA
    rcases cut_append he with ⟨a, ha, e⟩ | ⟨c, rfl, e⟩
    · cases hd : t.isDflt v1 with
      | true =>
        rw [if_pos hd] at e
        exact absurd (List.append_eq_nil_iff.mp e).2 ha
      | false =>
        rw [if_neg (by simp [hd])] at e hl
        rw [List.length_append] at hl
        refine PieceCut.record hn.1 e (Fields.upto_dflt (.plain num t rest) _) fun q' hq' => ?_
        rcases ElemTy.encode_cut hsc t h.1 v1 q' a hf1 (by omega) ha hq' with g | ⟨w, g1, g2⟩
        · exact Or.inl (Or.inl ⟨rfl, rfl, g⟩)
        · exact Or.inr ⟨(w, rest.dflt), Or.inl ⟨rfl, rfl, g1, rfl⟩, Or.inr ⟨Or.inr g2, rfl⟩⟩
    · refine (Fields.encode_cut hsc rest h.2 hn.2 v2 c r hf2 (by omega) hr e).map (fun x : rest.Val => (v1, x)) ?_ ?_ ?_
        ?_ (hA (by omega))
      · exact fun _ _ _ _ _ h => Or.inr ⟨h, rfl⟩
      · exact fun _ _ _ _ h => Or.inr h
      · exact fun _ _ _ _ _ h => Or.inr ⟨h, rfl⟩
      · exact fun _ h => Or.inl ⟨rfl, h⟩
  | .optional num t rest, h, hn, (v1, v2), q, r, hf, hl, hr, he => by
    have hA := Fields.whole hsc (.optional num t rest) h hn (v1, rest.dflt) ⟨hf.1, Fields.fits_dflt rest⟩
    simp only [Fields.WF] at h
    simp only [Fields.numbers, List.mem_cons, forall_eq_or_imp] at hn
    obtain ⟨hf1, hf2⟩ : (∀ x, v1 = some x → t.Fits x) ∧ rest.Fits v2 := hf
    simp only [Fields.encodeWith, List.length_append, Fields.encode_dflt, List.append_nil] at hl he hA
    rcases cut_append he with ⟨a, ha, e⟩ | ⟨c, rfl, e⟩
    · cases v1 with
      | none => exact absurd (List.append_eq_nil_iff.mp e).2 ha
      | some y =>
        simp only [List.length_append] at e hl
        refine PieceCut.record hn.1 e (Fields.upto_dflt (.optional num t rest) _) fun q' hq' => ?_
        rcases ElemTy.encode_cut hsc t h.1 y q' a (hf1 y rfl) (by omega) ha hq' with g | ⟨w, g1, g2⟩
        · exact Or.inl (Or.inl ⟨rfl, rfl, g⟩)
        · exact Or.inr ⟨(some w, rest.dflt), Or.inl ⟨rfl, rfl, ⟨w, g1, rfl⟩, rfl⟩,
            Or.inr ⟨Or.inr ⟨w, y, rfl, rfl, g2⟩, rfl⟩⟩
    · refine (Fields.encode_cut hsc rest h.2 hn.2 v2 c r hf2 (by omega) hr e).map (fun x : rest.Val => (v1, x)) ?_ ?_ ?_
        ?_ (hA (by omega))
      · exact fun _ _ _ _ _ h => Or.inr ⟨h, rfl⟩
      · exact fun _ _ _ _ h => Or.inr h
      · exact fun _ _ _ _ _ h => Or.inr ⟨h, rfl⟩
      · exact fun _ h => Or.inl ⟨rfl, h⟩
  | .repeated num cap t rest, h, hn, (v1, v2), q, r, hf, hl, hr, he => by
    have hA := Fields.whole hsc (.repeated num cap t rest) h hn (v1, rest.dflt) ⟨hf.1, Fields.fits_dflt rest⟩
    simp only [Fields.WF] at h
    simp only [Fields.numbers, List.mem_cons, forall_eq_or_imp] at hn
    obtain ⟨⟨hf1, hf3⟩, hf2⟩ : (v1.length ≤ cap ∧ ∀ x ∈ v1, t.Fits x) ∧ rest.Fits v2 := hf
    simp only [Fields.encodeWith, List.length_append, Fields.encode_dflt, List.append_nil] at hl he hA
    rcases cut_append he with ⟨a, ha, e⟩ | ⟨c, rfl, e⟩
    · have hpay : ∀ y ∈ v1, (t.wrap (t.encodeWith sc y)).length < 4294967296 →
          t.Payload (t.wrap (t.encodeWith sc y)) t.dflt y := by
        intro y hy hlen
        have := ElemTy.payload_encode hsc t h.2.1 t.dflt y (by rw [ElemTy.merge_dflt]; exact hf3 y hy) hlen
        rwa [ElemTy.merge_dflt] at this
      unfold encodeRepeated at e hl
      cases hs : t.isScalar with
      | true =>
        rw [if_pos hs] at e hl
        have hw : ∀ bs, t.wrap bs = bs := by
          cases t with
          | scalar s => intro _; rfl
          | str _ => exact nomatch hs
          | msg _ _ => exact nomatch hs
        cases hv : v1.isEmpty with
        | true =>
          rw [if_pos (by simpa using hv)] at e
          exact absurd (List.append_eq_nil_iff.mp e).2 ha
        | false =>
          rw [if_neg (by simpa using hv)] at e hl
          simp only [List.length_append, lenDelim] at hl
          refine packed_cut hn.1 hs (t.encodeWith sc) v2 ha v1 ?_ hf1 (by omega) e
          intro y hy
          have := hpay y hy (by
            rw [hw]
            have := length_le_flatten (List.mem_map_of_mem (f := t.encodeWith sc) hy)
            omega)
          rwa [hw] at this
      | false =>
        rw [if_neg (by simp [hs])] at e hl
        have hw : ∀ bs, t.wrap bs = lenDelim bs := by
          cases t with
          | scalar s => exact nomatch hs
          | str _ => intro _; rfl
          | msg _ _ => intro _; rfl
        have hlen : ∀ y ∈ v1, (lenDelim (t.encodeWith sc y)).length < 4294967296 := by
          intro y hy
          have := length_le_flatten (List.mem_map_of_mem (f := fun e => tag num .lengthDelimited ++ lenDelim e)
            (List.mem_map_of_mem (f := t.encodeWith sc) hy))
          rw [List.length_append] at this
          omega
        refine elems_cut hn.1 hs (t.encodeWith sc) v2 ha v1 [] q ?_ hf1 e
        intro y hy
        refine ⟨hw (t.encodeWith sc y) ▸ hpay y hy (hw _ ▸ hlen y hy), fun q' r' hr' he' => ?_⟩
        exact ElemTy.encode_cut hsc t h.2.1 y q' r' (hf3 y hy) (hw _ ▸ hlen y hy) hr' (by rw [hw]; exact he')
    · refine (Fields.encode_cut hsc rest h.2.2 hn.2 v2 c r hf2 (by omega) hr e).map (fun x : rest.Val => (v1, x)) ?_ ?_
        ?_ ?_ (hA (by omega))
      · exact fun _ _ _ _ _ h => Or.inr ⟨h, rfl⟩
      · exact fun _ _ _ _ h => Or.inr h
      · exact fun _ _ _ _ _ h => Or.inr ⟨h, rfl⟩
      · exact fun _ h => Or.inl ⟨rfl, h⟩
theorem Alts.encode_cut (hsc : Readable sc) : (a : Alts) → a.WF → (∀ n ∈ a.numbers, n < 536870912) →
    (v : a.Val) → (q r : List Byte) → a.Fits v → (a.encodeWith sc v).length < 4294967296 → r ≠ [] →
    q ++ r = a.encodeWith sc v →
    CutVarint 5 q ∨ ∃ tg q' num wt, q = tg ++ q' ∧ Varint 32 tg (8 * num + wireNumber wt) ∧
      (a.Cut num wt q' none ∨ ∃ w, a.Lost num wt q' none w ∧ a.Upto w v)
  | .nil, _, _, v, _, _, _, _, _, _ => nomatch v
  | .cons num t rest, h, hn, .inl y, q, r, hf, hl, hr, he => by
    simp only [Alts.WF] at h
    simp only [Alts.numbers, List.mem_cons, forall_eq_or_imp] at hn
    simp only [Alts.encodeWith, List.length_append] at hl he
    rcases cut_record hn.1 he with g | ⟨q', g1, g2⟩
    · exact Or.inl g
    · refine Or.inr ⟨_, q', num, t.wire, g1, tag_spec num _ hn.1, ?_⟩
      rcases ElemTy.encode_cut hsc t h.1 y q' r hf (by omega) hr g2 with k | ⟨w, k1, k2⟩
      · exact Or.inl (Or.inl ⟨rfl, rfl, k⟩)
      · exact Or.inr ⟨.inl w, Or.inl ⟨rfl, rfl, w, k1, rfl⟩, k2⟩
  | .cons num t rest, h, hn, .inr y, q, r, hf, hl, hr, he => by
    simp only [Alts.WF] at h
    simp only [Alts.numbers, List.mem_cons, forall_eq_or_imp] at hn
    rcases Alts.encode_cut hsc rest h.2 hn.2 y q r hf hl hr he with g | ⟨tg, q', num', wt, g1, g2, k | ⟨w, k1, k2⟩⟩
    · exact Or.inl g
    · exact Or.inr ⟨tg, q', num', wt, g1, g2, Or.inl (Or.inr k)⟩
    · exact Or.inr ⟨tg, q', num', wt, g1, g2, Or.inr ⟨.inr w, Or.inr ⟨w, k1, rfl⟩, k2⟩⟩
theorem Oneofs.encode_cut (hsc : Readable sc) : (os : Oneofs) → os.WF → (∀ n ∈ os.numbers, n < 536870912) →
    (v : os.Val) → (q r : List Byte) → os.Fits v → (os.encodeWith sc v).length < 4294967296 → r ≠ [] →
    q ++ r = os.encodeWith sc v →
    PieceCut os.Record os.Cut os.Lost (fun w => os.Upto w v) os.dflt q
  | .nil, _, _, _, q, r, _, _, hr, he => absurd (List.append_eq_nil_iff.mp he).2 hr
  | .cons a rest, h, hn, (v1, v2), q, r, hf, hl, hr, he => by
    have hA := Oneofs.whole hsc (.cons a rest) h hn (v1, rest.dflt) ⟨hf.1, Oneofs.fits_dflt rest⟩
    simp only [Oneofs.WF] at h
    simp only [Oneofs.numbers, List.mem_append] at hn
    obtain ⟨hf1, hf2⟩ : (∀ x, v1 = some x → a.Fits x) ∧ rest.Fits v2 := hf
    simp only [Oneofs.encodeWith, List.length_append, Oneofs.encode_dflt, List.append_nil] at hl he hA
    rcases cut_append he with ⟨d, hd, e⟩ | ⟨c, rfl, e⟩
    · cases v1 with
      | none => exact absurd (List.append_eq_nil_iff.mp e).2 hd
      | some y =>
        refine ⟨[], q, (Oneofs.cons a rest).dflt, rfl, .nil _, ?_⟩
        rcases Alts.encode_cut hsc a h.1 (fun n hn' => hn n (Or.inl hn')) y q d (hf1 y rfl) (by simp only at hl; omega)
          hd e with g | ⟨tg, q', num', wt, g1, g2, k | ⟨w, k1, k2⟩⟩
        · exact Or.inl ⟨g, Oneofs.upto_dflt (.cons a rest) _⟩
        · exact Or.inr ⟨tg, q', num', wt, g1, g2, Or.inl (Or.inl k)⟩
        · exact Or.inr ⟨tg, q', num', wt, g1, g2, Or.inr ⟨(some w, rest.dflt), Or.inl ⟨⟨w, k1, rfl⟩, rfl⟩,
            Or.inr ⟨Or.inr ⟨w, y, rfl, rfl, k2⟩, rfl⟩⟩⟩
    · refine (Oneofs.encode_cut hsc rest h.2 (fun n hn' => hn n (Or.inr hn')) v2 c r hf2 (by omega) hr e).map
        (fun x : rest.Val => (v1, x)) ?_ ?_ ?_ ?_ (hA (by omega))
      · exact fun _ _ _ _ _ h => Or.inr ⟨h, rfl⟩
      · exact fun _ _ _ _ h => Or.inr h
      · exact fun _ _ _ _ _ h => Or.inr ⟨h, rfl⟩
      · exact fun _ h => Or.inl ⟨rfl, h⟩
end

end

end EP
