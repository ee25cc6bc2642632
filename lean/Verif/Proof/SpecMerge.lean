import Verif.Proof.ValueLemmas
import Verif.Proof.WireDec
import Verif.Proof.ZigZag
import Verif.Spec.Stream

/-! # An encoding is a record stream whose effect is a merge (specification level) -/

namespace EP
open Spec

variable {V W : Type}

/-! ## Streams -/

theorem Stream.single {Step : List Byte → V → V → Prop} {bs : List Byte} {u v : V} (h : Step bs u v) :
    Stream Step bs u v := by
  have := Stream.cons h (Stream.nil v)
  rwa [List.append_nil] at this

theorem Stream.append {Step : List Byte → V → V → Prop} {bs bs' : List Byte} {u v w : V}
    (h : Stream Step bs u v) (h' : Stream Step bs' v w) : Stream Step (bs ++ bs') u w := by
  induction h with
  | nil => exact h'
  | cons hs _ ih => rw [List.append_assoc]; exact Stream.cons hs (ih h')

theorem Stream.map {Step : List Byte → V → V → Prop} {Step' : List Byte → W → W → Prop} {f : V → W}
    (hf : ∀ bs u v, Step bs u v → Step' bs (f u) (f v)) {bs : List Byte} {u v : V}
    (h : Stream Step bs u v) : Stream Step' bs (f u) (f v) := by
  induction h with
  | nil => exact Stream.nil _
  | cons hs _ ih => exact Stream.cons (hf _ _ _ hs) ih

/-! ## Scalars -/

theorem littleEndian_payload (k : Nat) (v : BitVec (8 * k)) :
    BitVec.ofNat (8 * k) (ofLittleEndian (littleEndian k v.toNat)) = v := by
  apply BitVec.eq_of_toNat_eq
  rw [ofLittleEndian_littleEndian, BitVec.toNat_ofNat, show (256 : Nat) = 2 ^ 8 from rfl, ← Nat.pow_mul,
    Nat.mod_mod, Nat.mod_eq_of_lt v.isLt]

theorem zigzag_lt {w : Nat} (hw : 0 < w) (v : BitVec w) : zigzag v.toInt < 2 ^ w := by
  rw [← zigZagEncode_spec hw]; exact BitVec.isLt _

theorem ScalarTy.payload_enc (s : ScalarTy) (v : s.Val) : s.Payload (s.enc v) v := by
  cases s with
  | int32 =>
    have := BitVec.isLt (w := 32) v
    exact ⟨_, varint_spec 64 _ (by decide) (by omega), by simp⟩
  | int64 => exact ⟨_, varint_spec 64 _ (by decide) (BitVec.isLt (w := 64) v), by simp⟩
  | uint32 => exact ⟨_, varint_spec 32 _ (by decide) (BitVec.isLt (w := 32) v), by simp⟩
  | uint64 => exact ⟨_, varint_spec 64 _ (by decide) (BitVec.isLt (w := 64) v), by simp⟩
  | enumeration => exact ⟨_, varint_spec 32 _ (by decide) (BitVec.isLt (w := 32) v), by simp⟩
  | sint32 =>
    have := zigzag_lt (w := 32) (by decide) v
    exact ⟨_, varint_spec 64 _ (by decide) (by omega), (Nat.mod_eq_of_lt this).symm⟩
  | sint64 => exact varint_spec 64 _ (by decide) (zigzag_lt (w := 64) (by decide) v)
  | boolean =>
    refine ⟨if v then 1 else 0, by split <;> omega, rfl, ?_⟩
    have : ∀ v : Bool, v = decide ((if v = true then 1 else 0 : Nat) ≠ 0) := by decide
    exact this v
  | fixed32 => exact ⟨littleEndian_length _ _, (littleEndian_payload 4 v).symm⟩
  | sfixed32 => exact ⟨littleEndian_length _ _, (littleEndian_payload 4 v).symm⟩
  | floatfixed => exact ⟨littleEndian_length _ _, (littleEndian_payload 4 v).symm⟩
  | fixed64 => exact ⟨littleEndian_length _ _, (littleEndian_payload 8 v).symm⟩
  | sfixed64 => exact ⟨littleEndian_length _ _, (littleEndian_payload 8 v).symm⟩
  | doublefixed => exact ⟨littleEndian_length _ _, (littleEndian_payload 8 v).symm⟩

/-- An encoding of scalars the decoder reads back. -/
def Readable (sc : (s : ScalarTy) → s.Val → List Byte) : Prop :=
  ∀ (s : ScalarTy) (v : s.Val), s.Payload (sc s v) v

theorem readable_enc : Readable ScalarTy.enc := ScalarTy.payload_enc

theorem delimited_lenDelim (body : List Byte) (h : body.length < 4294967296) :
    Delimited (lenDelim body) body :=
  ⟨varint body.length, varint_spec 32 _ (by decide) h, rfl⟩

/-! ## Merging into the default value -/

mutual
theorem ElemTy.merge_dflt : (t : ElemTy) → (v : t.Val) → t.merge t.dflt v = v
  | .scalar _, _ => rfl
  | .str _, _ => rfl
  | .msg fs os, v => by
    show (fs.merge fs.dflt v.1, os.merge os.dflt v.2) = v
    rw [Fields.merge_dflt fs v.1, Oneofs.merge_dflt os v.2]; rfl
theorem Fields.merge_dflt : (fs : Fields) → (v : fs.Val) → fs.merge fs.dflt v = v
  | .nil, _ => rfl
  | .plain _ t rest, v => by
    show (if t.isDflt v.1 then t.dflt else t.merge t.dflt v.1, rest.merge rest.dflt v.2) = v
    rw [ElemTy.merge_dflt t v.1, Fields.merge_dflt rest v.2]
    split
    · rename_i h; rw [← (ElemTy.isDflt_iff t v.1).mp h]; rfl
    · rfl
  | .optional _ t rest, v => by
    obtain ⟨v1, v2⟩ := v
    show (_, rest.merge rest.dflt v2) = (v1, v2)
    rw [Fields.merge_dflt rest v2]
    cases v1 <;> rfl
  | .repeated _ _ t rest, v => by
    show ([] ++ v.1, rest.merge rest.dflt v.2) = v
    rw [Fields.merge_dflt rest v.2]; rfl
theorem Oneofs.merge_dflt : (os : Oneofs) → (v : os.Val) → os.merge os.dflt v = v
  | .nil, _ => rfl
  | .cons a rest, v => by
    obtain ⟨v1, v2⟩ := v
    show (_, rest.merge rest.dflt v2) = (v1, v2)
    rw [Oneofs.merge_dflt rest v2]
    cases v1 <;> rfl
end

/-! ## Encodings as record streams -/

/-- One record of the fields, with its tag. -/
def Tagged (R : Nat → WireType → List Byte → V → V → Prop) (bs : List Byte) (u v : V) : Prop :=
  ∃ num wt t p, Varint 32 t (8 * num + wireNumber wt) ∧ bs = t ++ p ∧ R num wt p u v

theorem tag_spec (num : Nat) (wt : WireType) (h : num < 536870912) :
    Spec.Varint 32 (tag num wt) (8 * num + wireNumber wt) :=
  varint_spec 32 _ (by decide) (by have := wireNumber_lt wt; omega)

theorem tagged_tag {R : Nat → WireType → List Byte → V → V → Prop} {num : Nat} {wt : WireType}
    {p : List Byte} {u v : V} (h : num < 536870912) (hR : R num wt p u v) :
    Tagged R (tag num wt ++ p) u v :=
  ⟨num, wt, _, p, tag_spec num wt h, rfl, hR⟩

section
variable {sc : (s : ScalarTy) → s.Val → List Byte}

theorem packed_flatten {P : List Byte → V → Prop} {enc : V → List Byte} (vs : List V)
    (h : ∀ v ∈ vs, P (enc v) v) : Packed P (vs.map enc).flatten vs := by
  induction vs with
  | nil => exact .nil
  | cons v vs ih =>
    simp only [List.mem_cons, forall_eq_or_imp] at h
    exact .cons h.1 (ih h.2)

theorem length_le_flatten {α : Type} {l : List (List α)} {x : List α} (h : x ∈ l) :
    x.length ≤ l.flatten.length := by
  induction l with
  | nil => exact nomatch h
  | cons y ys ih =>
    simp only [List.flatten_cons, List.length_append]
    rcases List.mem_cons.mp h with rfl | h
    · omega
    · have := ih h; omega

theorem records_of_streams (fs : Fields) (os : Oneofs) {b1 b2 : List Byte} {u v : fs.Val × os.Val}
    (h1 : Stream (Tagged fs.Record) b1 u.1 v.1) (h2 : Stream (Tagged os.Record) b2 u.2 v.2) :
    Records fs os (b1 ++ b2) u v := by
  have h1' := Stream.map (Step' := RecordStep (fs.numbers ++ os.numbers) fs.Record os.Record)
    (f := fun x : fs.Val => (x, u.2)) (by
      rintro bs a b ⟨num, wt, t, p, ht, he, hR⟩
      exact ⟨num, wt, t, p, ht, he, Or.inl ⟨hR, rfl⟩⟩) h1
  have h2' := Stream.map (Step' := RecordStep (fs.numbers ++ os.numbers) fs.Record os.Record)
    (f := fun x : os.Val => (v.1, x)) (by
      rintro bs a b ⟨num, wt, t, p, ht, he, hR⟩
      exact ⟨num, wt, t, p, ht, he, Or.inr (Or.inl ⟨hR, rfl⟩)⟩) h2
  exact h1'.append h2'

mutual
theorem ElemTy.payload_encode (hsc : Readable sc) : (t : ElemTy) → t.WF → (u v : t.Val) →
    t.Fits (t.merge u v) → (t.wrap (t.encodeWith sc v)).length < 4294967296 →
    t.Payload (t.wrap (t.encodeWith sc v)) u (t.merge u v)
  | .scalar s, _, u, v, _, _ => hsc s v
  | .str cap, _, u, v, hf, hl => by
    refine ⟨delimited_lenDelim v ?_, hf⟩
    have hl : (varint (List.length v) ++ (show List Byte from v)).length < 4294967296 := hl
    rw [List.length_append] at hl
    exact Nat.lt_of_le_of_lt (Nat.le_add_left _ _) hl
  | .msg fs os, h, u, v, hf, hl => by
    simp only [ElemTy.WF] at h
    have hl : (lenDelim (fs.encodeWith sc v.1 ++ os.encodeWith sc v.2)).length < 4294967296 := hl
    simp only [lenDelim, List.length_append] at hl
    obtain ⟨hf1, hf2⟩ : fs.Fits (fs.merge u.1 v.1) ∧ os.Fits (os.merge u.2 v.2) := hf
    refine ⟨fs.encodeWith sc v.1 ++ os.encodeWith sc v.2, delimited_lenDelim _ (by
      show (fs.encodeWith sc v.1 ++ os.encodeWith sc v.2).length < _
      rw [List.length_append]; omega), ?_⟩
    exact records_of_streams fs os
      (Fields.records_encode hsc fs h.1 (fun n hn => (h.2.2.2 n (List.mem_append_left _ hn)).2)
        u.1 v.1 hf1 (by omega))
      (Oneofs.records_encode hsc os h.2.1 (fun n hn => (h.2.2.2 n (List.mem_append_right _ hn)).2)
        u.2 v.2 hf2 (by omega))
theorem Fields.records_encode (hsc : Readable sc) : (fs : Fields) → fs.WF →
    (∀ n ∈ fs.numbers, n < 536870912) → (u v : fs.Val) → fs.Fits (fs.merge u v) →
    (fs.encodeWith sc v).length < 4294967296 →
    Stream (Tagged fs.Record) (fs.encodeWith sc v) u (fs.merge u v)
  | .nil, _, _, _, _, _, _ => Stream.nil _
  | .plain num t rest, h, hn, u, v, hf, hl => by
    simp only [Fields.WF] at h
    simp only [Fields.numbers, List.mem_cons, forall_eq_or_imp] at hn
    obtain ⟨u1, u2⟩ := u
    obtain ⟨v1, v2⟩ := v
    obtain ⟨hf1, hf2⟩ : t.Fits (if t.isDflt v1 then u1 else t.merge u1 v1) ∧
      rest.Fits (rest.merge u2 v2) := hf
    simp only [Fields.encodeWith, List.length_append] at hl
    have ih := Fields.records_encode hsc rest h.2 hn.2 u2 v2 hf2 (by omega)
    have ih' := Stream.map (Step' := Tagged (Fields.plain num t rest).Record)
      (f := fun x : rest.Val => (if t.isDflt v1 then u1 else t.merge u1 v1, x)) (by
        rintro bs a b ⟨num', wt, tg, p, ht, he, hR⟩
        exact ⟨num', wt, tg, p, ht, he, Or.inr ⟨hR, rfl⟩⟩) ih
    simp only [Fields.encodeWith]
    refine Stream.append (v := (if t.isDflt v1 then u1 else t.merge u1 v1, u2)) ?_ ih'
    cases hd : t.isDflt v1 with
    | true => simp only [↓reduceIte]; exact Stream.nil _
    | false =>
      simp only [hd, Bool.false_eq_true, ↓reduceIte, List.length_append] at hl hf1 ⊢
      have hp := ElemTy.payload_encode hsc t h.1 u1 v1 hf1 (by omega)
      exact Stream.single (tagged_tag hn.1 (Or.inl ⟨rfl, rfl, hp, rfl⟩))
  | .optional num t rest, h, hn, u, v, hf, hl => by
    simp only [Fields.WF] at h
    simp only [Fields.numbers, List.mem_cons, forall_eq_or_imp] at hn
    obtain ⟨u1, u2⟩ := u
    obtain ⟨v1, v2⟩ := v
    obtain ⟨m1, hm1⟩ : ∃ m1, m1 = ((Fields.optional num t rest).merge (u1, u2) (v1, v2)).1 := ⟨_, rfl⟩
    have hmm : (Fields.optional num t rest).merge (u1, u2) (v1, v2) = (m1, rest.merge u2 v2) := by
      rw [hm1]; rfl
    rw [hmm] at hf ⊢
    obtain ⟨hf1, hf2⟩ : (∀ x, m1 = some x → t.Fits x) ∧ rest.Fits (rest.merge u2 v2) := hf
    simp only [Fields.encodeWith, List.length_append] at hl
    have ih := Fields.records_encode hsc rest h.2 hn.2 u2 v2 hf2 (by omega)
    have ih' := Stream.map (Step' := Tagged (Fields.optional num t rest).Record)
      (f := fun x : rest.Val => (m1, x)) (by
        rintro bs a b ⟨num', wt, tg, p, ht, he, hR⟩
        exact ⟨num', wt, tg, p, ht, he, Or.inr ⟨hR, rfl⟩⟩) ih
    simp only [Fields.encodeWith]
    refine Stream.append (v := (m1, u2)) ?_ ih'
    cases v1 with
    | none =>
      have : m1 = u1 := by rw [hm1]; cases u1 <;> rfl
      subst this
      exact Stream.nil _
    | some y =>
      simp only [List.length_append] at hl ⊢
      have hm : m1 = some (t.merge (u1.getD t.dflt) y) := by
        rw [hm1]
        cases u1 with
        | none => exact congrArg some (ElemTy.merge_dflt t y).symm
        | some x => rfl
      have hp := ElemTy.payload_encode hsc t h.1 (u1.getD t.dflt) y (hf1 _ hm) (by omega)
      exact Stream.single (tagged_tag hn.1 (Or.inl ⟨rfl, rfl, ⟨_, hp, hm⟩, rfl⟩))
  | .repeated num cap t rest, h, hn, u, v, hf, hl => by
    simp only [Fields.WF] at h
    simp only [Fields.numbers, List.mem_cons, forall_eq_or_imp] at hn
    obtain ⟨u1, u2⟩ := u
    obtain ⟨v1, v2⟩ := v
    obtain ⟨⟨hf1, hf3⟩, hf2⟩ : ((u1 ++ v1).length ≤ cap ∧ ∀ x ∈ u1 ++ v1, t.Fits x) ∧
      rest.Fits (rest.merge u2 v2) := hf
    simp only [Fields.encodeWith, List.length_append] at hl
    have ih := Fields.records_encode hsc rest h.2.2 hn.2 u2 v2 hf2 (by omega)
    have ih' := Stream.map (Step' := Tagged (Fields.repeated num cap t rest).Record)
      (f := fun x : rest.Val => (u1 ++ v1, x)) (by
        rintro bs a b ⟨num', wt, tg, p, ht, he, hR⟩
        exact ⟨num', wt, tg, p, ht, he, Or.inr ⟨hR, rfl⟩⟩) ih
    simp only [Fields.encodeWith]
    refine Stream.append (v := (u1 ++ v1, u2)) ?_ ih'
    have hpay : ∀ y ∈ v1, (t.wrap (t.encodeWith sc y)).length < 4294967296 →
        t.Payload (t.wrap (t.encodeWith sc y)) t.dflt y := by
      intro y hy hlen
      have := ElemTy.payload_encode hsc t h.2.1 t.dflt y (by
        rw [ElemTy.merge_dflt]; exact hf3 y (List.mem_append_right _ hy)) hlen
      rwa [ElemTy.merge_dflt] at this
    clear ih ih' hf2
    unfold encodeRepeated at hl ⊢
    cases hs : t.isScalar with
    | true =>
      simp only [hs, ↓reduceIte] at hl ⊢
      have hw : ∀ bs, t.wrap bs = bs := by
        cases t with
        | scalar s => intro _; rfl
        | str _ => exact nomatch hs
        | msg _ _ => exact nomatch hs
      cases v1 with
      | nil =>
        simp only [List.map_nil, List.isEmpty_nil, ↓reduceIte, List.append_nil]
        exact Stream.nil _
      | cons y ys =>
        simp only [List.map_cons, List.isEmpty_cons, Bool.false_eq_true, ↓reduceIte,
          List.length_append, lenDelim] at hl
        simp only [List.map_cons, List.isEmpty_cons, Bool.false_eq_true, ↓reduceIte]
        refine Stream.single (tagged_tag hn.1 (Or.inl ⟨rfl, rfl, hf1, rfl, ?_⟩))
        rw [if_pos hs]
        refine ⟨_, y :: ys, delimited_lenDelim _ (by omega), ?_, rfl⟩
        have := packed_flatten (P := fun b z => t.Payload b t.dflt z) (enc := t.encodeWith sc) (y :: ys) (by
          intro z hz
          have := hpay z hz (by
            rw [hw]
            have := length_le_flatten (List.mem_map_of_mem (f := t.encodeWith sc) hz)
            simp only [List.map_cons] at this
            omega)
          rwa [hw] at this)
        simpa only [List.map_cons] using this
    | false =>
      simp only [hs, Bool.false_eq_true, ↓reduceIte] at hl ⊢
      have hw : ∀ bs, t.wrap bs = lenDelim bs := by
        cases t with
        | scalar s => exact nomatch hs
        | str _ => intro _; rfl
        | msg _ _ => intro _; rfl
      clear hf3
      revert hpay hl
      induction v1 generalizing u1 with
      | nil =>
        intro hpay hl
        simp only [List.map_nil, List.flatten_nil, List.append_nil]
        exact Stream.nil _
      | cons y ys ihy =>
        intro hpay hl
        simp only [List.map_cons, List.flatten_cons, List.length_append] at hl ⊢
        have h1 : Tagged (Fields.repeated num cap t rest).Record
            (tag num .lengthDelimited ++ lenDelim (t.encodeWith sc y)) (u1, u2) (u1 ++ [y], u2) := by
          refine tagged_tag hn.1 (Or.inl ⟨rfl, rfl, ?_, rfl, ?_⟩)
          · show (u1 ++ [y]).length ≤ cap
            simp at hf1 ⊢; omega
          · rw [if_neg (by simp [hs])]
            have := hpay y List.mem_cons_self (by rw [hw]; omega)
            rw [hw] at this
            exact ⟨y, this, rfl⟩
        have h2 := ihy (u1 ++ [y]) (by simpa using hf1) (fun z hz => hpay z (List.mem_cons_of_mem _ hz))
          (by omega)
        have := Stream.cons h1 h2
        simpa using this
theorem Alts.record_encode (hsc : Readable sc) : (a : Alts) → a.WF →
    (∀ n ∈ a.numbers, n < 536870912) → (u : Option a.Val) → (v w : a.Val) →
    (w = match u with
      | none => v
      | some u => a.merge u v) → a.Fits w →
    (a.encodeWith sc v).length < 4294967296 →
    ∃ num wt p, num < 536870912 ∧ a.encodeWith sc v = tag num wt ++ p ∧ a.Record num wt p u w
  | .nil, _, _, _, v, _, _, _, _ => nomatch v
  | .cons num t rest, h, hn, u, .inl y, w, hw, hf, hl => by
    simp only [Alts.WF] at h
    simp only [Alts.numbers, List.mem_cons, forall_eq_or_imp] at hn
    simp only [Alts.encodeWith, List.length_append] at hl ⊢
    have hm : w = .inl (t.merge (leftD t.dflt u) y) := by
      rw [hw]
      cases u with
      | none => exact congrArg Sum.inl (ElemTy.merge_dflt t y).symm
      | some u =>
        cases u with
        | inl x => rfl
        | inr x => exact congrArg Sum.inl (ElemTy.merge_dflt t y).symm
    clear hw
    subst hm
    exact ⟨num, t.wire, _, hn.1, rfl, Or.inl ⟨rfl, rfl, _,
      ElemTy.payload_encode hsc t h.1 (leftD t.dflt u) y hf (by omega), rfl⟩⟩
  | .cons num t rest, h, hn, u, .inr y, w, hw, hf, hl => by
    simp only [Alts.WF] at h
    simp only [Alts.numbers, List.mem_cons, forall_eq_or_imp] at hn
    simp only [Alts.encodeWith] at hl ⊢
    obtain ⟨w', hw', hww⟩ : ∃ w', w = .inr w' ∧ w' = match rightOf u with
        | none => y
        | some u => rest.merge u y := by
      cases u with
      | none => exact ⟨_, hw, rfl⟩
      | some u =>
        cases u with
        | inl x => exact ⟨_, hw, rfl⟩
        | inr x => exact ⟨_, hw, rfl⟩
    clear hw
    subst hw'
    obtain ⟨num', wt, p, h1, h2, h3⟩ :=
      Alts.record_encode hsc rest h.2 hn.2 (rightOf u) y w' hww hf hl
    exact ⟨num', wt, p, h1, h2, Or.inr ⟨w', h3, rfl⟩⟩
theorem Oneofs.records_encode (hsc : Readable sc) : (os : Oneofs) → os.WF →
    (∀ n ∈ os.numbers, n < 536870912) → (u v : os.Val) → os.Fits (os.merge u v) →
    (os.encodeWith sc v).length < 4294967296 →
    Stream (Tagged os.Record) (os.encodeWith sc v) u (os.merge u v)
  | .nil, _, _, _, _, _, _ => Stream.nil _
  | .cons a rest, h, hn, u, v, hf, hl => by
    simp only [Oneofs.WF] at h
    simp only [Oneofs.numbers, List.mem_append] at hn
    obtain ⟨u1, u2⟩ := u
    obtain ⟨v1, v2⟩ := v
    obtain ⟨m1, hm1⟩ : ∃ m1, m1 = ((Oneofs.cons a rest).merge (u1, u2) (v1, v2)).1 := ⟨_, rfl⟩
    have hmm : (Oneofs.cons a rest).merge (u1, u2) (v1, v2) = (m1, rest.merge u2 v2) := by
      rw [hm1]; rfl
    rw [hmm] at hf ⊢
    obtain ⟨hf1, hf2⟩ : (∀ x, m1 = some x → a.Fits x) ∧ rest.Fits (rest.merge u2 v2) := hf
    simp only [Oneofs.encodeWith, List.length_append] at hl
    have ih := Oneofs.records_encode hsc rest h.2 (fun n hn' => hn n (Or.inr hn')) u2 v2 hf2 (by omega)
    have ih' := Stream.map (Step' := Tagged (Oneofs.cons a rest).Record)
      (f := fun x : rest.Val => (m1, x)) (by
        rintro bs c b ⟨num', wt, tg, p, ht, he, hR⟩
        exact ⟨num', wt, tg, p, ht, he, Or.inr ⟨hR, rfl⟩⟩) ih
    simp only [Oneofs.encodeWith]
    refine Stream.append (v := (m1, u2)) ?_ ih'
    cases v1 with
    | none =>
      have : m1 = u1 := by rw [hm1]; cases u1 <;> rfl
      subst this
      exact Stream.nil _
    | some y =>
      obtain ⟨w, hw⟩ : ∃ w, w = match u1 with
          | none => y
          | some u => a.merge u y := ⟨_, rfl⟩
      have hm : m1 = some w := by
        rw [hm1, hw]
        cases u1 <;> rfl
      obtain ⟨num, wt, p, h1, h2, h3⟩ := Alts.record_encode hsc a h.1 (fun n hn' => hn n (Or.inl hn'))
        u1 y w hw (hf1 w hm) (by simp only at hl; omega)
      simp only
      rw [h2]
      exact Stream.single (tagged_tag h1 (Or.inl ⟨⟨w, h3, hm⟩, rfl⟩))
end

/-- The encoding of a message body is a record stream; its effect on any value `u` is `merge u v`. -/
theorem records_encode (hsc : Readable sc) (fs : Fields) (os : Oneofs)
    (h : (ElemTy.msg fs os).WF) (u v : (ElemTy.msg fs os).Val)
    (hf : (ElemTy.msg fs os).Fits ((ElemTy.msg fs os).merge u v))
    (hl : ((ElemTy.msg fs os).encodeWith sc v).length < 4294967296) :
    Records fs os ((ElemTy.msg fs os).encodeWith sc v) u ((ElemTy.msg fs os).merge u v) := by
  simp only [ElemTy.WF] at h
  obtain ⟨hf1, hf2⟩ : fs.Fits (fs.merge u.1 v.1) ∧ os.Fits (os.merge u.2 v.2) := hf
  have hl : (fs.encodeWith sc v.1 ++ os.encodeWith sc v.2).length < 4294967296 := hl
  rw [List.length_append] at hl
  exact records_of_streams fs os
    (Fields.records_encode hsc fs h.1 (fun n hn => (h.2.2.2 n (List.mem_append_left _ hn)).2)
      u.1 v.1 hf1 (by omega))
    (Oneofs.records_encode hsc os h.2.1 (fun n hn => (h.2.2.2 n (List.mem_append_right _ hn)).2)
      u.2 v.2 hf2 (by omega))

end

end EP
