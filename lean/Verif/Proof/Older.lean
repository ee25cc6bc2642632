import Verif.Proof.SyntaxEnc
import Verif.Spec.Older

/-! # Older versions of a declaration: values, encodings, record streams -/

namespace EP
open Spec

theorem ElemTy.Older.isScalar_eq {t : ElemTy} (m : t.Older) : m.old.isScalar = t.isScalar := by
  cases m <;> rfl

theorem ElemTy.Older.wire_eq {t : ElemTy} (m : t.Older) : m.old.wire = t.wire := by
  cases m <;> rfl

theorem ElemTy.Older.wrap_eq {t : ElemTy} (m : t.Older) (bs : List Byte) : m.old.wrap bs = t.wrap bs := by
  cases m <;> rfl

/-! ## The default value -/

mutual
theorem ElemTy.Older.shown_dflt : {t : ElemTy} → (m : t.Older) → m.shown t.dflt = m.old.dflt
  | _, .scalar _ => rfl
  | _, .str _ _ => rfl
  | _, .msg f o => congr (congrArg Prod.mk f.shown_dflt) o.shown_dflt
theorem Fields.Older.shown_dflt : {fs : Fields} → (m : fs.Older) → m.shown fs.dflt = m.old.dflt
  | _, .nil => rfl
  | _, .plain _ m r => congr (congrArg Prod.mk m.shown_dflt) r.shown_dflt
  | _, .optional _ _ r => congrArg (Prod.mk _) r.shown_dflt
  | _, .repeated _ _ _ _ r => congrArg (Prod.mk _) r.shown_dflt
  | _, .newPlain _ _ r => r.shown_dflt
  | _, .newOptional _ _ r => r.shown_dflt
  | _, .madeOptional _ m r => congr (congrArg Prod.mk m.shown_dflt) r.shown_dflt
  | _, .newRepeated _ _ _ r => r.shown_dflt
theorem Oneofs.Older.shown_dflt : {os : Oneofs} → (m : os.Older) → m.shown os.dflt = m.old.dflt
  | _, .nil => rfl
  | _, .cons _ r => congrArg (Prod.mk _) r.shown_dflt
  | _, .newOneof _ r => r.shown_dflt
end

/-! ## Values of the older declaration -/

mutual
theorem ElemTy.Older.isDflt_lifted : {t : ElemTy} → (m : t.Older) → (v : m.old.Val) →
    t.isDflt (m.lifted v) = m.old.isDflt v
  | _, .scalar _, _ => rfl
  | _, .str _ _, _ => rfl
  | _, .msg f o, v => by
    show (Fields.isDflt _ (f.lifted v.1) && Oneofs.isDflt _ (o.lifted v.2)) = (f.old.isDflt v.1 && o.old.isDflt v.2)
    rw [f.isDflt_lifted, o.isDflt_lifted]
theorem Fields.Older.isDflt_lifted : {fs : Fields} → (m : fs.Older) → (v : m.old.Val) →
    fs.isDflt (m.lifted v) = m.old.isDflt v
  | _, .nil, _ => rfl
  | _, .plain _ m r, v => by
    show (ElemTy.isDflt _ (m.lifted v.1) && Fields.isDflt _ (r.lifted v.2)) = (m.old.isDflt v.1 && r.old.isDflt v.2)
    rw [m.isDflt_lifted, r.isDflt_lifted]
  | _, .optional _ m r, v => by
    show ((v.1.map m.lifted).isNone && Fields.isDflt _ (r.lifted v.2)) = (v.1.isNone && r.old.isDflt v.2)
    rw [r.isDflt_lifted, Option.isNone_map]
  | _, .repeated _ _ _ m r, v => by
    show ((v.1.map m.lifted).isEmpty && Fields.isDflt _ (r.lifted v.2)) = (v.1.isEmpty && r.old.isDflt v.2)
    rw [r.isDflt_lifted, List.isEmpty_map]
  | _, .newPlain _ t r, v => by
    have h := (ElemTy.isDflt_iff t t.dflt).mpr rfl
    exact (congrArg (· && _) h).trans (r.isDflt_lifted v)
  | _, .newOptional _ _ r, v => r.isDflt_lifted v
  | _, .madeOptional _ m r, v => by
    show (Option.isNone (if m.old.isDflt v.1 then none else some (m.lifted v.1)) && Fields.isDflt _ (r.lifted v.2)) =
      (m.old.isDflt v.1 && r.old.isDflt v.2)
    rw [r.isDflt_lifted]
    cases m.old.isDflt v.1 <;> rfl
  | _, .newRepeated _ _ _ r, v => r.isDflt_lifted v
theorem Oneofs.Older.isDflt_lifted : {os : Oneofs} → (m : os.Older) → (v : m.old.Val) →
    os.isDflt (m.lifted v) = m.old.isDflt v
  | _, .nil, _ => rfl
  | _, .cons m r, v => by
    show ((v.1.map m.lifted).isNone && Oneofs.isDflt _ (r.lifted v.2)) = (v.1.isNone && r.old.isDflt v.2)
    rw [r.isDflt_lifted, Option.isNone_map]
  | _, .newOneof _ r, v => r.isDflt_lifted v
end

theorem pair_eq {α β : Type} {a a' : α} {b b' : β} (h : a = a') (h' : b = b') : (a, b) = (a', b') := by
  rw [h, h']

mutual
/-- Nothing of a value of the older declaration is lost. -/
theorem ElemTy.Older.shown_lifted : {t : ElemTy} → (m : t.Older) → (v : m.old.Val) → m.shown (m.lifted v) = v
  | _, .scalar _, _ => rfl
  | _, .str _ _, _ => rfl
  | _, .msg f o, v => pair_eq (f.shown_lifted v.1) (o.shown_lifted v.2)
theorem Fields.Older.shown_lifted : {fs : Fields} → (m : fs.Older) → (v : m.old.Val) → m.shown (m.lifted v) = v
  | _, .nil, _ => rfl
  | _, .plain _ m r, v => pair_eq (m.shown_lifted v.1) (r.shown_lifted v.2)
  | _, .optional num (t := t) (rest := rest) m r, (v1, v2) => by
    refine pair_eq (α := Option m.old.Val) ?_ (r.shown_lifted v2)
    show (Option.map m.lifted v1).map m.shown = v1
    cases v1 with
    | none => rfl
    | some x => exact congrArg some (m.shown_lifted x)
  | _, .repeated num cap was (t := t) (rest := rest) m r, (v1, v2) => by
    refine pair_eq (α := List m.old.Val) ?_ (r.shown_lifted v2)
    show (List.map m.lifted v1).map m.shown = v1
    induction v1 with
    | nil => rfl
    | cons x xs ih => exact congr (congrArg List.cons (m.shown_lifted x)) ih
  | _, .newPlain _ _ r, v => r.shown_lifted v
  | _, .newOptional _ _ r, v => r.shown_lifted v
  | _, .madeOptional num (t := t) (rest := rest) m r, (v1, v2) => by
    refine pair_eq (α := m.old.Val) ?_ (r.shown_lifted v2)
    show m.shown (Option.getD (if m.old.isDflt v1 then none else some (m.lifted v1)) t.dflt) = v1
    cases hd : m.old.isDflt v1 with
    | true => exact m.shown_dflt.trans ((ElemTy.isDflt_iff _ v1).mp hd).symm
    | false => exact m.shown_lifted v1
  | _, .newRepeated _ _ _ r, v => r.shown_lifted v
theorem Alts.Older.shown_lifted : {a : Alts} → (m : a.Older) → (v : m.old.Val) → m.shown (m.lifted v) = some v
  | _, .nil, v => nomatch v
  | _, .cons num (t := t) m r, v => by
    revert v
    show ∀ v : m.old.Val ⊕ r.old.Val, _
    intro v
    cases v with
    | inl x => exact congrArg (fun z => some (Sum.inl z)) (m.shown_lifted x)
    | inr y => exact congrArg (Option.map Sum.inr) (r.shown_lifted y)
  | _, .newMember _ _ r, v => r.shown_lifted v
theorem Oneofs.Older.shown_lifted : {os : Oneofs} → (m : os.Older) → (v : m.old.Val) → m.shown (m.lifted v) = v
  | _, .nil, _ => rfl
  | _, .cons m r, v => by
    revert v
    show ∀ v : Option m.old.Val × r.old.Val, _
    rintro ⟨v1, v2⟩
    refine pair_eq (α := Option m.old.Val) ?_ (r.shown_lifted v2)
    show (Option.map m.lifted v1).bind m.shown = v1
    cases v1 with
    | none => rfl
    | some x => exact m.shown_lifted x
  | _, .newOneof _ r, v => r.shown_lifted v
end

section
variable {sc : (s : ScalarTy) → s.Val → List Byte}

theorem encodeRepeated_congr {t t' : ElemTy} (h : t.isScalar = t'.isScalar) (num : Nat) (es : List (List Byte)) :
    encodeRepeated t num es = encodeRepeated t' num es := by
  unfold encodeRepeated; rw [h]

mutual
/-- A value of the older declaration and the same value of the newer one have the same encoding. -/
theorem ElemTy.Older.encode_lifted : {t : ElemTy} → (m : t.Older) → (v : m.old.Val) →
    t.encodeWith sc (m.lifted v) = m.old.encodeWith sc v
  | _, .scalar _, _ => rfl
  | _, .str _ _, _ => rfl
  | _, .msg f o, v => by
    show Fields.encodeWith sc _ (f.lifted v.1) ++ Oneofs.encodeWith sc _ (o.lifted v.2) =
      f.old.encodeWith sc v.1 ++ o.old.encodeWith sc v.2
    rw [f.encode_lifted, o.encode_lifted]
theorem Fields.Older.encode_lifted : {fs : Fields} → (m : fs.Older) → (v : m.old.Val) →
    fs.encodeWith sc (m.lifted v) = m.old.encodeWith sc v
  | _, .nil, _ => rfl
  | _, .plain num (t := t) (rest := rest) m r, v => by
    show (if t.isDflt (m.lifted v.1) then [] else tag num t.wire ++ t.wrap (t.encodeWith sc (m.lifted v.1)))
      ++ rest.encodeWith sc (r.lifted v.2) = (if m.old.isDflt v.1 then [] else tag num m.old.wire ++
        m.old.wrap (m.old.encodeWith sc v.1)) ++ r.old.encodeWith sc v.2
    rw [m.isDflt_lifted, m.encode_lifted, r.encode_lifted, m.wire_eq, m.wrap_eq]
  | _, .optional num (t := t) (rest := rest) m r, (v1, v2) => by
    cases v1 with
    | none => exact r.encode_lifted v2
    | some x =>
      show (tag num t.wire ++ t.wrap (t.encodeWith sc (m.lifted x))) ++ rest.encodeWith sc (r.lifted v2) =
        (tag num m.old.wire ++ m.old.wrap (m.old.encodeWith sc x)) ++ r.old.encodeWith sc v2
      rw [r.encode_lifted, m.encode_lifted, m.wire_eq, m.wrap_eq]
  | _, .repeated num cap was (t := t) (rest := rest) m r, (v1, v2) => by
    show encodeRepeated t num ((v1.map m.lifted).map (t.encodeWith sc)) ++ rest.encodeWith sc (r.lifted v2) =
      encodeRepeated m.old num (v1.map (m.old.encodeWith sc)) ++ r.old.encodeWith sc v2
    rw [r.encode_lifted, List.map_map, encodeRepeated_congr m.isScalar_eq]
    congr 2
    exact List.map_congr_left (fun x _ => m.encode_lifted x)
  | _, .newPlain num t (rest := rest) r, v => by
    have h := (ElemTy.isDflt_iff t t.dflt).mpr rfl
    have h' : (if t.isDflt t.dflt then [] else tag num t.wire ++ t.wrap (t.encodeWith sc t.dflt)) = [] := if_pos h
    exact (congrArg (· ++ _) h').trans (r.encode_lifted v)
  | _, .newOptional num t (rest := rest) r, v => r.encode_lifted v
  | _, .madeOptional num (t := t) (rest := rest) m r, (v1, v2) => by
    show (match (if m.old.isDflt v1 then none else some (m.lifted v1)) with
      | none => []
      | some x => tag num t.wire ++ t.wrap (t.encodeWith sc x)) ++ rest.encodeWith sc (r.lifted v2) =
      (if m.old.isDflt v1 then [] else tag num m.old.wire ++
        m.old.wrap (m.old.encodeWith sc v1)) ++ r.old.encodeWith sc v2
    rw [r.encode_lifted]
    cases hd : m.old.isDflt v1 with
    | true => rfl
    | false =>
      simp only [Bool.false_eq_true, ↓reduceIte]
      rw [m.encode_lifted, m.wire_eq, m.wrap_eq]
  | _, .newRepeated num cap t (rest := rest) r, v => by
    have h : encodeRepeated t num [] = [] := by unfold encodeRepeated; cases t.isScalar <;> rfl
    exact (congrArg (· ++ _) h).trans (r.encode_lifted v)
theorem Alts.Older.encode_lifted : {a : Alts} → (m : a.Older) → (v : m.old.Val) →
    a.encodeWith sc (m.lifted v) = m.old.encodeWith sc v
  | _, .nil, _ => rfl
  | _, .cons num (t := t) m r, v => by
    revert v
    show ∀ v : m.old.Val ⊕ r.old.Val, _
    intro v
    cases v with
    | inl x =>
      show tag num t.wire ++ t.wrap (t.encodeWith sc (m.lifted x)) = tag num m.old.wire ++
        m.old.wrap (m.old.encodeWith sc x)
      rw [m.encode_lifted, m.wire_eq, m.wrap_eq]
    | inr y => exact r.encode_lifted y
  | _, .newMember _ _ r, v => r.encode_lifted v
theorem Oneofs.Older.encode_lifted : {os : Oneofs} → (m : os.Older) → (v : m.old.Val) →
    os.encodeWith sc (m.lifted v) = m.old.encodeWith sc v
  | _, .nil, _ => rfl
  | _, .cons (a := a) (rest := rest) m r, (v1, v2) => by
    cases v1 with
    | none => exact r.encode_lifted v2
    | some x =>
      show a.encodeWith sc (m.lifted x) ++ rest.encodeWith sc (r.lifted v2) =
        m.old.encodeWith sc x ++ r.old.encodeWith sc v2
      rw [r.encode_lifted, m.encode_lifted]
  | _, .newOneof _ r, v => r.encode_lifted v
end
end


/-! ## Records the older declaration does not know -/

theorem isVarint_mono {k k' : Nat} (h : k ≤ k') {bs : List Byte} (hb : IsVarint k bs) : IsVarint k' bs := by
  induction k generalizing k' bs with
  | zero => exact nomatch hb
  | succ k ih =>
    obtain ⟨k', rfl⟩ : ∃ j, k' = j + 1 := ⟨k' - 1, by omega⟩
    cases bs with
    | nil => exact nomatch hb
    | cons b bs =>
      simp only [IsVarint] at hb ⊢
      by_cases hc : cont b
      · rw [if_pos hc] at hb ⊢
        exact ih (by omega) hb
      · rw [if_neg hc] at hb ⊢
        exact hb

theorem isVarint_of_varint {w : Nat} {bs : List Byte} {n : Nat} (hw : maxVarint w ≤ 10) (h : Varint w bs n) :
    IsVarint 10 bs :=
  isVarint_mono hw h.1

theorem ElemTy.Syntax.unknown : {t : ElemTy} → {bs : List Byte} → t.Syntax bs → UnknownPayload t.wire bs
  | .scalar s, bs, h => by
    obtain ⟨v, h⟩ := h
    cases s with
    | int32 => obtain ⟨n, h, _⟩ := h; exact isVarint_of_varint (by decide) h
    | int64 => obtain ⟨n, h, _⟩ := h; exact isVarint_of_varint (by decide) h
    | uint32 => obtain ⟨n, h, _⟩ := h; exact isVarint_of_varint (by decide) h
    | uint64 => obtain ⟨n, h, _⟩ := h; exact isVarint_of_varint (by decide) h
    | sint32 => obtain ⟨n, h, _⟩ := h; exact isVarint_of_varint (by decide) h
    | sint64 => exact isVarint_of_varint (w := 64) (by decide) h
    | enumeration => obtain ⟨n, h, _⟩ := h; exact isVarint_of_varint (by decide) h
    | boolean =>
      obtain ⟨n, h, h1, _⟩ := h
      exact isVarint_of_varint (w := 32) (n := n) (by decide) (h1 ▸ varint_spec 32 _ (by decide) (by omega))
    | fixed32 => exact h.1
    | sfixed32 => exact h.1
    | floatfixed => exact h.1
    | fixed64 => exact h.1
    | sfixed64 => exact h.1
    | doublefixed => exact h.1
  | .str _, _, h => h
  | .msg _ _, _, h => by
    obtain ⟨body, h, _⟩ := h
    exact ⟨body, h⟩

theorem Fields.Syntax.mem : {fs : Fields} → {num : Nat} → {wt : WireType} → {bs : List Byte} →
    fs.Syntax num wt bs → num ∈ fs.numbers
  | .nil, _, _, _, h => nomatch h
  | .plain _ _ rest, _, _, _, h => by
    rcases h with h | h
    · exact h.1 ▸ List.mem_cons_self
    · exact List.mem_cons_of_mem _ (Fields.Syntax.mem (fs := rest) h)
  | .optional _ _ rest, _, _, _, h => by
    rcases h with h | h
    · exact h.1 ▸ List.mem_cons_self
    · exact List.mem_cons_of_mem _ (Fields.Syntax.mem (fs := rest) h)
  | .repeated _ _ _ rest, _, _, _, h => by
    rcases h with h | h
    · exact h.1 ▸ List.mem_cons_self
    · exact List.mem_cons_of_mem _ (Fields.Syntax.mem (fs := rest) h)

theorem Fields.Syntax.unknown : {fs : Fields} → {num : Nat} → {wt : WireType} → {bs : List Byte} →
    fs.Syntax num wt bs → UnknownPayload wt bs
  | .nil, _, _, _, h => nomatch h
  | .plain _ t rest, _, _, _, h => by
    rcases h with h | h
    · exact h.2.1 ▸ h.2.2.unknown
    · exact Fields.Syntax.unknown (fs := rest) h
  | .optional _ _ rest, _, _, _, h => by
    rcases h with h | h
    · exact h.2.1 ▸ h.2.2.unknown
    · exact Fields.Syntax.unknown (fs := rest) h
  | .repeated _ _ t rest, _, _, _, h => by
    rcases h with ⟨_, h, h'⟩ | h
    · subst h
      by_cases hs : t.isScalar = true
      · rw [if_pos hs] at h'
        obtain ⟨body, h, _⟩ := h'
        exact ⟨body, h⟩
      · rw [if_neg hs] at h'
        have := h'.unknown
        cases t with
        | scalar s => exact absurd rfl hs
        | str _ => exact this
        | msg _ _ => exact this
    · exact Fields.Syntax.unknown (fs := rest) h

theorem Alts.Syntax.mem : {a : Alts} → {num : Nat} → {wt : WireType} → {bs : List Byte} →
    a.Syntax num wt bs → num ∈ a.numbers
  | .nil, _, _, _, h => nomatch h
  | .cons _ _ rest, _, _, _, h => by
    rcases h with h | h
    · exact h.1 ▸ List.mem_cons_self
    · exact List.mem_cons_of_mem _ (Alts.Syntax.mem (a := rest) h)

theorem Alts.Syntax.unknown : {a : Alts} → {num : Nat} → {wt : WireType} → {bs : List Byte} →
    a.Syntax num wt bs → UnknownPayload wt bs
  | .nil, _, _, _, h => nomatch h
  | .cons _ _ rest, _, _, _, h => by
    rcases h with h | h
    · exact h.2.1 ▸ h.2.2.unknown
    · exact Alts.Syntax.unknown (a := rest) h

theorem Oneofs.Syntax.mem : {os : Oneofs} → {num : Nat} → {wt : WireType} → {bs : List Byte} →
    os.Syntax num wt bs → num ∈ os.numbers
  | .nil, _, _, _, h => nomatch h
  | .cons _ rest, _, _, _, h => by
    rcases h with h | h
    · exact List.mem_append_left _ h.mem
    · exact List.mem_append_right _ (Oneofs.Syntax.mem (os := rest) h)

theorem Oneofs.Syntax.unknown : {os : Oneofs} → {num : Nat} → {wt : WireType} → {bs : List Byte} →
    os.Syntax num wt bs → UnknownPayload wt bs
  | .nil, _, _, _, h => nomatch h
  | .cons _ rest, _, _, _, h => by
    rcases h with h | h
    · exact h.unknown
    · exact Oneofs.Syntax.unknown (os := rest) h

theorem Fields.Older.mem : {fs : Fields} → (m : fs.Older) → {n : Nat} → n ∈ m.old.numbers → n ∈ fs.numbers
  | _, .nil, _, h => h
  | _, .plain _ _ r, _, h => by
    rcases List.mem_cons.mp h with h | h
    · exact h ▸ List.mem_cons_self
    · exact List.mem_cons_of_mem _ (r.mem h)
  | _, .optional _ _ r, _, h => by
    rcases List.mem_cons.mp h with h | h
    · exact h ▸ List.mem_cons_self
    · exact List.mem_cons_of_mem _ (r.mem h)
  | _, .repeated _ _ _ _ r, _, h => by
    rcases List.mem_cons.mp h with h | h
    · exact h ▸ List.mem_cons_self
    · exact List.mem_cons_of_mem _ (r.mem h)
  | _, .madeOptional _ _ r, _, h => by
    rcases List.mem_cons.mp h with h | h
    · exact h ▸ List.mem_cons_self
    · exact List.mem_cons_of_mem _ (r.mem h)
  | _, .newPlain _ _ r, _, h => List.mem_cons_of_mem _ (r.mem h)
  | _, .newOptional _ _ r, _, h => List.mem_cons_of_mem _ (r.mem h)
  | _, .newRepeated _ _ _ r, _, h => List.mem_cons_of_mem _ (r.mem h)

theorem Alts.Older.mem : {a : Alts} → (m : a.Older) → {n : Nat} → n ∈ m.old.numbers → n ∈ a.numbers
  | _, .nil, _, h => h
  | _, .cons _ _ r, _, h => by
    rcases List.mem_cons.mp h with h | h
    · exact h ▸ List.mem_cons_self
    · exact List.mem_cons_of_mem _ (r.mem h)
  | _, .newMember _ _ r, _, h => List.mem_cons_of_mem _ (r.mem h)

theorem Oneofs.Older.mem : {os : Oneofs} → (m : os.Older) → {n : Nat} → n ∈ m.old.numbers → n ∈ os.numbers
  | _, .nil, _, h => h
  | _, .cons m r, _, h => by
    rcases List.mem_append.mp h with h | h
    · exact List.mem_append_left _ (m.mem h)
    · exact List.mem_append_right _ (r.mem h)
  | _, .newOneof _ r, _, h => List.mem_append_right _ (r.mem h)

/-- A record of the newer declaration (with numbers `nums`) for the older one (with numbers `olds`): known, or
to be skipped. -/
def OldStep {V : Type} (nums olds : List Nat) (R : Nat → WireType → List Byte → V → V → Prop)
    (num : Nat) (wt : WireType) (p : List Byte) (u v : V) : Prop :=
  num ∈ nums ∧ (R num wt p u v ∨ (num ∉ olds ∧ UnknownPayload wt p ∧ v = u))

/-- Put the streams of the fields and of the oneofs together. -/
theorem records_of_old {fs : Fields} {os : Oneofs} (h : (ElemTy.msg fs os).WF) (f : fs.Older) (o : os.Older)
    {b1 b2 : List Byte} {u v : f.old.Val × o.old.Val}
    (h1 : Stream (Tagged (OldStep fs.numbers f.old.numbers f.old.Record)) b1 u.1 v.1)
    (h2 : Stream (Tagged (OldStep os.numbers o.old.numbers o.old.Record)) b2 u.2 v.2) :
    Records f.old o.old (b1 ++ b2) u v := by
  simp only [ElemTy.WF] at h
  have hd := List.nodup_append.mp h.2.2.1
  have hp := h.2.2.2
  have h1' := Stream.map (Step' := RecordStep (f.old.numbers ++ o.old.numbers) f.old.Record o.old.Record)
    (f := fun x : f.old.Val => (x, u.2)) (by
      rintro bs a b ⟨num, wt, t, p, ht, he, hm, hR⟩
      refine ⟨num, wt, t, p, ht, he, ?_⟩
      rcases hR with hR | ⟨hn, hu, rfl⟩
      · exact Or.inl ⟨hR, rfl⟩
      · refine Or.inr (Or.inr ⟨(hp num (List.mem_append_left _ hm)).1, ?_, hu, rfl⟩)
        intro hc
        rcases List.mem_append.mp hc with hc | hc
        · exact hn hc
        · exact hd.2.2 num hm num (o.mem hc) rfl) h1
  have h2' := Stream.map (Step' := RecordStep (f.old.numbers ++ o.old.numbers) f.old.Record o.old.Record)
    (f := fun x : o.old.Val => (v.1, x)) (by
      rintro bs a b ⟨num, wt, t, p, ht, he, hm, hR⟩
      refine ⟨num, wt, t, p, ht, he, ?_⟩
      rcases hR with hR | ⟨hn, hu, rfl⟩
      · exact Or.inr (Or.inl ⟨hR, rfl⟩)
      · refine Or.inr (Or.inr ⟨(hp num (List.mem_append_right _ hm)).1, ?_, hu, rfl⟩)
        intro hc
        rcases List.mem_append.mp hc with hc | hc
        · exact hd.2.2 num (f.mem hc) num hm rfl
        · exact hn hc) h2
  exact h1'.append h2'

theorem Tagged.mono {V : Type} {R R' : Nat → WireType → List Byte → V → V → Prop}
    (h : ∀ num wt p u v, R num wt p u v → R' num wt p u v) {bs : List Byte} {u v : V} (hb : Tagged R bs u v) :
    Tagged R' bs u v := by
  obtain ⟨num, wt, t, p, h1, h2, h3⟩ := hb
  exact ⟨num, wt, t, p, h1, h2, h _ _ _ _ _ h3⟩

/-- Records that are all to be skipped. -/
theorem Concat.skipped {V : Type} {R : Nat → WireType → List Byte → V → V → Prop}
    {S : Nat → WireType → List Byte → Prop} {nums olds : List Nat}
    (hs : ∀ num wt p, S num wt p → num ∈ nums ∧ num ∉ olds ∧ UnknownPayload wt p) {bs : List Byte}
    (h : Concat (TaggedSyntax S) bs) (u : V) : Stream (Tagged (OldStep nums olds R)) bs u u := by
  induction h with
  | nil => exact .nil _
  | cons h1 _ ih =>
    obtain ⟨num, wt, t, p, g1, g2, g3⟩ := h1
    obtain ⟨k1, k2, k3⟩ := hs _ _ _ g3
    exact .cons ⟨num, wt, t, p, g1, g2, k1, Or.inr ⟨k2, k3, rfl⟩⟩ ih

section
variable {sc : (s : ScalarTy) → s.Val → List Byte}

/-- A record of the fields after the first one. -/
theorem OldStep.later {U V : Type} {n : Nat} {nums olds : List Nat} {R : Nat → WireType → List Byte → U → U → Prop}
    {R' : Nat → WireType → List Byte → V → V → Prop} {f : U → V} {olds' : List Nat} (hn : n ∉ nums)
    (hR : ∀ num wt p u v, R num wt p u v → R' num wt p (f u) (f v))
    (ho : ∀ k, k ∈ olds' → k = n ∨ k ∈ olds) {bs : List Byte} {u v : U}
    (h : Stream (Tagged (OldStep nums olds R)) bs u v) :
    Stream (Tagged (OldStep (n :: nums) olds' R')) bs (f u) (f v) := by
  refine Stream.map (f := f) ?_ h
  rintro bs a b ⟨num, wt, t, p, ht, he, hm, hr⟩
  refine ⟨num, wt, t, p, ht, he, List.mem_cons_of_mem _ hm, ?_⟩
  rcases hr with hr | ⟨h1, h2, rfl⟩
  · exact Or.inl (hR _ _ _ _ _ hr)
  · refine Or.inr ⟨fun hc => ?_, h2, rfl⟩
    rcases ho _ hc with rfl | hc
    · exact hn hm
    · exact h1 hc

mutual
/-- What a receiver with the older declaration makes of the encoding of a value: it gets what the older
declaration shows of the value. -/
theorem ElemTy.Older.payload_encode (hsc : Readable sc) : {t : ElemTy} → (m : t.Older) → t.WF → (v : t.Val) →
    m.old.Fits (m.shown v) → (t.wrap (t.encodeWith sc v)).length < 4294967296 →
    m.old.Payload (t.wrap (t.encodeWith sc v)) m.old.dflt (m.shown v)
  | _, .scalar s, _, v, _, _ => hsc s v
  | _, .str cap was, _, v, hf, hl => ⟨delimited_lenDelim _ (lenDelim_lt hl), hf⟩
  | _, .msg (fs := fs) (os := os) f o, h, v, hf, hl => by
    have h' := h
    simp only [ElemTy.WF] at h'
    have hl : (lenDelim (fs.encodeWith sc v.1 ++ os.encodeWith sc v.2)).length < 4294967296 := hl
    have hl := lenDelim_lt hl
    have hl' := hl
    rw [List.length_append] at hl'
    obtain ⟨hf1, hf2⟩ : f.old.Fits (f.shown v.1) ∧ o.old.Fits (o.shown v.2) := hf
    refine ⟨fs.encodeWith sc v.1 ++ os.encodeWith sc v.2, delimited_lenDelim _ hl, ?_⟩
    exact records_of_old h f o (u := (f.old.dflt, o.old.dflt)) (v := (f.shown v.1, o.shown v.2))
      (Fields.Older.records_encode hsc f h'.1 (List.nodup_append.mp h'.2.2.1).1
        (fun n hn => (h'.2.2.2 n (List.mem_append_left _ hn)).2) v.1 hf1 (by omega))
      (Oneofs.Older.records_encode hsc o h'.2.1 (List.nodup_append.mp h'.2.2.1).2.1
        (fun n hn => (h'.2.2.2 n (List.mem_append_right _ hn)).2) v.2 hf2 (by omega))
theorem Fields.Older.records_encode (hsc : Readable sc) : {fs : Fields} → (m : fs.Older) → fs.WF →
    fs.numbers.Nodup → (∀ n ∈ fs.numbers, n < 536870912) → (v : fs.Val) → m.old.Fits (m.shown v) →
    (fs.encodeWith sc v).length < 4294967296 →
    Stream (Tagged (OldStep fs.numbers m.old.numbers m.old.Record)) (fs.encodeWith sc v) m.old.dflt (m.shown v)
  | _, .nil, _, _, _, _, _, _ => Stream.nil _
  | _, .plain num (t := t) (rest := rest) m r, h, hd, hn, (v1, v2), hf, hl => by
    simp only [Fields.WF] at h
    simp only [Fields.numbers, List.mem_cons, forall_eq_or_imp] at hn
    have hd := List.nodup_cons.mp hd
    obtain ⟨hf1, hf2⟩ : m.old.Fits (m.shown v1) ∧ r.old.Fits (r.shown v2) := hf
    simp only [Fields.encodeWith, List.length_append] at hl ⊢
    have ih := Fields.Older.records_encode hsc r h.2 hd.2 hn.2 v2 hf2 (by omega)
    have ih' := OldStep.later (R' := (Fields.plain num m.old r.old).Record) (n := num)
      (olds' := num :: r.old.numbers) (f := fun x => (m.shown v1, x)) hd.1
      (fun _ _ _ _ _ hr => Or.inr ⟨hr, rfl⟩) (fun k hk => List.mem_cons.mp hk) ih
    refine Stream.append (v := (m.shown v1, r.old.dflt)) ?_ ih'
    cases hd : t.isDflt v1 with
    | true =>
      simp only [↓reduceIte]
      rw [(ElemTy.isDflt_iff t v1).mp hd, m.shown_dflt]
      exact Stream.nil _
    | false =>
      simp only [hd, Bool.false_eq_true, ↓reduceIte, List.length_append] at hl ⊢
      have hp := ElemTy.Older.payload_encode hsc m h.1 v1 hf1 (by omega)
      exact Stream.single (tagged_tag hn.1 ⟨List.mem_cons_self, Or.inl (Or.inl ⟨rfl, m.wire_eq.symm, hp, rfl⟩)⟩)
  | _, .optional num (t := t) (rest := rest) m r, h, hd, hn, (v1, v2), hf, hl => by
    simp only [Fields.WF] at h
    simp only [Fields.numbers, List.mem_cons, forall_eq_or_imp] at hn
    have hd := List.nodup_cons.mp hd
    obtain ⟨hf1, hf2⟩ : (∀ x, v1.map m.shown = some x → m.old.Fits x) ∧ r.old.Fits (r.shown v2) := hf
    simp only [Fields.encodeWith, List.length_append] at hl ⊢
    have ih := Fields.Older.records_encode hsc r h.2 hd.2 hn.2 v2 hf2 (by omega)
    have ih' := OldStep.later (R' := (Fields.optional num m.old r.old).Record) (n := num)
      (olds' := num :: r.old.numbers) (f := fun x => (v1.map m.shown, x)) hd.1
      (fun _ _ _ _ _ hr => Or.inr ⟨hr, rfl⟩) (fun k hk => List.mem_cons.mp hk) ih
    refine Stream.append (v := (v1.map m.shown, r.old.dflt)) ?_ ih'
    cases v1 with
    | none => exact Stream.nil _
    | some y =>
      simp only [List.length_append] at hl ⊢
      have hp := ElemTy.Older.payload_encode hsc m h.1 y (hf1 _ rfl) (by omega)
      exact Stream.single (tagged_tag hn.1 ⟨List.mem_cons_self,
        Or.inl (Or.inl ⟨rfl, m.wire_eq.symm, ⟨_, hp, rfl⟩, rfl⟩)⟩)
  | _, .madeOptional num (t := t) (rest := rest) m r, h, hd, hn, (v1, v2), hf, hl => by
    simp only [Fields.WF] at h
    simp only [Fields.numbers, List.mem_cons, forall_eq_or_imp] at hn
    have hd := List.nodup_cons.mp hd
    obtain ⟨hf1, hf2⟩ : m.old.Fits (m.shown (v1.getD t.dflt)) ∧ r.old.Fits (r.shown v2) := hf
    simp only [Fields.encodeWith, List.length_append] at hl ⊢
    have ih := Fields.Older.records_encode hsc r h.2 hd.2 hn.2 v2 hf2 (by omega)
    have ih' := OldStep.later (R' := (Fields.plain num m.old r.old).Record) (n := num)
      (olds' := num :: r.old.numbers) (f := fun x => (m.shown (v1.getD t.dflt), x)) hd.1
      (fun _ _ _ _ _ hr => Or.inr ⟨hr, rfl⟩) (fun k hk => List.mem_cons.mp hk) ih
    refine Stream.append (v := (m.shown (v1.getD t.dflt), r.old.dflt)) ?_ ih'
    cases v1 with
    | none =>
      rw [Option.getD_none, m.shown_dflt]
      exact Stream.nil _
    | some y =>
      simp only [List.length_append] at hl ⊢
      have hp := ElemTy.Older.payload_encode hsc m h.1 y hf1 (by omega)
      exact Stream.single (tagged_tag hn.1 ⟨List.mem_cons_self,
        Or.inl (Or.inl ⟨rfl, m.wire_eq.symm, hp, rfl⟩)⟩)
  | _, .repeated num cap was (t := t) (rest := rest) m r, h, hd, hn, (v1, v2), hf, hl => by
    simp only [Fields.WF] at h
    simp only [Fields.numbers, List.mem_cons, forall_eq_or_imp] at hn
    have hd := List.nodup_cons.mp hd
    obtain ⟨⟨hf1, hf3⟩, hf2⟩ : ((v1.map m.shown).length ≤ was ∧ ∀ x ∈ v1.map m.shown, m.old.Fits x) ∧
      r.old.Fits (r.shown v2) := hf
    simp only [Fields.encodeWith, List.length_append] at hl ⊢
    have ih := Fields.Older.records_encode hsc r h.2.2 hd.2 hn.2 v2 hf2 (by omega)
    have ih' := OldStep.later (R' := (Fields.repeated num was m.old r.old).Record) (n := num)
      (olds' := num :: r.old.numbers) (f := fun x => (v1.map m.shown, x)) hd.1
      (fun _ _ _ _ _ hr => Or.inr ⟨hr, rfl⟩) (fun k hk => List.mem_cons.mp hk) ih
    refine Stream.append (v := (v1.map m.shown, r.old.dflt)) ?_ ih'
    have hpay : ∀ y ∈ v1, (t.wrap (t.encodeWith sc y)).length < 4294967296 →
        m.old.Payload (t.wrap (t.encodeWith sc y)) m.old.dflt (m.shown y) :=
      fun y hy hlen => ElemTy.Older.payload_encode hsc m h.2.1 y (hf3 _ (List.mem_map_of_mem hy)) hlen
    clear ih ih' hf2 hf3
    unfold encodeRepeated at hl ⊢
    cases hs : t.isScalar with
    | true =>
      have hs' : m.old.isScalar = true := m.isScalar_eq.trans hs
      simp only [hs, ↓reduceIte] at hl ⊢
      have hw : ∀ bs, t.wrap bs = bs := by
        cases t with
        | scalar s => intro _; rfl
        | str _ => exact nomatch hs
        | msg _ _ => exact nomatch hs
      cases v1 with
      | nil =>
        simp only [List.map_nil, List.isEmpty_nil, ↓reduceIte]
        exact Stream.nil _
      | cons y ys =>
        simp only [List.map_cons, List.isEmpty_cons, Bool.false_eq_true, ↓reduceIte,
          List.length_append, lenDelim] at hl
        simp only [List.map_cons, List.isEmpty_cons, Bool.false_eq_true, ↓reduceIte]
        refine Stream.single (tagged_tag hn.1 ⟨List.mem_cons_self, Or.inl (Or.inl ⟨rfl, rfl, hf1, rfl, ?_⟩)⟩)
        rw [if_pos hs']
        refine ⟨_, (y :: ys).map m.shown, delimited_lenDelim _ (by omega), ?_, rfl⟩
        have : ∀ l : List t.Val, (∀ z ∈ l, m.old.Payload (t.encodeWith sc z) m.old.dflt (m.shown z)) →
            Packed (fun b z => m.old.Payload b m.old.dflt z) (l.map (t.encodeWith sc)).flatten (l.map m.shown) := by
          intro l
          induction l with
          | nil => intro _; exact .nil
          | cons z l ih =>
            intro hz
            exact .cons (hz z List.mem_cons_self) (ih fun x hx => hz x (List.mem_cons_of_mem _ hx))
        have := this (y :: ys) (by
          intro z hz
          have := hpay z hz (by
            rw [hw]
            have := length_le_flatten (List.mem_map_of_mem (f := t.encodeWith sc) hz)
            simp only [List.map_cons] at this
            omega)
          rwa [hw] at this)
        simpa only [List.map_cons] using this
    | false =>
      have hs' : ¬ m.old.isScalar = true := by rw [m.isScalar_eq, hs]; decide
      simp only [hs, Bool.false_eq_true, ↓reduceIte] at hl ⊢
      have hw : ∀ bs, t.wrap bs = lenDelim bs := by
        cases t with
        | scalar s => exact nomatch hs
        | str _ => intro _; rfl
        | msg _ _ => intro _; rfl
      have : ∀ (l : List t.Val) (acc : List m.old.Val), acc.length + l.length ≤ was →
          (∀ y ∈ l, (t.wrap (t.encodeWith sc y)).length < 4294967296 →
            m.old.Payload (t.wrap (t.encodeWith sc y)) m.old.dflt (m.shown y)) →
          ((l.map (t.encodeWith sc)).map fun e => tag num .lengthDelimited ++ lenDelim e).flatten.length
            < 4294967296 →
          Stream (Tagged (OldStep (num :: rest.numbers) (num :: r.old.numbers) (Fields.repeated num was m.old r.old).Record))
            ((l.map (t.encodeWith sc)).map fun e => tag num .lengthDelimited ++ lenDelim e).flatten
            (acc, r.old.dflt) (acc ++ l.map m.shown, r.old.dflt) := by
        intro l
        induction l with
        | nil =>
          intro acc _ _ _
          simp only [List.map_nil, List.flatten_nil, List.append_nil]
          exact Stream.nil _
        | cons y ys ihy =>
          intro acc hacc hpay hl
          simp only [List.map_cons, List.flatten_cons, List.length_append, List.length_cons] at hl hacc ⊢
          have h1 : Tagged (OldStep (num :: rest.numbers) (num :: r.old.numbers)
              (Fields.repeated num was m.old r.old).Record)
              (tag num .lengthDelimited ++ lenDelim (t.encodeWith sc y)) (acc, r.old.dflt)
              (acc ++ [m.shown y], r.old.dflt) := by
            refine tagged_tag hn.1 ⟨List.mem_cons_self, Or.inl (Or.inl ⟨rfl, rfl, ?_, rfl, ?_⟩)⟩
            · show (acc ++ [m.shown y]).length ≤ was
              simp only [List.length_append, List.length_cons, List.length_nil]; omega
            · rw [if_neg hs']
              have := hpay y List.mem_cons_self (by rw [hw]; omega)
              rw [hw] at this
              exact ⟨_, this, rfl⟩
          have hacc' : (acc ++ [m.shown y]).length + ys.length ≤ was := by
            simp only [List.length_append, List.length_cons, List.length_nil]; omega
          have h2 := ihy (acc ++ [m.shown y]) hacc' (fun z hz => hpay z (List.mem_cons_of_mem _ hz)) (by omega)
          have e : acc ++ [m.shown y] ++ ys.map m.shown = acc ++ m.shown y :: ys.map m.shown := by simp
          rw [e] at h2
          exact Stream.cons h1 h2
      exact this v1 [] (by simpa using hf1) hpay (by omega)
  | _, .newPlain num t (rest := rest) r, h, hd, hn, (v1, v2), hf, hl => by
    simp only [Fields.WF] at h
    have hd := List.nodup_cons.mp hd
    have hn1 := hn
    simp only [Fields.numbers, List.mem_cons, forall_eq_or_imp] at hn
    have e : (Fields.plain num t rest).encodeWith sc (v1, v2) =
      (Fields.plain num t .nil).encodeWith sc (v1, ()) ++ rest.encodeWith sc v2 := by
      simp only [Fields.encodeWith, List.append_nil]
    rw [e, List.length_append] at hl
    rw [e]
    refine Stream.append (Concat.skipped ?_ (Fields.encode_syntax hsc (.plain num t .nil)
      ⟨h.1, trivial⟩ (by simpa [Fields.numbers] using hn.1) (v1, ()) (by omega)) _)
      (OldStep.later (n := num) (olds' := r.old.numbers) (f := fun x => x) hd.1 (fun _ _ _ _ _ hr => hr) (fun k hk => Or.inr hk)
        (Fields.Older.records_encode hsc r h.2 hd.2 hn.2 v2 hf (by omega)))
    intro num' wt p hs
    have := List.mem_singleton.mp hs.mem
    subst this
    exact ⟨List.mem_cons_self, fun hc => hd.1 (r.mem hc), hs.unknown⟩
  | _, .newOptional num t (rest := rest) r, h, hd, hn, (v1, v2), hf, hl => by
    simp only [Fields.WF] at h
    have hd := List.nodup_cons.mp hd
    simp only [Fields.numbers, List.mem_cons, forall_eq_or_imp] at hn
    have e : (Fields.optional num t rest).encodeWith sc (v1, v2) =
      (Fields.optional num t .nil).encodeWith sc (v1, ()) ++ rest.encodeWith sc v2 := by
      simp only [Fields.encodeWith, List.append_nil]
    rw [e, List.length_append] at hl
    rw [e]
    refine Stream.append (Concat.skipped ?_ (Fields.encode_syntax hsc (.optional num t .nil)
      ⟨h.1, trivial⟩ (by simpa [Fields.numbers] using hn.1) (v1, ()) (by omega)) _)
      (OldStep.later (n := num) (olds' := r.old.numbers) (f := fun x => x) hd.1 (fun _ _ _ _ _ hr => hr) (fun k hk => Or.inr hk)
        (Fields.Older.records_encode hsc r h.2 hd.2 hn.2 v2 hf (by omega)))
    intro num' wt p hs
    have := List.mem_singleton.mp hs.mem
    subst this
    exact ⟨List.mem_cons_self, fun hc => hd.1 (r.mem hc), hs.unknown⟩
  | _, .newRepeated num cap t (rest := rest) r, h, hd, hn, (v1, v2), hf, hl => by
    simp only [Fields.WF] at h
    have hd := List.nodup_cons.mp hd
    simp only [Fields.numbers, List.mem_cons, forall_eq_or_imp] at hn
    have e : (Fields.repeated num cap t rest).encodeWith sc (v1, v2) =
      (Fields.repeated num cap t .nil).encodeWith sc (v1, ()) ++ rest.encodeWith sc v2 := by
      simp only [Fields.encodeWith, List.append_nil]
    rw [e, List.length_append] at hl
    rw [e]
    refine Stream.append (Concat.skipped ?_ (Fields.encode_syntax hsc (.repeated num cap t .nil)
      ⟨h.1, h.2.1, trivial⟩ (by simpa [Fields.numbers] using hn.1) (v1, ()) (by omega)) _)
      (OldStep.later (n := num) (olds' := r.old.numbers) (f := fun x => x) hd.1 (fun _ _ _ _ _ hr => hr) (fun k hk => Or.inr hk)
        (Fields.Older.records_encode hsc r h.2.2 hd.2 hn.2 v2 hf (by omega)))
    intro num' wt p hs
    have := List.mem_singleton.mp hs.mem
    subst this
    exact ⟨List.mem_cons_self, fun hc => hd.1 (r.mem hc), hs.unknown⟩
theorem Alts.Older.record_encode (hsc : Readable sc) : {a : Alts} → (m : a.Older) → a.WF → a.numbers.Nodup →
    (∀ n ∈ a.numbers, n < 536870912) → (v : a.Val) → (∀ w, m.shown v = some w → m.old.Fits w) →
    (a.encodeWith sc v).length < 4294967296 →
    ∃ num wt p, num < 536870912 ∧ num ∈ a.numbers ∧ a.encodeWith sc v = tag num wt ++ p ∧
      ((∃ w, m.shown v = some w ∧ m.old.Record num wt p none w) ∨
       (m.shown v = none ∧ num ∉ m.old.numbers ∧ UnknownPayload wt p))
  | _, .nil, _, _, _, v, _, _ => nomatch v
  | _, .cons num (t := t) m r, h, hd, hn, .inl y, hf, hl => by
    simp only [Alts.WF] at h
    simp only [Alts.numbers, List.mem_cons, forall_eq_or_imp] at hn
    simp only [Alts.encodeWith, List.length_append] at hl ⊢
    exact ⟨num, t.wire, _, hn.1, List.mem_cons_self, rfl, Or.inl ⟨_, rfl, Or.inl ⟨rfl, m.wire_eq.symm, _,
      ElemTy.Older.payload_encode hsc m h.1 y (hf _ rfl) (by omega), rfl⟩⟩⟩
  | _, .cons num (t := t) m r, h, hd, hn, .inr y, hf, hl => by
    simp only [Alts.WF] at h
    simp only [Alts.numbers, List.mem_cons, forall_eq_or_imp] at hn
    simp only [Alts.encodeWith] at hl ⊢
    have hd := List.nodup_cons.mp hd
    obtain ⟨num', wt, p, h1, h2, h3, h4⟩ := Alts.Older.record_encode hsc r h.2 hd.2 hn.2 y (by
      intro w hw
      exact hf (.inr w) (by show (r.shown y).map Sum.inr = _; rw [hw]; rfl)) hl
    refine ⟨num', wt, p, h1, List.mem_cons_of_mem _ h2, h3, ?_⟩
    rcases h4 with ⟨w, h5, h6⟩ | ⟨h5, h6, h7⟩
    · exact Or.inl ⟨.inr w, by show (r.shown y).map Sum.inr = _; rw [h5]; rfl, Or.inr ⟨w, h6, rfl⟩⟩
    · refine Or.inr ⟨by show (r.shown y).map Sum.inr = _; rw [h5]; rfl, fun hc => ?_, h7⟩
      rcases List.mem_cons.mp hc with rfl | hc
      · exact hd.1 h2
      · exact h6 hc
  | _, .newMember num t (rest := rest) r, h, hd, hn, .inl y, hf, hl => by
    have hd := List.nodup_cons.mp hd
    have hs := ElemTy.encode_syntax hsc t h.1 y (by
      simp only [Alts.encodeWith, List.length_append] at hl; omega)
    exact ⟨num, t.wire, _, hn num List.mem_cons_self, List.mem_cons_self, rfl,
      Or.inr ⟨rfl, fun hc => hd.1 (r.mem hc), hs.unknown⟩⟩
  | _, .newMember num t (rest := rest) r, h, hd, hn, .inr y, hf, hl => by
    have hd := List.nodup_cons.mp hd
    simp only [Alts.numbers, List.mem_cons, forall_eq_or_imp] at hn
    obtain ⟨num', wt, p, h1, h2, h3, h4⟩ := Alts.Older.record_encode hsc r h.2 hd.2 hn.2 y hf hl
    exact ⟨num', wt, p, h1, List.mem_cons_of_mem _ h2, h3, h4⟩
theorem Oneofs.Older.records_encode (hsc : Readable sc) : {os : Oneofs} → (m : os.Older) → os.WF →
    os.numbers.Nodup → (∀ n ∈ os.numbers, n < 536870912) → (v : os.Val) → m.old.Fits (m.shown v) →
    (os.encodeWith sc v).length < 4294967296 →
    Stream (Tagged (OldStep os.numbers m.old.numbers m.old.Record)) (os.encodeWith sc v) m.old.dflt (m.shown v)
  | _, .nil, _, _, _, _, _, _ => Stream.nil _
  | _, .cons (a := a) (rest := rest) m r, h, hd, hn, (v1, v2), hf, hl => by
    simp only [Oneofs.WF] at h
    have hd := List.nodup_append.mp hd
    have hn' : ∀ n ∈ a.numbers ++ rest.numbers, n < 536870912 := hn
    obtain ⟨hf1, hf2⟩ : (∀ x, v1.bind m.shown = some x → m.old.Fits x) ∧ r.old.Fits (r.shown v2) := hf
    simp only [Oneofs.encodeWith, List.length_append] at hl ⊢
    have ih := Oneofs.Older.records_encode hsc r h.2 hd.2.1 (fun n hn => hn' n (List.mem_append_right _ hn)) v2 hf2
      (by omega)
    have ih' := Stream.map (Step' := Tagged (OldStep (a.numbers ++ rest.numbers) (m.old.numbers ++ r.old.numbers)
      (Oneofs.cons m.old r.old).Record)) (f := fun x : r.old.Val => (v1.bind m.shown, x)) (by
        rintro bs c b ⟨num, wt, t, p, ht, he, hm, hR⟩
        refine ⟨num, wt, t, p, ht, he, List.mem_append_right _ hm, ?_⟩
        rcases hR with hR | ⟨k1, k2, rfl⟩
        · exact Or.inl (Or.inr ⟨hR, rfl⟩)
        · refine Or.inr ⟨fun hc => ?_, k2, rfl⟩
          rcases List.mem_append.mp hc with hc | hc
          · exact hd.2.2 num (m.mem hc) num hm rfl
          · exact k1 hc) ih
    refine Stream.append (v := (v1.bind m.shown, r.old.dflt)) ?_ ih'
    cases v1 with
    | none => exact Stream.nil _
    | some y =>
      simp only at hl ⊢
      obtain ⟨num, wt, p, h1, h2, h3, h4⟩ := Alts.Older.record_encode hsc m h.1 hd.1
        (fun n hn => hn' n (List.mem_append_left _ hn)) y hf1 (by omega)
      rw [h3]
      rcases h4 with ⟨w, h5, h6⟩ | ⟨h5, h6, h7⟩
      · exact Stream.single (tagged_tag h1 ⟨List.mem_append_left _ h2, Or.inl (Or.inl ⟨⟨w, h6, h5⟩, rfl⟩)⟩)
      · rw [Option.bind_some, h5]
        refine Stream.single (tagged_tag h1 ⟨List.mem_append_left _ h2, Or.inr ⟨fun hc => ?_, h7, rfl⟩⟩)
        rcases List.mem_append.mp hc with hc | hc
        · exact h6 hc
        · exact hd.2.2 num h2 num (r.mem hc) rfl
  | _, .newOneof a (rest := rest) r, h, hd, hn, (v1, v2), hf, hl => by
    simp only [Oneofs.WF] at h
    have hd := List.nodup_append.mp hd
    have hn' : ∀ n ∈ a.numbers ++ rest.numbers, n < 536870912 := hn
    have e : (Oneofs.cons a rest).encodeWith sc (v1, v2) =
      (Oneofs.cons a .nil).encodeWith sc (v1, ()) ++ rest.encodeWith sc v2 := by
      simp only [Oneofs.encodeWith, List.append_nil]
    rw [e, List.length_append] at hl
    rw [e]
    have ih := Oneofs.Older.records_encode hsc r h.2 hd.2.1 (fun n hn => hn' n (List.mem_append_right _ hn)) v2 hf
      (by omega)
    have ih' := Stream.map (Step' := Tagged (OldStep (a.numbers ++ rest.numbers) r.old.numbers r.old.Record))
      (f := fun x : r.old.Val => x) (by
        rintro bs c b ⟨num, wt, t, p, ht, he, hm, hR⟩
        exact ⟨num, wt, t, p, ht, he, List.mem_append_right _ hm, hR⟩) ih
    refine Stream.append (Concat.skipped ?_ (Oneofs.encode_syntax hsc (.cons a .nil) ⟨h.1, trivial⟩ (by
      intro n hn
      simp only [Oneofs.numbers, List.append_nil] at hn
      exact hn' n (List.mem_append_left _ hn)) (v1, ()) (by omega)) _) ih'
    intro num wt p hs
    have hm := hs.mem
    simp only [Oneofs.numbers, List.append_nil] at hm
    exact ⟨List.mem_append_left _ hm, fun hc => hd.2.2 num hm num (r.mem hc) rfl, hs.unknown⟩
end

/-- The records of an encoding, for a receiver with the older declaration. -/
theorem records_older (hsc : Readable sc) {fs : Fields} {os : Oneofs} (h : (ElemTy.msg fs os).WF) (f : fs.Older)
    (o : os.Older) (v : (ElemTy.msg fs os).Val)
    (hf : (ElemTy.Older.msg f o).old.Fits ((ElemTy.Older.msg f o).shown v))
    (hl : ((ElemTy.msg fs os).encodeWith sc v).length < 4294967296) :
    Records f.old o.old ((ElemTy.msg fs os).encodeWith sc v) (f.old.dflt, o.old.dflt) (f.shown v.1, o.shown v.2) := by
  have h' := h
  simp only [ElemTy.WF] at h'
  obtain ⟨hf1, hf2⟩ : f.old.Fits (f.shown v.1) ∧ o.old.Fits (o.shown v.2) := hf
  have hl : (fs.encodeWith sc v.1 ++ os.encodeWith sc v.2).length < 4294967296 := hl
  rw [List.length_append] at hl
  exact records_of_old h f o (u := (f.old.dflt, o.old.dflt)) (v := (f.shown v.1, o.shown v.2))
    (Fields.Older.records_encode hsc f h'.1 (List.nodup_append.mp h'.2.2.1).1
      (fun n hn => (h'.2.2.2 n (List.mem_append_left _ hn)).2) v.1 hf1 (by omega))
    (Oneofs.Older.records_encode hsc o h'.2.1 (List.nodup_append.mp h'.2.2.1).2.1
      (fun n hn => (h'.2.2.2 n (List.mem_append_right _ hn)).2) v.2 hf2 (by omega))

end

/-! ## Any well formed records -/

theorem recordStep_older {fs : Fields} {os : Oneofs} (h : (ElemTy.msg fs os).WF) (f : fs.Older) (o : os.Older)
    (hf : ∀ {num wt bs} {u v : fs.Val}, fs.Record num wt bs u v → f.old.Record num wt bs (f.shown u) (f.shown v) ∨
      (num ∉ f.old.numbers ∧ UnknownPayload wt bs ∧ f.shown v = f.shown u))
    (ho : ∀ {num wt bs} {u v : os.Val}, os.Record num wt bs u v → o.old.Record num wt bs (o.shown u) (o.shown v) ∨
      (num ∉ o.old.numbers ∧ UnknownPayload wt bs ∧ o.shown v = o.shown u))
    {bs : List Byte} {u v : fs.Val × os.Val} (hr : Records fs os bs u v) :
    Records f.old o.old bs (f.shown u.1, o.shown u.2) (f.shown v.1, o.shown v.2) := by
  simp only [ElemTy.WF] at h
  have hd := List.nodup_append.mp h.2.2.1
  refine Stream.map (f := fun x : fs.Val × os.Val => (f.shown x.1, o.shown x.2)) ?_ hr
  rintro bs a b ⟨num, wt, t, p, ht, he, hR⟩
  refine ⟨num, wt, t, p, ht, he, ?_⟩
  rcases hR with ⟨hR, e⟩ | ⟨hR, e⟩ | ⟨k1, k2, k3, rfl⟩
  · have hm := (Fields.Record.syntax fs _ _ _ _ _ hR).mem
    rcases hf hR with hR | ⟨k1, k2, k3⟩
    · exact Or.inl ⟨hR, congrArg o.shown e⟩
    · refine Or.inr (Or.inr ⟨(h.2.2.2 num (List.mem_append_left _ hm)).1, fun hc => ?_, k2,
        pair_eq k3 (congrArg o.shown e)⟩)
      rcases List.mem_append.mp hc with hc | hc
      · exact k1 hc
      · exact hd.2.2 num hm num (o.mem hc) rfl
  · have hm := (Oneofs.Record.syntax os _ _ _ _ _ hR).mem
    rcases ho hR with hR | ⟨k1, k2, k3⟩
    · exact Or.inr (Or.inl ⟨hR, congrArg f.shown e⟩)
    · refine Or.inr (Or.inr ⟨(h.2.2.2 num (List.mem_append_right _ hm)).1, fun hc => ?_, k2,
        pair_eq (congrArg f.shown e) k3⟩)
      rcases List.mem_append.mp hc with hc | hc
      · exact hd.2.2 num (f.mem hc) num hm rfl
      · exact k1 hc
  · refine Or.inr (Or.inr ⟨k1, fun hc => k2 ?_, k3, rfl⟩)
    rcases List.mem_append.mp hc with hc | hc
    · exact List.mem_append_left _ (f.mem hc)
    · exact List.mem_append_right _ (o.mem hc)

theorem Alts.Older.shown_some : (a : Alts) → (r : a.Older) → r.Roomy → ∀ x, ∃ y, r.shown x = some y
  | _, .nil, _, x => nomatch x
  | _, .cons _ m r, hr, x => by
    rcases x with x | x
    · exact ⟨_, rfl⟩
    · obtain ⟨y, hy⟩ := Alts.Older.shown_some _ r hr.2 x
      exact ⟨.inr y, by show (r.shown x).map Sum.inr = _; rw [hy]; rfl⟩
  | _, .newMember _ _ _, hr, _ => nomatch hr

mutual
theorem ElemTy.Older.payload : {t : ElemTy} → (m : t.Older) → t.WF → m.Roomy → {bs : List Byte} → {u v : t.Val} →
    t.Payload bs u v → m.old.Payload bs (m.shown u) (m.shown v)
  | _, .scalar _, _, _, _, _, _, hp => hp
  | _, .str cap was, _, hr, _, _, _, hp => ⟨hp.1, Nat.le_trans hp.2 hr⟩
  | _, .msg (fs := fs) (os := os) f o, h, hr, bs, u, v, hp => by
    obtain ⟨body, h1, h2⟩ := hp
    have h' := h
    simp only [ElemTy.WF] at h'
    have hd := List.nodup_append.mp h'.2.2.1
    exact ⟨body, h1, recordStep_older h f o (fun hR => Fields.Older.record f h'.1 hr.1 hd.1 hR)
      (fun hR => Oneofs.Older.record o h'.2.1 hr.2 hd.2.1 hR) h2⟩
theorem Fields.Older.record : {fs : Fields} → (m : fs.Older) → fs.WF → m.Roomy → fs.numbers.Nodup → {num : Nat} →
    {wt : WireType} → {bs : List Byte} → {u v : fs.Val} → fs.Record num wt bs u v →
    m.old.Record num wt bs (m.shown u) (m.shown v) ∨
      (num ∉ m.old.numbers ∧ UnknownPayload wt bs ∧ m.shown v = m.shown u)
  | _, .nil, _, _, _, _, _, _, _, _, h => nomatch h
  | _, .plain n (t := t) (rest := rest) m r, h, hr, hd, num, wt, bs, u, v, hp => by
    simp only [Fields.WF] at h
    have hd := List.nodup_cons.mp hd
    rcases hp with ⟨h1, h2, h3, h4⟩ | ⟨h1, h2⟩
    · exact Or.inl (Or.inl ⟨h1, h2.trans m.wire_eq.symm, ElemTy.Older.payload m h.1 hr.1 h3, congrArg r.shown h4⟩)
    · have hm := (Fields.Record.syntax rest _ _ _ _ _ h1).mem
      rcases Fields.Older.record r h.2 hr.2 hd.2 h1 with h1 | ⟨k1, k2, k3⟩
      · exact Or.inl (Or.inr ⟨h1, congrArg m.shown h2⟩)
      · refine Or.inr ⟨fun hc => ?_, k2, pair_eq (congrArg m.shown h2) k3⟩
        rcases List.mem_cons.mp hc with rfl | hc
        · exact hd.1 hm
        · exact k1 hc
  | _, .optional n (t := t) (rest := rest) m r, h, hr, hd, num, wt, bs, (u1, u2), (v1, v2), hp => by
    simp only [Fields.WF] at h
    have hd := List.nodup_cons.mp hd
    rcases hp with ⟨h1, h2, ⟨y, h3, h5⟩, h4⟩ | ⟨h1, h2⟩
    · refine Or.inl (Or.inl ⟨h1, h2.trans m.wire_eq.symm, ⟨m.shown y, ?_, congrArg (Option.map m.shown) h5⟩,
        congrArg r.shown h4⟩)
      have e : (Option.map m.shown u1).getD m.old.dflt = m.shown (u1.getD t.dflt) := by
        cases u1 with
        | none => exact m.shown_dflt.symm
        | some x => rfl
      exact e.symm ▸ ElemTy.Older.payload m h.1 hr.1 h3
    · have hm := (Fields.Record.syntax rest _ _ _ _ _ h1).mem
      rcases Fields.Older.record r h.2 hr.2 hd.2 h1 with h1 | ⟨k1, k2, k3⟩
      · exact Or.inl (Or.inr ⟨h1, congrArg (Option.map m.shown) h2⟩)
      · refine Or.inr ⟨fun hc => ?_, k2, pair_eq (congrArg (Option.map m.shown) h2) k3⟩
        rcases List.mem_cons.mp hc with rfl | hc
        · exact hd.1 hm
        · exact k1 hc
  | _, .madeOptional n (t := t) (rest := rest) m r, h, hr, hd, num, wt, bs, (u1, u2), (v1, v2), hp => by
    simp only [Fields.WF] at h
    have hd := List.nodup_cons.mp hd
    rcases hp with ⟨h1, h2, ⟨y, h3, h5⟩, h4⟩ | ⟨h1, h2⟩
    · have h5 : v1 = some y := h5
      subst h5
      exact Or.inl (Or.inl ⟨h1, h2.trans m.wire_eq.symm, ElemTy.Older.payload m h.1 hr.1 h3, congrArg r.shown h4⟩)
    · have h2 : v1 = u1 := h2
      subst h2
      have hm := (Fields.Record.syntax rest _ _ _ _ _ h1).mem
      rcases Fields.Older.record r h.2 hr.2 hd.2 h1 with h1 | ⟨k1, k2, k3⟩
      · exact Or.inl (Or.inr ⟨h1, rfl⟩)
      · refine Or.inr ⟨fun hc => ?_, k2, congrArg (Prod.mk _) k3⟩
        rcases List.mem_cons.mp hc with rfl | hc
        · exact hd.1 hm
        · exact k1 hc
  | _, .repeated n cap was (t := t) (rest := rest) m r, h, hr, hd, num, wt, bs, (u1, u2), (v1, v2), hp => by
    simp only [Fields.WF] at h
    have hd := List.nodup_cons.mp hd
    have ih : ∀ b y, t.Payload b t.dflt y → m.old.Payload b m.old.dflt (m.shown y) :=
      fun b y hb => m.shown_dflt ▸ ElemTy.Older.payload m h.2.1 hr.2.1 hb
    rcases hp with ⟨h1, h2, h3, h4, h5⟩ | ⟨h1, h2⟩
    · refine Or.inl (Or.inl ⟨h1, h2, ?_, congrArg r.shown h4, ?_⟩)
      · exact (List.length_map m.shown).symm ▸ Nat.le_trans h3 hr.1
      · by_cases hs : t.isScalar = true
        · rw [if_pos hs] at h5
          rw [if_pos (m.isScalar_eq.trans hs)]
          obtain ⟨body, ys, g1, g2, g3⟩ := h5
          have g3 : v1 = u1 ++ ys := g3
          refine ⟨body, ys.map m.shown, g1, ?_, by
            show v1.map m.shown = u1.map m.shown ++ ys.map m.shown
            rw [g3, List.map_append]⟩
          have key : ∀ bs ys, Packed (fun b y => t.Payload b t.dflt y) bs ys →
              Packed (fun b y => m.old.Payload b m.old.dflt y) bs (ys.map m.shown) := by
            intro bs ys g
            induction g with
            | nil => exact .nil
            | cons k1 _ k3 => exact .cons (ih _ _ k1) k3
          exact key _ _ g2
        · rw [if_neg hs] at h5
          rw [if_neg (by rw [m.isScalar_eq]; exact hs)]
          obtain ⟨y, g1, g2⟩ := h5
          have g2 : v1 = u1 ++ [y] := g2
          exact ⟨m.shown y, ih _ _ g1, by
            show v1.map m.shown = u1.map m.shown ++ [m.shown y]
            rw [g2, List.map_append]; rfl⟩
    · have hm := (Fields.Record.syntax rest _ _ _ _ _ h1).mem
      rcases Fields.Older.record r h.2.2 hr.2.2 hd.2 h1 with h1 | ⟨k1, k2, k3⟩
      · exact Or.inl (Or.inr ⟨h1, congrArg (List.map m.shown) h2⟩)
      · refine Or.inr ⟨fun hc => ?_, k2, pair_eq (congrArg (List.map m.shown) h2) k3⟩
        rcases List.mem_cons.mp hc with rfl | hc
        · exact hd.1 hm
        · exact k1 hc
  | _, .newPlain n t (rest := rest) r, h, hr, hd, num, wt, bs, u, v, hp => by
    have hs := Fields.Record.syntax _ _ _ _ _ _ hp
    simp only [Fields.WF] at h
    have hd := List.nodup_cons.mp hd
    rcases hp with ⟨h1, _, _, h4⟩ | ⟨h1, _⟩
    · exact Or.inr ⟨fun hc => hd.1 (h1 ▸ r.mem hc), hs.unknown, congrArg r.shown h4⟩
    · exact Fields.Older.record r h.2 hr hd.2 h1
  | _, .newOptional n t (rest := rest) r, h, hr, hd, num, wt, bs, u, v, hp => by
    have hs := Fields.Record.syntax _ _ _ _ _ _ hp
    simp only [Fields.WF] at h
    have hd := List.nodup_cons.mp hd
    rcases hp with ⟨h1, _, _, h4⟩ | ⟨h1, _⟩
    · exact Or.inr ⟨fun hc => hd.1 (h1 ▸ r.mem hc), hs.unknown, congrArg r.shown h4⟩
    · exact Fields.Older.record r h.2 hr hd.2 h1
  | _, .newRepeated n cap t (rest := rest) r, h, hr, hd, num, wt, bs, u, v, hp => by
    have hs := Fields.Record.syntax _ _ _ _ _ _ hp
    simp only [Fields.WF] at h
    have hd := List.nodup_cons.mp hd
    rcases hp with ⟨h1, _, _, h4, _⟩ | ⟨h1, _⟩
    · exact Or.inr ⟨fun hc => hd.1 (h1 ▸ r.mem hc), hs.unknown, congrArg r.shown h4⟩
    · exact Fields.Older.record r h.2.2 hr hd.2 h1
theorem Alts.Older.record : {a : Alts} → (m : a.Older) → a.WF → m.Roomy → {num : Nat} → {wt : WireType} →
    {bs : List Byte} → {u : Option a.Val} → {v : a.Val} → a.Record num wt bs u v →
    ∃ w, m.shown v = some w ∧ m.old.Record num wt bs (u.bind m.shown) w
  | _, .nil, _, _, _, _, _, _, _, h => nomatch h
  | _, .cons n (t := t) (rest := rest) m r, h, hr, num, wt, bs, u, v, hp => by
    simp only [Alts.WF] at h
    rcases hp with ⟨h1, h2, y, h3, rfl⟩ | ⟨y, h1, rfl⟩
    · refine ⟨.inl (m.shown y), rfl, Or.inl ⟨h1, h2.trans m.wire_eq.symm, m.shown y, ?_, rfl⟩⟩
      have e : leftD m.old.dflt (u.bind (Alts.Older.cons n m r).shown) = m.shown (leftD t.dflt u) := by
        rcases u with _ | (x | x)
        · exact m.shown_dflt.symm
        · rfl
        · obtain ⟨z, hz⟩ := Alts.Older.shown_some _ r hr.2 x
          have e : (some (Sum.inr x) : Option (Alts.cons n t rest).Val).bind (Alts.Older.cons n m r).shown = some (.inr z) := by
            show (r.shown x).map Sum.inr = _
            rw [hz]; rfl
          exact (congrArg (leftD m.old.dflt) e).trans m.shown_dflt.symm
      exact e.symm ▸ ElemTy.Older.payload m h.1 hr.1 h3
    · obtain ⟨w, g1, g2⟩ := Alts.Older.record r h.2 hr.2 h1
      refine ⟨.inr w, by show (r.shown y).map Sum.inr = _; rw [g1]; rfl, Or.inr ⟨w, ?_, rfl⟩⟩
      have e : rightOf (u.bind (Alts.Older.cons n m r).shown) = (rightOf u).bind r.shown := by
        rcases u with _ | (x | x)
        · rfl
        · rfl
        · obtain ⟨z, hz⟩ := Alts.Older.shown_some _ r hr.2 x
          show rightOf ((r.shown x).map Sum.inr) = r.shown x
          rw [hz]; rfl
      exact e.symm ▸ g2
  | _, .newMember _ _ _, _, hr, _, _, _, _, _, _ => nomatch hr
theorem Oneofs.Older.record : {os : Oneofs} → (m : os.Older) → os.WF → m.Roomy → os.numbers.Nodup → {num : Nat} →
    {wt : WireType} → {bs : List Byte} → {u v : os.Val} → os.Record num wt bs u v →
    m.old.Record num wt bs (m.shown u) (m.shown v) ∨
      (num ∉ m.old.numbers ∧ UnknownPayload wt bs ∧ m.shown v = m.shown u)
  | _, .nil, _, _, _, _, _, _, _, _, h => nomatch h
  | _, .cons (a := a) (rest := rest) m r, h, hr, hd, num, wt, bs, (u1, u2), (v1, v2), hp => by
    simp only [Oneofs.WF] at h
    have hd := List.nodup_append.mp hd
    rcases hp with ⟨⟨y, h1, h2⟩, h3⟩ | ⟨h1, h2⟩
    · have h2 : v1 = some y := h2
      subst h2
      obtain ⟨w, g1, g2⟩ := Alts.Older.record m h.1 hr.1 h1
      exact Or.inl (Or.inl ⟨⟨w, g2, g1⟩, congrArg r.shown h3⟩)
    · have h2 : v1 = u1 := h2
      subst h2
      have hm := (Oneofs.Record.syntax rest _ _ _ _ _ h1).mem
      rcases Oneofs.Older.record r h.2 hr.2 hd.2.1 h1 with h1 | ⟨k1, k2, k3⟩
      · exact Or.inl (Or.inr ⟨h1, rfl⟩)
      · refine Or.inr ⟨fun hc => ?_, k2, congrArg (Prod.mk _) k3⟩
        rcases List.mem_append.mp hc with hc | hc
        · exact hd.2.2 num (m.mem hc) num hm rfl
        · exact k1 hc
  | _, .newOneof a (rest := rest) r, h, hr, hd, num, wt, bs, u, v, hp => by
    have hs := Oneofs.Record.syntax _ _ _ _ _ _ hp
    simp only [Oneofs.WF] at h
    have hd := List.nodup_append.mp hd
    rcases hp with ⟨⟨y, h1, _⟩, h3⟩ | ⟨h1, h2⟩
    · have hm := (Alts.Record.syntax a _ _ _ _ _ h1).mem
      exact Or.inr ⟨fun hc => hd.2.2 num hm num (r.mem hc) rfl, hs.unknown, congrArg r.shown h3⟩
    · exact Oneofs.Older.record r h.2 hr hd.2.1 h1
end

/-- Well formed records of the newer declaration are well formed records of the older one, with the effect the
older one shows. -/
theorem Records.older {fs : Fields} {os : Oneofs} (h : (ElemTy.msg fs os).WF) (f : fs.Older) (o : os.Older)
    (hf : f.Roomy) (ho : o.Roomy) {bs : List Byte} {u v : fs.Val × os.Val} (hr : Records fs os bs u v) :
    Records f.old o.old bs (f.shown u.1, o.shown u.2) (f.shown v.1, o.shown v.2) := by
  have h' := h
  simp only [ElemTy.WF] at h'
  have hd := List.nodup_append.mp h'.2.2.1
  exact recordStep_older h f o (fun hR => Fields.Older.record f h'.1 hf hd.1 hR)
    (fun hR => Oneofs.Older.record o h'.2.1 ho hd.2.1 hR) hr

end EP
