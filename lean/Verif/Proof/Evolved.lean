import Verif.Spec.Evolved
import Verif.Spec.Older
import Verif.Proof.GenInstance

/-! # Newer versions of `.proto` files: the types of their classes -/

namespace EP.Gen

variable {own : Str}

/-- The second type is a newer version of the first. -/
def IsOlder (s t : ElemTy) : Prop := ∃ m : t.Older, m.old = s

def FOlder (s t : Fields) : Prop := ∃ m : t.Older, m.old = s
def AOlder (s t : Alts) : Prop := ∃ m : t.Older, m.old = s
def OOlder (s t : Oneofs) : Prop := ∃ m : t.Older, m.old = s

theorem classFields_cons (E : Types) (f : FieldDesc) (l : List FieldDesc) :
    classFields E ((f :: l).map (factory own · none)) =
      if f.typeName = own then classFields E (l.map (factory own · none))
      else if f.repeated = true then
        .repeated f.number (if f.maxLength = 0 then E.repLength f else f.maxLength) (E.elem f)
          (classFields E (l.map (factory own · none)))
      else if f.proto3Optional = true then .optional f.number (E.elem f) (classFields E (l.map (factory own · none)))
      else .plain f.number (E.elem f) (classFields E (l.map (factory own · none))) := by
  rw [List.map_cons, classFields]
  simp only [factory]
  by_cases h1 : f.typeName = own
  · rw [if_pos h1, if_pos h1]
  · rw [if_neg h1, if_neg h1]
    by_cases h2 : f.repeated = true
    · rw [if_pos h2, if_pos h2]
      rfl
    · rw [if_neg h2, if_neg h2]
      rfl

theorem classAlts_cons (E : Types) (i : Nat) (f : FieldDesc) (l : List FieldDesc) :
    classAlts E ((f :: l).map (factory own · (some i))) =
      if f.typeName = own then classAlts E (l.map (factory own · (some i)))
      else .cons f.number (E.elem f) (classAlts E (l.map (factory own · (some i)))) := by
  rw [List.map_cons, classAlts]
  simp only [factory]
  by_cases h1 : f.typeName = own
  · rw [if_pos h1, if_pos h1]
  · rw [if_neg h1, if_neg h1]
    by_cases h2 : f.repeated = true
    · rw [if_pos h2]
    · rw [if_neg h2]

theorem classFields_older {E E' : Types} : ∀ {l m : List FieldDesc}, Grown KeptField l m →
    (∀ f ∈ l, ∀ g ∈ m, SameField f g → f.typeName ≠ own → IsOlder (E.elem f) (E'.elem g)) →
    FOlder (classFields E (l.map (factory own · none))) (classFields E' (m.map (factory own · none)))
  | _, _, .nil, _ => ⟨.nil, rfl⟩
  | _, _, .keep (a := f) (b := g) (l := l) (m := m) h hr, hE => by
    obtain ⟨r, er⟩ := classFields_older hr (fun f hf g hg => hE f (List.mem_cons_of_mem _ hf) g (List.mem_cons_of_mem _ hg))
    rw [classFields_cons, classFields_cons, ← h.typeName, ← h.repeated, ← h.number]
    by_cases h1 : f.typeName = own
    · rw [if_pos h1, if_pos h1]
      exact ⟨r, er⟩
    · rw [if_neg h1, if_neg h1]
      obtain ⟨t, et⟩ := hE f (List.mem_cons_self ..) g (List.mem_cons_self ..) h.toSameField h1
      by_cases h2 : f.repeated = true
      · rw [if_pos h2, if_pos h2]
        exact ⟨.repeated _ _ _ t r, by rw [Fields.Older.old, et, er]⟩
      · rw [if_neg h2, if_neg h2]
        by_cases h3 : f.proto3Optional = true
        · rw [if_pos h3, if_pos (h.optional h3)]
          exact ⟨.optional _ t r, by rw [Fields.Older.old, et, er]⟩
        · rw [if_neg h3]
          by_cases h4 : g.proto3Optional = true
          · rw [if_pos h4]
            exact ⟨.madeOptional _ t r, by rw [Fields.Older.old, et, er]⟩
          · rw [if_neg h4]
            exact ⟨.plain _ t r, by rw [Fields.Older.old, et, er]⟩
  | _, _, .new (b := g) (l := l) (m := m) hr, hE => by
    obtain ⟨r, er⟩ := classFields_older hr (fun f hf g hg => hE f hf g (List.mem_cons_of_mem _ hg))
    rw [classFields_cons E']
    by_cases h1 : g.typeName = own
    · rw [if_pos h1]
      exact ⟨r, er⟩
    · rw [if_neg h1]
      by_cases h2 : g.repeated = true
      · rw [if_pos h2]
        exact ⟨.newRepeated _ _ _ r, er⟩
      · rw [if_neg h2]
        by_cases h4 : g.proto3Optional = true
        · rw [if_pos h4]
          exact ⟨.newOptional _ _ r, er⟩
        · rw [if_neg h4]
          exact ⟨.newPlain _ _ r, er⟩

theorem classAlts_older {E E' : Types} {i j : Nat} : ∀ {l m : List FieldDesc}, Grown SameField l m →
    (∀ f ∈ l, ∀ g ∈ m, SameField f g → f.typeName ≠ own → IsOlder (E.elem f) (E'.elem g)) →
    AOlder (classAlts E (l.map (factory own · (some i)))) (classAlts E' (m.map (factory own · (some j))))
  | _, _, .nil, _ => ⟨.nil, rfl⟩
  | _, _, .keep (a := f) (b := g) (l := l) (m := m) h hr, hE => by
    obtain ⟨r, er⟩ := classAlts_older (i := i) (j := j) hr
      (fun f hf g hg => hE f (List.mem_cons_of_mem _ hf) g (List.mem_cons_of_mem _ hg))
    rw [classAlts_cons, classAlts_cons, ← h.typeName, ← h.number]
    by_cases h1 : f.typeName = own
    · rw [if_pos h1, if_pos h1]
      exact ⟨r, er⟩
    · rw [if_neg h1, if_neg h1]
      obtain ⟨t, et⟩ := hE f (List.mem_cons_self ..) g (List.mem_cons_self ..) h h1
      exact ⟨.cons _ t r, by rw [Alts.Older.old, et, er]⟩
  | _, _, .new (b := g) (l := l) (m := m) hr, hE => by
    obtain ⟨r, er⟩ := classAlts_older (i := i) (j := j) hr (fun f hf g hg => hE f hf g (List.mem_cons_of_mem _ hg))
    rw [classAlts_cons E']
    by_cases h1 : g.typeName = own
    · rw [if_pos h1]
      exact ⟨r, er⟩
    · rw [if_neg h1]
      exact ⟨.newMember _ _ r, er⟩

/-- What the loop over the oneofs makes: one for each that is not made up. -/
theorem mkOneofs_groups {m : MsgDesc} (h : FieldsValid m.fields m.oneofs) : ∀ (ns : List Str) (i : Nat) {os : List GOneof},
    i + ns.length = m.oneofs.length → mkOneofs own m.fields ns i = .ok os →
    ∃ ks : List Nat, os.map (·.fields) = ks.map (fun k => (group m k).map (factory own · (some k))) ∧
      ks.map (group m) = ((List.range' i ns.length).map (group m)).filter fun l => l.all fun f => !f.proto3Optional
  | [], i, os, _, e => by
    cases e
    exact ⟨[], rfl, rfl⟩
  | n :: ns, i, os, hi, e => by
    simp only [List.length_cons] at hi
    rw [mkOneofs] at e
    have hg : (mkOneof own m.fields n i).fields = (group m i).map (factory own · (some i)) := rfl
    rw [hg] at e
    rw [List.length_cons, List.range'_succ, List.map_cons]
    cases hq : group m i with
    | nil => rw [hq] at e; exact nomatch e
    | cons f l =>
      rw [hq] at e
      have hf : f ∈ group m i := by rw [hq]; exact List.mem_cons_self ..
      obtain ⟨hf1, hf2⟩ := List.mem_filter.mp hf
      have hf2 : f.oneofIndex = some i := by simpa using hf2
      simp only [List.map_cons, factory] at e
      cases ho : f.proto3Optional with
      | true =>
        rw [if_pos ho] at e
        obtain ⟨ks, k1, k2⟩ := mkOneofs_groups h ns (i + 1) (by omega) e
        refine ⟨ks, k1, ?_⟩
        rw [k2, List.filter_cons_of_neg]
        simp [ho]
      | false =>
        rw [ho] at e
        simp only [Bool.false_eq_true, if_false] at e
        cases hr : mkOneofs own m.fields ns (i + 1) with
        | error x => rw [hr] at e; exact nomatch e
        | ok os' =>
          rw [hr] at e
          injection e with e
          subst e
          obtain ⟨ks, k1, k2⟩ := mkOneofs_groups h ns (i + 1) (by omega) hr
          refine ⟨i :: ks, by rw [List.map_cons, List.map_cons, k1, hg], ?_⟩
          rw [List.map_cons, k2, hq, List.filter_cons_of_pos]
          rw [List.all_eq_true]
          intro g hgm
          rw [← hq] at hgm
          obtain ⟨g1, g2⟩ := List.mem_filter.mp hgm
          have g2 : g.oneofIndex = some i := by simpa using g2
          cases hgo : g.proto3Optional with
          | false => rfl
          | true =>
            obtain ⟨j, j1, j2⟩ := h.optional g g1 hgo
            rw [g2] at j1
            injection j1 with j1
            subst j1
            rw [← j2 f hf1 hf2, ho] at hgo
            exact nomatch hgo

theorem classOneofs_older {E E' : Types} {F F' : Nat → List FieldDesc} : ∀ {ks ks' : List Nat} {os os' : List GOneof},
    Grown (Grown SameField) (ks.map F) (ks'.map F') →
    os.map (·.fields) = ks.map (fun k => (F k).map (factory own · (some k))) →
    os'.map (·.fields) = ks'.map (fun k => (F' k).map (factory own · (some k))) →
    (∀ k ∈ ks, ∀ k' ∈ ks', ∀ f ∈ F k, ∀ g ∈ F' k', SameField f g → f.typeName ≠ own → IsOlder (E.elem f) (E'.elem g)) →
    OOlder (classOneofs E os) (classOneofs E' os')
  | ks, k' :: ks', os, o' :: os', h, e, e', hE => by
    rw [List.map_cons, List.map_cons] at e'
    injection e' with e1 e2
    rw [List.map_cons] at h
    generalize hl : ks.map F = l at h
    cases h with
    | keep hg hr =>
      cases ks with
      | nil => exact nomatch hl
      | cons k ks =>
        rw [List.map_cons] at hl
        injection hl with hl1 hl2
        subst hl1 hl2
        cases os with
        | nil => exact nomatch e
        | cons o os =>
          rw [List.map_cons, List.map_cons] at e
          injection e with e3 e4
          obtain ⟨r, er⟩ := classOneofs_older hr e4 e2
            (fun k hk k' hk' => hE k (List.mem_cons_of_mem _ hk) k' (List.mem_cons_of_mem _ hk'))
          obtain ⟨a, ea⟩ := classAlts_older (own := own) (E := E) (E' := E') (i := k) (j := k') hg
            (hE k (List.mem_cons_self ..) k' (List.mem_cons_self ..))
          rw [classOneofs, classOneofs, e1, e3]
          exact ⟨.cons a r, by rw [Oneofs.Older.old, ea, er]⟩
    | new hr =>
      subst hl
      obtain ⟨r, er⟩ := classOneofs_older hr e e2 (fun k hk k' hk' => hE k hk k' (List.mem_cons_of_mem _ hk'))
      exact ⟨.newOneof _ r, er⟩
  | ks, [], os, [], h, e, _, _ => by
    rw [List.map_nil] at h
    generalize hl : ks.map F = l at h
    cases h
    rw [List.map_eq_nil_iff.mp hl] at e
    rw [List.map_eq_nil_iff.mp e]
    exact ⟨.nil, rfl⟩
  | _, _ :: _, _, [], _, _, e, _ => nomatch e
  | _, [], _, _ :: _, _, _, e, _ => nomatch e

theorem findMsg_some {files : List (Str × List MsgDesc)} {own : Str} {m : MsgDesc} (h : findMsg files own = some m) :
    Defined files own m := by
  unfold findMsg at h
  rw [files_defs] at h
  cases e : (allDefs files).find? fun m => m.1 = own with
  | none => rw [e] at h; exact nomatch h
  | some x =>
    rw [e] at h
    have h1 := List.mem_of_find?_eq_some e
    have h2 : x.1 = own := by simpa using List.find?_some e
    injection h with h
    exact mem_allDefs.mp (by rw [← h2, ← h]; exact h1)

/-- The types in the members of an instance are instances. -/
theorem memberOK_message {P : Str → List Str} {inner : Str → List Nat → Option ElemTy} {own : Str} {args : List Nat}
    {f : FieldDesc} {o : Option Nat} (h : memberOK P inner own args (factory own f o) = true) (h1 : f.typeName ≠ own)
    (h2 : f.type = .message) :
    ∃ args', inner f.typeName args' = some ((instanceTypes P inner own args).message f) := by
  have hs : (fieldInstance P inner own args f).isSome = true := by
    unfold memberOK at h
    simp only [factory, if_neg h1] at h
    by_cases h3 : f.repeated = true
    · simp only [if_pos h3, h2, Bool.and_eq_true] at h
      exact h.2
    · simp only [if_neg h3, h2, Bool.and_eq_true] at h
      exact h.2
  obtain ⟨T, hT⟩ := Option.isSome_iff_exists.mp hs
  show ∃ args', inner f.typeName args' = some ((fieldInstance P inner own args f).getD _)
  rw [hT]
  unfold fieldInstance at hT
  obtain ⟨args', _, h⟩ := Option.bind_eq_some_iff.mp hT
  exact ⟨args', h⟩

theorem instantiate_succ {files : List (Str × List MsgDesc)} {P : Str → List Str} {n : Nat} {own : Str} {args : List Nat}
    {T : ElemTy} (h : instantiate files P (n + 1) own args = some T) :
    ∃ m g, findMsg files own = some m ∧ mkMessage own m.fields m.oneofs = .ok g ∧
      (∀ x ∈ g.fields ++ g.oneofs.flatMap (·.fields), memberOK P (instantiate files P n) own args x = true) ∧
      T = g.type (instanceTypes P (instantiate files P n) own args) := by
  rw [instantiate] at h
  cases h1 : findMsg files own with
  | none => rw [h1] at h; exact nomatch h
  | some m =>
    rw [h1] at h
    dsimp only at h
    cases h2 : mkMessage own m.fields m.oneofs with
    | error e => rw [h2] at h; exact nomatch h
    | ok g =>
      rw [h2] at h
      dsimp only at h
      split at h
      · rename_i hc
        injection h with h
        exact ⟨m, g, rfl, h2, List.all_eq_true.mp hc.2.2, h.symm⟩
      · exact nomatch h

/-- The class of an older version is an older version of the class. -/
theorem instantiate_older {old new : List (Str × List MsgDesc)} (hN : NewerFiles old new)
    (hv : ∀ own m, Defined old own m → FieldsValid m.fields m.oneofs)
    (hv' : ∀ own m, Defined new own m → FieldsValid m.fields m.oneofs) {P P' : Str → List Str} :
    ∀ (n n' : Nat) {own : Str} {args args' : List Nat} {S T : ElemTy}, instantiate old P n own args = some S →
      instantiate new P' n' own args' = some T → IsOlder S T
  | 0, _, _, _, _, _, _, h, _ => nomatch h
  | _ + 1, 0, _, _, _, _, _, _, h => nomatch h
  | n + 1, n' + 1, own, args, args', S, T, h, h' => by
    obtain ⟨l, g, f1, f2, f3, rfl⟩ := instantiate_succ h
    obtain ⟨m, g', f1', f2', f3', rfl⟩ := instantiate_succ h'
    have d := findMsg_some f1
    have d' := findMsg_some f1'
    have hnm := hN own l m d d'
    have key : ∀ f o g o', memberOK P (instantiate old P n) own args (factory own f o) = true →
        memberOK P' (instantiate new P' n') own args' (factory own g o') = true → SameField f g → f.typeName ≠ own →
        IsOlder ((instanceTypes P (instantiate old P n) own args).elem f)
          ((instanceTypes P' (instantiate new P' n') own args').elem g) := by
      intro f o g o' k1 k2 hs hne
      unfold Types.elem
      rw [← hs.type]
      cases ht : f.type with
      | scalar s => exact ⟨.scalar s, rfl⟩
      | enum => exact ⟨.scalar _, rfl⟩
      | string => exact ⟨.str _ (if f.maxLength = 0 then (instanceTypes P (instantiate old P n) own args).length f else f.maxLength), rfl⟩
      | bytes => exact ⟨.str _ (if f.maxLength = 0 then (instanceTypes P (instantiate old P n) own args).length f else f.maxLength), rfl⟩
      | message =>
        obtain ⟨a, ha⟩ := memberOK_message k1 hne ht
        obtain ⟨a', ha'⟩ := memberOK_message k2 (hs.typeName ▸ hne) (hs.type ▸ ht)
        rw [← hs.typeName] at ha'
        exact instantiate_older hN hv hv' n n' ha ha'
    have split : ∀ {q : MsgDesc} {g : GMessage}, FieldsValid q.fields q.oneofs → mkMessage own q.fields q.oneofs = .ok g →
        g.fields = (loose q).map (factory own · none) ∧ ∃ ks : List Nat,
          g.oneofs.map (·.fields) = ks.map (fun k => (group q k).map (factory own · (some k))) ∧ ks.map (group q) = groups q := by
      intro q g hq e
      unfold mkMessage at e
      cases hr : mkOneofs own q.fields q.oneofs 0 with
      | error x => rw [hr] at e; exact nomatch e
      | ok os =>
        rw [hr] at e
        injection e with e
        subst e
        obtain ⟨ks, k1, k2⟩ := mkOneofs_groups hq q.oneofs 0 (Nat.zero_add _) hr
        refine ⟨rfl, ks, k1, ?_⟩
        rw [k2, groups, List.range_eq_range']
    obtain ⟨e1, ks, e2, e3⟩ := split (hv own l d) f2
    obtain ⟨e1', ks', e2', e3'⟩ := split (hv' own m d') f2'
    have inG : ∀ {q : MsgDesc} {g : GMessage} {ks : List Nat},
        g.oneofs.map (·.fields) = ks.map (fun k => (group q k).map (factory own · (some k))) → ∀ k ∈ ks, ∀ f ∈ group q k,
        factory own f (some k) ∈ g.fields ++ g.oneofs.flatMap (·.fields) := by
      intro q g ks e k hk f hf
      refine List.mem_append_right _ ?_
      have hm : (group q k).map (factory own · (some k)) ∈ g.oneofs.map (·.fields) := by
        rw [e]
        exact List.mem_map.mpr ⟨k, hk, rfl⟩
      obtain ⟨o, ho, eo⟩ := List.mem_map.mp hm
      exact List.mem_flatMap.mpr ⟨o, ho, by rw [eo]; exact List.mem_map.mpr ⟨f, hf, rfl⟩⟩
    have A : FOlder (classFields (instanceTypes P (instantiate old P n) own args) g.fields)
        (classFields (instanceTypes P' (instantiate new P' n') own args') g'.fields) := by
      rw [e1, e1']
      exact classFields_older hnm.fields fun f hf g hg hs hne =>
        key f none g none (f3 _ (List.mem_append_left _ (e1 ▸ List.mem_map.mpr ⟨f, hf, rfl⟩)))
          (f3' _ (List.mem_append_left _ (e1' ▸ List.mem_map.mpr ⟨g, hg, rfl⟩))) hs hne
    have B : OOlder (classOneofs (instanceTypes P (instantiate old P n) own args) g.oneofs)
        (classOneofs (instanceTypes P' (instantiate new P' n') own args') g'.oneofs) :=
      classOneofs_older (by rw [e3, e3']; exact hnm.oneofs) e2 e2' fun k hk k' hk' f hf g hg hs hne =>
        key f (some k) g (some k') (f3 _ (inG e2 k hk f hf)) (f3' _ (inG e2' k' hk' g hg)) hs hne
    obtain ⟨a, ea⟩ := A
    obtain ⟨b, eb⟩ := B
    exact ⟨.msg a b, congr (congrArg ElemTy.msg ea) eb⟩

end EP.Gen
