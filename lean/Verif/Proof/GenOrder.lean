import Verif.Spec.Header
import Verif.Proof.Toposort

/-!
# The order of the definitions in a header
-/

namespace EP.Gen

/-! ## Names -/

theorem dot_ne (ns n : Str) : ns ≠ dot ns n := by
  intro h
  have := congrArg List.length h
  simp [dot] at this

theorem dot_inj {ns a b : Str} (h : dot ns a = dot ns b) : a = b := by
  simpa [dot] using h

/-- The first component of a name. -/
theorem first_component : ∀ {x y : Str} {u v : Str}, '.' ∉ x → '.' ∉ y → x ++ '.' :: u = y ++ '.' :: v → x = y
  | [], [], _, _, _, _, _ => rfl
  | [], b :: y, _, _, _, hy, h => by
    simp only [List.nil_append, List.cons_append, List.cons.injEq] at h
    exact absurd (h.1 ▸ List.mem_cons_self) hy
  | a :: x, [], _, _, hx, _, h => by
    simp only [List.nil_append, List.cons_append, List.cons.injEq] at h
    exact absurd (h.1 ▸ List.mem_cons_self) hx
  | a :: x, b :: y, u, v, hx, hy, h => by
    simp only [List.cons_append, List.cons.injEq] at h
    rw [h.1, first_component (fun m => hx (List.mem_cons_of_mem _ m)) (fun m => hy (List.mem_cons_of_mem _ m)) h.2]

theorem under_iff {q t : Str} : Under q t ↔ ∃ r, (t = q ∧ r = []) ∨ t = dot q r := by
  constructor
  · rintro (rfl | ⟨r, rfl⟩)
    · exact ⟨[], .inl ⟨rfl, rfl⟩⟩
    · exact ⟨r, .inr (by simp [dot])⟩
  · rintro ⟨r, ⟨rfl, _⟩ | rfl⟩
    · exact .inl rfl
    · exact .inr ⟨r, by simp [dot]⟩

theorem Under.dot (q n : Str) : Under q (dot q n) := .inr ⟨n, by simp [Gen.dot]⟩

theorem Under.trans {p q t : Str} (h1 : Under p q) (h2 : Under q t) : Under p t := by
  rcases h1 with rfl | h1
  · exact h2
  · rcases h2 with rfl | h2
    · exact .inr h1
    · exact .inr (h1.trans ((List.prefix_append _ _).trans h2))

theorem Under.prefix {q t : Str} (h : Under q t) : q <+: t := by
  rcases h with rfl | h
  · exact List.prefix_refl _
  · exact (List.prefix_append _ _).trans h

theorem Under.inj {ns x y t : Str} (hx : '.' ∉ x) (hy : '.' ∉ y) (h1 : Under (Gen.dot ns x) t)
    (h2 : Under (Gen.dot ns y) t) : x = y := by
  have key : ∀ {z}, Under (Gen.dot ns z) t → ∃ u, t ++ ['.'] = ns ++ '.' :: (z ++ '.' :: u) := by
    intro z h
    rcases h with rfl | ⟨r, rfl⟩
    · exact ⟨[], by simp [Gen.dot]⟩
    · exact ⟨r ++ ['.'], by simp [Gen.dot]⟩
  obtain ⟨u, e1⟩ := key h1
  obtain ⟨v, e2⟩ := key h2
  rw [e1] at e2
  have e3 := List.append_cancel_left e2
  injection e3 with _ e3
  exact first_component hx hy e3

/-! ## Leaving out occurrences -/

theorem removeAll_removed {old : Str} (ho : old ≠ []) : ∀ (s : Str) (k : Nat), Removed old (s.drop k) (removeAll old s k)
  | [], k => by
    rw [List.drop_nil]
    exact .nil
  | c :: s, k + 1 => by
    rw [List.drop_succ_cons]
    exact removeAll_removed ho s k
  | c :: s, 0 => by
    unfold removeAll
    split
    · next h =>
      obtain ⟨r, hr⟩ := List.isPrefixOf_iff_prefix.mp h
      have ih := removeAll_removed ho s (old.length - 1)
      match old, ho, hr with
      | o :: os, _, hr =>
        simp only [List.cons_append, List.cons.injEq] at hr
        obtain ⟨rfl, hr'⟩ := hr
        have e : s.drop ((o :: os).length - 1) = r := by
          rw [← hr']; simp
        rw [e] at ih
        have := ih.drop
        simp only [List.cons_append] at this
        rw [hr'] at this
        exact this
    · exact .keep _ (removeAll_removed ho s 0)

theorem removeAll_skip (old : Str) : ∀ (a b : Str), removeAll old (a ++ b) a.length = removeAll old b 0
  | [], _ => rfl
  | _ :: a, b => by
    rw [List.cons_append, List.length_cons, removeAll]
    exact removeAll_skip old a b

theorem removeAll_none {old : Str} (ho : '.' ∈ old) : ∀ (s : Str), '.' ∉ s → removeAll old s 0 = s
  | [], _ => rfl
  | c :: s, hs => by
    rw [removeAll, if_neg, removeAll_none ho s fun m => hs (List.mem_cons_of_mem _ m)]
    intro h
    exact hs ((List.isPrefixOf_iff_prefix.mp h).subset ho)

theorem removeAll_scope {scope name : Str} (hn : '.' ∉ name) :
    removeAll (scope ++ ['.']) (dot scope name) 0 = name := by
  have e : dot scope name = (scope ++ ['.']) ++ name := by simp [dot]
  have hdot : '.' ∈ scope ++ ['.'] := by simp
  rw [e]
  cases h : scope ++ ['.'] with
  | nil => rw [h] at hdot; exact nomatch hdot
  | cons o os =>
    rw [List.cons_append, removeAll, if_pos (by simp)]
    rw [h] at hdot
    have : (o :: os).length - 1 = os.length := rfl
    rw [this, removeAll_skip, removeAll_none hdot _ hn]

/-! ## The index -/

theorem sortedIndex_skip {scope name n : Str} : ∀ (order : List Str) (i r : Nat),
    (∀ x ∈ order, removeAll (scope ++ ['.']) x 0 = name → x = n) → n ∉ order → sortedIndex scope name order i r = r
  | [], _, _, _, _ => rfl
  | x :: order, i, r, h, hn => by
    rw [sortedIndex, if_neg, sortedIndex_skip order _ _ (fun x hx => h x (List.mem_cons_of_mem _ hx))
      fun m => hn (List.mem_cons_of_mem _ m)]
    intro e
    exact hn (h x List.mem_cons_self e ▸ List.mem_cons_self)

theorem sortedIndex_eq {scope name n : Str} (hn : removeAll (scope ++ ['.']) n 0 = name) : ∀ (order : List Str) (i r : Nat),
    order.Nodup → (∀ x ∈ order, removeAll (scope ++ ['.']) x 0 = name → x = n) → n ∈ order →
      sortedIndex scope name order i r = i + order.idxOf n
  | x :: order, i, r, hd, h, hm => by
    have hd' := List.nodup_cons.mp hd
    rw [sortedIndex]
    by_cases hx : x = n
    · subst hx
      rw [if_pos hn, sortedIndex_skip order _ _ (fun y hy => h y (List.mem_cons_of_mem _ hy)) hd'.1]
      simp
    · rw [if_neg fun e => hx (h x List.mem_cons_self e), sortedIndex_eq hn order _ _ hd'.2
        (fun y hy => h y (List.mem_cons_of_mem _ hy)) ((List.mem_cons.mp hm).resolve_left fun e => hx e.symm)]
      have : (x == n) = false := by simpa using hx
      rw [List.idxOf_cons, this]
      simp
      omega

theorem idxOf_lt {a b : Str} : ∀ {l : List Str}, l.Nodup → [a, b].Sublist l → l.idxOf a < l.idxOf b
  | [], _, h => by cases h
  | x :: l, hn, h => by
    have hn' := List.nodup_cons.mp hn
    cases h with
    | cons _ h =>
      have ha : (x == a) = false := by
        simp only [beq_eq_false_iff_ne]
        rintro rfl
        exact hn'.1 (h.subset (by simp))
      have hb : (x == b) = false := by
        simp only [beq_eq_false_iff_ne]
        rintro rfl
        exact hn'.1 (h.subset (by simp))
      rw [List.idxOf_cons, List.idxOf_cons, ha, hb]
      have := idxOf_lt hn'.2 h
      simpa using this
    | cons_cons _ h =>
      have hb : (a == b) = false := by
        simp only [beq_eq_false_iff_ne]
        rintro rfl
        exact hn'.1 (List.singleton_sublist.mp h)
      rw [List.idxOf_cons, List.idxOf_cons, hb]
      simp

theorem pairwise_pair {α : Type} {R : α → α → Prop} {a b : α} : ∀ {l : List α}, l.Pairwise R → a ∈ l → b ∈ l →
    a ≠ b → ¬ R b a → [a, b].Sublist l
  | [], _, h, _, _, _ => nomatch h
  | x :: l, hp, ha, hb, hne, hR => by
    have hp' := List.pairwise_cons.mp hp
    rcases List.mem_cons.mp ha with rfl | ha'
    · exact (List.singleton_sublist.mpr ((List.mem_cons.mp hb).resolve_left hne.symm)).cons_cons _
    · rcases List.mem_cons.mp hb with rfl | hb
      · exact absurd (hp'.1 a ha') hR
      · exact (pairwise_pair hp'.2 ha' hb hne hR).cons _

/-! ## Headers -/

theorem mem_headers {ns t : Str} : ∀ {ms : List MsgDesc}, t ∈ headers ns ms ↔ ∃ m ∈ ms, t ∈ m.header ns
  | [] => by simp [headers]
  | m :: ms => by simp [headers, mem_headers]

theorem header_sublist {ns : Str} {m : MsgDesc} : ∀ {ms : List MsgDesc}, m ∈ ms → (m.header ns).Sublist (headers ns ms)
  | [], h => nomatch h
  | x :: ms, h => by
    rw [headers]
    rcases List.mem_cons.mp h with rfl | h
    · exact List.sublist_append_left _ _
    · exact (header_sublist h).trans (List.sublist_append_right _ _)

theorem headers_mono {ns : Str} {l l' : List MsgDesc} (h : l.Sublist l') : (headers ns l).Sublist (headers ns l') := by
  induction h with
  | slnil => exact .slnil
  | cons a _ ih => rw [headers]; exact ih.trans (List.sublist_append_right _ _)
  | cons_cons a _ ih => rw [headers, headers]; exact (List.Sublist.refl _).append ih

theorem headers_perm {ns : Str} {l l' : List MsgDesc} (h : l.Perm l') : (headers ns l).Perm (headers ns l') := by
  induction h with
  | nil => exact .refl _
  | cons a _ ih => rw [headers, headers]; exact ih.append_left _
  | swap a b l =>
    simp only [headers]
    rw [← List.append_assoc, ← List.append_assoc]
    exact List.perm_append_comm.append_right _
  | trans _ _ ih1 ih2 => exact ih1.trans ih2

theorem own_mem_header (ns : Str) (m : MsgDesc) : dot ns m.name ∈ m.header ns := by
  cases m with
  | mk name fields oneofs enums nested => simp [MsgDesc.header, MsgDesc.name]

mutual
theorem header_under (ns : Str) : ∀ (m : MsgDesc), ∀ t ∈ m.header ns, Under (dot ns m.name) t
  | .mk name fields oneofs enums nested, t, h => by
    simp only [MsgDesc.header, List.mem_append, List.mem_map, List.mem_cons, List.not_mem_nil, or_false] at h
    rcases h with (⟨e, _, rfl⟩ | h) | rfl
    · exact Under.dot _ _
    · exact headers_under (dot ns name) nested t h
    · exact .inl rfl
theorem headers_under (ns : Str) : ∀ (ms : List MsgDesc), ∀ t ∈ headers ns ms, Under ns t
  | [], _, h => nomatch h
  | m :: ms, t, h => by
    rcases List.mem_append.mp h with h | h
    · exact (Under.dot ns m.name).trans (header_under ns m t h)
    · exact headers_under ns ms t h
end

theorem At.under {ns : Str} {ms : List MsgDesc} {scope : Str} {m : MsgDesc} (h : At ns ms scope m) :
    dot scope m.name ∈ headers ns ms := by
  induction h with
  | here hm => exact (header_sublist hm).subset (own_mem_header _ _)
  | @inside ns ms c scope m hc _ ih =>
    refine (header_sublist hc).subset ?_
    cases c with
    | mk name fields oneofs enums nested =>
      simp only [MsgDesc.header, List.mem_append]
      exact .inl (.inr ih)

/-! ## The items of the dictionary -/

mutual
theorem keys_addMsg (ns : Str) : ∀ (m : MsgDesc), (keys (addMsg ns m)).Perm (m.header ns)
  | .mk name fields oneofs enums nested => by
    have ih := keys_addMsgs (dot ns name) nested
    have e : keys (addMsg ns (.mk name fields oneofs enums nested)) =
        keys (addMsgs (dot ns name) nested) ++ enums.map (dot (dot ns name)) ++ [dot ns name] := by
      simp only [addMsg, keys, List.map_append, List.map_map]
      rfl
    rw [e, MsgDesc.header]
    exact ((ih.append_right _).trans List.perm_append_comm).append_right _
theorem keys_addMsgs (ns : Str) : ∀ (ms : List MsgDesc), (keys (addMsgs ns ms)).Perm (headers ns ms)
  | [] => .refl _
  | m :: ms => by
    have e : keys (addMsgs ns (m :: ms)) = keys (addMsg ns m) ++ keys (addMsgs ns ms) := by
      simp only [addMsgs, keys, List.map_append]
    rw [e, headers]
    exact (keys_addMsg ns m).append (keys_addMsgs ns ms)
end

theorem mem_addMsgs {ns : Str} {p : Str × List Str} : ∀ {ms : List MsgDesc}, p ∈ addMsgs ns ms ↔ ∃ m ∈ ms, p ∈ addMsg ns m
  | [] => by simp [addMsgs]
  | m :: ms => by simp [addMsgs, mem_addMsgs]

theorem own_mem_addMsg (ns : Str) (m : MsgDesc) : (dot ns m.name, msgDeps ns m) ∈ addMsg ns m := by
  cases m with
  | mk name fields oneofs enums nested => simp [addMsg, MsgDesc.name]

theorem enum_mem_addMsg (ns : Str) (m : MsgDesc) {e : Str} (h : e ∈ m.enums) :
    (dot (dot ns m.name) e, [dot ns m.name]) ∈ addMsg ns m := by
  cases m with
  | mk name fields oneofs enums nested =>
    simp only [addMsg, MsgDesc.name, List.mem_append, List.mem_map]
    exact .inl (.inr ⟨e, h, rfl⟩)

theorem nested_mem_addMsg (ns : Str) (m : MsgDesc) {p : Str × List Str} (h : p ∈ addMsgs (dot ns m.name) m.nested) :
    p ∈ addMsg ns m := by
  cases m with
  | mk name fields oneofs enums nested =>
    simp only [addMsg, List.mem_append]
    exact .inl (.inl h)

theorem ns_mem_msgDeps (ns : Str) (m : MsgDesc) : ns ∈ msgDeps ns m := by
  cases m with
  | mk name fields oneofs enums nested => simp [msgDeps]

theorem mem_outerDeps {own t : Str} : ∀ {ms : List MsgDesc},
    t ∈ outerDeps own ms ↔ (∃ m ∈ ms, t ∈ msgDeps own m) ∧ ¬ own <+: t
  | [] => by simp [outerDeps]
  | m :: ms => by
    simp only [outerDeps, List.mem_append, mem_outerDeps, List.mem_filter, Bool.not_eq_true', List.mem_cons,
      exists_eq_or_imp]
    have : (own.isPrefixOf t = false) ↔ ¬ own <+: t := by
      rw [← List.isPrefixOf_iff_prefix, Bool.not_eq_true]
    rw [this]
    constructor
    · rintro (⟨h1, h2⟩ | ⟨h1, h2⟩)
      · exact ⟨.inl h1, h2⟩
      · exact ⟨.inr h1, h2⟩
    · rintro ⟨h1 | h1, h2⟩
      · exact .inl ⟨h1, h2⟩
      · exact .inr ⟨h1, h2⟩

/-- A type used inside a message is a dependency of the message, unless it begins with the name of a message on
the way. -/
theorem propagate {ns : Str} {ms : List MsgDesc} {scope : Str} {m : MsgDesc} (h : At ns ms scope m) {t : Str}
    (hu : Uses scope m t) (hp : ∀ s' m', At ns ms s' m' → ¬ dot s' m'.name <+: t) : ∃ x ∈ ms, t ∈ msgDeps ns x := by
  induction h with
  | @here ns ms m hm =>
    refine ⟨m, hm, ?_⟩
    obtain ⟨hne, f, hf, hty, rfl⟩ := hu
    have hno := hp ns m (.here hm)
    cases m with
    | mk name fields oneofs enums nested =>
      simp only [msgDeps, List.mem_cons, List.mem_append, fieldDeps, List.mem_filter, List.mem_map]
      refine .inr (.inr ⟨⟨f, ⟨hf, by simpa using hty⟩, if_neg hne⟩, ?_⟩)
      simp only [decide_eq_true_eq]
      intro hl
      refine hno ?_
      rcases hl with ⟨x, _, hx⟩ | ⟨x, _, hx⟩
      · rw [← hx]; exact (Under.dot _ _).prefix
      · rw [← hx]; exact (Under.dot _ _).prefix
  | @inside ns ms c scope m hc hat ih =>
    obtain ⟨x, hx, hd⟩ := ih hu fun s' m' h => hp s' m' (.inside hc h)
    have hno := hp ns c (.here hc)
    refine ⟨c, hc, ?_⟩
    cases c with
    | mk name fields oneofs enums nested =>
      simp only [msgDeps, List.mem_cons, List.mem_append]
      exact .inr (.inl (mem_outerDeps.mpr ⟨⟨x, hx, hd⟩, hno⟩))

/-! ## Sorting keeps everything -/

theorem sortMsg_name (order : List Str) (ns : Str) (m : MsgDesc) : (sortMsg order ns m).name = m.name := by
  cases m; rfl

theorem sortMsgs_eq (order : List Str) (ns : Str) : ∀ ms, sortMsgs order ns ms = ms.map (sortMsg order ns)
  | [] => rfl
  | m :: ms => by rw [sortMsgs, sortMsgs_eq order ns ms, List.map_cons]

/-- The messages of a scope as they appear in the header. -/
def sorted (order : List Str) (ns : Str) (ms : List MsgDesc) : List MsgDesc :=
  sortHere order ns (sortMsgs order ns ms)

theorem sortHere_perm (order : List Str) (ns : Str) (ms : List MsgDesc) : (sortHere order ns ms).Perm ms :=
  sortBy_perm _ _

mutual
theorem sortMsg_header (order : List Str) (ns : Str) : ∀ m : MsgDesc, ((sortMsg order ns m).header ns).Perm (m.header ns)
  | .mk name fields oneofs enums nested => by
    have ih := sortMsgs_header order (dot ns name) nested
    rw [sortMsg, MsgDesc.header, MsgDesc.header]
    exact (((headers_perm (sortHere_perm _ _ _)).trans ih).append_left _).append_right _
theorem sortMsgs_header (order : List Str) (ns : Str) : ∀ ms : List MsgDesc,
    (headers ns (sortMsgs order ns ms)).Perm (headers ns ms)
  | [] => .refl _
  | m :: ms => by
    rw [sortMsgs, headers, headers]
    exact (sortMsg_header order ns m).append (sortMsgs_header order ns ms)
end

theorem sorted_header (order : List Str) (ns : Str) (ms : List MsgDesc) :
    (headers ns (sorted order ns ms)).Perm (headers ns ms) :=
  (headers_perm (sortHere_perm _ _ _)).trans (sortMsgs_header order ns ms)

theorem mem_sorted {order : List Str} {ns : Str} {ms : List MsgDesc} {m : MsgDesc} (h : m ∈ ms) :
    sortMsg order ns m ∈ sorted order ns ms := by
  unfold sorted
  rw [(sortHere_perm _ _ _).mem_iff, sortMsgs_eq]
  exact List.mem_map_of_mem h

/-! ## The order -/

/-- What is known about a scope while descending into it. -/
structure Ctx (full order : List Str) (ns : Str) (ms : List MsgDesc) : Prop where
  edges : ∀ p ∈ addMsgs ns ms, ∀ x ∈ p.2, x ≠ p.1 → [x, p.1].Sublist full
  index : ∀ scope m m', At ns ms scope m → At ns ms scope m' → [dot scope m.name, dot scope m'.name].Sublist full →
    sortedIndex scope m.name order 0 0 < sortedIndex scope m'.name order 0 0
  names : ∀ scope m, At ns ms scope m → '.' ∉ m.name
  distinct : (headers ns ms).Nodup
  prefixes : ∀ scope m, At ns ms scope m → ∀ scope' m' t, At ns ms scope' m' →
    Uses scope' m' t → dot scope m.name <+: t → Under (dot scope m.name) t
  outer : ∀ scope m t, At ns ms scope m → Uses scope m t → ¬ ∃ outer c, At ns ms outer c ∧
    t = dot outer c.name ∧ (dot outer c.name ++ ['.']) <+: dot scope m.name

theorem Ctx.nested {full order : List Str} {ns : Str} {ms : List MsgDesc} (h : Ctx full order ns ms) {c : MsgDesc} (hc : c ∈ ms) :
    Ctx full order (dot ns c.name) c.nested where
  edges p hp := h.edges p (mem_addMsgs.mpr ⟨c, hc, nested_mem_addMsg ns c hp⟩)
  index scope m m' hm hm' := h.index scope m m' (.inside hc hm) (.inside hc hm')
  names scope m hm := h.names scope m (.inside hc hm)
  distinct := by
    have := h.distinct.sublist (header_sublist hc)
    cases c with
    | mk name fields oneofs enums nested =>
      refine this.sublist ?_
      rw [MsgDesc.header]
      exact (List.sublist_append_right _ _).trans (List.sublist_append_left _ _)
  prefixes scope m hm scope' m' t hm' := h.prefixes scope m (.inside hc hm) scope' m' t (.inside hc hm')
  outer scope m t hm hu := fun ⟨o, c', ho, e⟩ => h.outer scope m t (.inside hc hm) hu ⟨o, c', .inside hc ho, e⟩

mutual
/-- A message comes before what is nested in it (in the order of `toposort`). -/
theorem chain {order : List Str} (hd : order.Nodup) (ns : Str) : ∀ m : MsgDesc,
    (∀ p ∈ addMsg ns m, ∀ x ∈ p.2, x ≠ p.1 → [x, p.1].Sublist order) →
      ∀ t ∈ m.header ns, t = dot ns m.name ∨ [dot ns m.name, t].Sublist order
  | .mk name fields oneofs enums nested, h, t, ht => by
    have h0 := h
    simp only [MsgDesc.header, List.mem_append, List.mem_map, List.mem_cons, List.not_mem_nil, or_false] at ht
    rcases ht with (⟨e, he, rfl⟩ | ht) | rfl
    · exact .inr (h _ (enum_mem_addMsg ns (.mk name fields oneofs enums nested) he) _ List.mem_cons_self (dot_ne _ _))
    · refine .inr (chains hd (dot ns name) nested (fun p hp => ?_) t ht)
      refine h p ?_
      rw [addMsg]
      exact List.mem_append_left _ (List.mem_append_left _ hp)
    · exact .inl rfl
theorem chains {order : List Str} (hd : order.Nodup) (ns : Str) : ∀ ms : List MsgDesc,
    (∀ p ∈ addMsgs ns ms, ∀ x ∈ p.2, x ≠ p.1 → [x, p.1].Sublist order) →
      ∀ t ∈ headers ns ms, [ns, t].Sublist order
  | [], _, _, ht => nomatch ht
  | m :: ms, h, t, ht => by
    rcases List.mem_append.mp ht with ht | ht
    · have h1 : [ns, dot ns m.name].Sublist order :=
        h _ (List.mem_append_left _ (own_mem_addMsg ns m)) ns (ns_mem_msgDeps ns m) (dot_ne _ _)
      rcases chain hd ns m (fun p hp => h p (List.mem_append_left _ hp)) t ht with rfl | h2
      · exact h1
      · exact pair_trans hd h1 h2
    · exact chains hd ns ms (fun p hp => h p (List.mem_append_right _ hp)) t ht
end

/-- Two messages with the same name are the same. -/
theorem Ctx.unique {full order : List Str} {ns : Str} {ms : List MsgDesc} (h : Ctx full order ns ms) {x y : MsgDesc} (hx : x ∈ ms)
    (hy : y ∈ ms) (e : x.name = y.name) : x = y := by
  have hd := h.distinct
  clear h
  induction ms with
  | nil => exact nomatch hx
  | cons a ms ih =>
    rw [headers] at hd
    have hd' := List.nodup_append.mp hd
    rcases List.mem_cons.mp hx with rfl | hx'
    · rcases List.mem_cons.mp hy with rfl | hy'
      · rfl
      · exact absurd rfl (hd'.2.2 _ (own_mem_header ns x) _ (e ▸ (header_sublist hy').subset (own_mem_header ns y)))
    · rcases List.mem_cons.mp hy with rfl | hy'
      · exact absurd rfl (hd'.2.2 _ (own_mem_header ns y) _ (e ▸ (header_sublist hx').subset (own_mem_header ns x)))
      · exact ih hx' hy' hd'.2.1

/-- A type nested in (or the same as) another message of the scope comes before. -/
theorem Ctx.cross {full order : List Str} {ns : Str} {ms : List MsgDesc} (h : Ctx full order ns ms) (hd : full.Nodup)
    {x y : MsgDesc} (hx : x ∈ ms) (hy : y ∈ ms) (hne : x.name ≠ y.name) {t : Str} (ht : t ∈ y.header ns)
    {scope : Str} {m : MsgDesc} (hm : At ns [x] scope m) (hu : Uses scope m t) :
    [t, dot scope m.name].Sublist (headers ns (sorted order ns ms)) := by
  have lift : ∀ {s m}, At ns [x] s m → At ns ms s m := by
    intro s m h
    cases h with
    | here h => exact .here (List.mem_singleton.mp h ▸ hx)
    | inside h h' => exact .inside (List.mem_singleton.mp h ▸ hx) h'
  have htu : Under (dot ns y.name) t := header_under ns y t ht
  obtain ⟨x', hx', hdep⟩ := propagate hm hu (by
    intro s' m' hat hp
    have h1 := h.prefixes s' m' (lift hat) scope m t (lift hm) hu hp
    have h2 : Under (dot ns x.name) (dot s' m'.name) := by
      have := hat.under
      simp only [headers, List.append_nil] at this
      exact header_under ns x _ this
    exact hne (Under.inj (h.names _ _ (.here hx)) (h.names _ _ (.here hy)) (h2.trans h1) htu))
  rw [List.mem_singleton.mp hx'] at hdep
  have htx : t ≠ dot ns x.name := by
    rintro rfl
    exact hne (Under.inj (h.names _ _ (.here hx)) (h.names _ _ (.here hy)) (.inl rfl) htu)
  have e1 : [t, dot ns x.name].Sublist full :=
    h.edges _ (mem_addMsgs.mpr ⟨x, hx, own_mem_addMsg ns x⟩) t hdep htx
  have e2 : [dot ns y.name, dot ns x.name].Sublist full := by
    rcases chain hd ns y (fun p hp => h.edges p (mem_addMsgs.mpr ⟨y, hy, hp⟩)) t ht with rfl | e
    · exact e1
    · exact pair_trans hd e e1
  have e3 := h.index ns y x (.here hy) (.here hx) e2
  have e4 : [sortMsg order ns y, sortMsg order ns x].Sublist (sorted order ns ms) := by
    refine pairwise_pair (sortBy_sorted ?_ ?_ _) (mem_sorted hy) (mem_sorted hx) ?_ ?_
    · intro a b
      simp only [decide_eq_true_eq]
      exact Nat.le_total _ _
    · intro a b c
      simp only [decide_eq_true_eq]
      exact Nat.le_trans
    · intro e
      have := congrArg MsgDesc.name e
      rw [sortMsg_name, sortMsg_name] at this
      exact hne this.symm
    · rw [sortMsg_name, sortMsg_name]
      simp only [decide_eq_true_eq]
      omega
  refine List.Sublist.trans ?_ (headers_mono e4)
  have hP : dot scope m.name ∈ x.header ns := by
    have := hm.under
    simpa [headers] using this
  simp only [headers, List.append_nil]
  exact pair_sublist ((sortMsg_header order ns y).mem_iff.mpr ht) ((sortMsg_header order ns x).mem_iff.mpr hP)

/-- Types come before the messages that use them. -/
theorem Ctx.before {full order : List Str} {ns : Str} {ms : List MsgDesc} (h : Ctx full order ns ms) (hd : full.Nodup)
    {scope : Str} {m : MsgDesc} (hm : At ns ms scope m) {t : Str} (hu : Uses scope m t) (ht : t ∈ headers ns ms) :
    [t, dot scope m.name].Sublist (headers ns (sorted order ns ms)) := by
  induction hm with
  | @here ns ms m hm =>
    obtain ⟨y, hy, hty⟩ := mem_headers.mp ht
    by_cases hn : m.name = y.name
    · have := h.unique hm hy hn
      subst this
      refine List.Sublist.trans ?_ (header_sublist (mem_sorted hm))
      have hty' := (sortMsg_header order ns m).mem_iff.mpr hty
      have hne := hu.1
      cases m with
      | mk name fields oneofs enums nested =>
        rw [sortMsg, MsgDesc.header] at hty' ⊢
        refine pair_sublist ?_ List.mem_cons_self
        rcases List.mem_append.mp hty' with h' | h'
        · exact h'
        · exact absurd (List.mem_singleton.mp h') hne
    · exact h.cross hd hm hy hn hty (.here List.mem_cons_self) hu
  | @inside ns ms c scope m hc hat ih =>
    obtain ⟨y, hy, hty⟩ := mem_headers.mp ht
    by_cases hn : c.name = y.name
    · have := h.unique hc hy hn
      subst this
      refine List.Sublist.trans ?_ (header_sublist (mem_sorted hc))
      have hP := hat.under
      have hout := h.outer scope m t (.inside hc hat) hu
      have ih := ih (h.nested hc) hu
      have hpre : (dot ns c.name ++ ['.']) <+: dot scope m.name := by
        rcases headers_under _ _ _ hP with e | e
        · exfalso
          have hnd := h.distinct.sublist (header_sublist hc)
          cases c with
          | mk name fields oneofs enums nested =>
            rw [MsgDesc.header] at hnd
            exact (List.nodup_append.mp hnd).2.2 _ (List.mem_append_right _ (e ▸ hP)) _ List.mem_cons_self rfl
        · exact e
      have hnc : t ≠ dot ns c.name := fun e => hout ⟨ns, c, .here hc, e, hpre⟩
      cases c with
      | mk name fields oneofs enums nested =>
        have hP' : dot scope m.name ∈ headers (dot ns name) (sorted order (dot ns name) nested) :=
          (sorted_header _ _ _).mem_iff.mpr hP
        rw [sortMsg, MsgDesc.header]
        refine List.Sublist.trans ?_ (List.sublist_append_left _ _)
        simp only [MsgDesc.header, List.mem_append, List.mem_cons, List.not_mem_nil, or_false] at hty
        rcases hty with (hty | hty) | hty
        · exact pair_sublist hty hP'
        · exact (ih hty).trans (List.sublist_append_right _ _)
        · exact absurd hty hnc
    · exact h.cross hd hc hy hn hty (.inside List.mem_cons_self hat) hu

/-! ## A file -/

theorem At.mem_header {f : FileDesc} {scope : Str} {m : MsgDesc} (h : At f.package f.messages scope m) :
    dot scope m.name ∈ f.header f.messages := List.mem_append_right _ h.under

theorem mem_fieldDeps {own : Str} {locals : List Str} {fields : List FieldDesc} {t : Str}
    (h : t ∈ fieldDeps own locals fields) : t = "FieldErrorRecursive".toList ∨
      (t ≠ own ∧ ∃ f ∈ fields, (f.type = .message ∨ f.type = .enum) ∧ f.typeName = t) := by
  obtain ⟨f, hf, rfl⟩ := List.mem_map.mp (List.mem_filter.mp h).1
  have hf' := List.mem_filter.mp hf
  unfold seenType
  split
  · exact .inl rfl
  · next hne => exact .inr ⟨hne, f, hf'.1, by simpa using hf'.2, rfl⟩

mutual
/-- The names that `toposort` gets to see. -/
theorem mentionedMsg {P : Str → Prop} (hr : P "FieldErrorRecursive".toList) (ns : Str) : ∀ (m : MsgDesc), P ns →
    (∀ t ∈ m.header ns, P t) → (∀ scope x, At ns [m] scope x → ∀ t, Uses scope x t → P t) →
      (∀ x ∈ msgDeps ns m, P x) ∧ ∀ p ∈ addMsg ns m, P p.1 ∧ ∀ x ∈ p.2, P x
  | .mk name fields oneofs enums nested, hns, hh, hu => by
    have hown : P (dot ns name) := hh _ (own_mem_header ns (.mk name fields oneofs enums nested))
    have ih := mentionedMsgs hr (dot ns name) nested hown
      (fun t ht => hh t (by
        rw [MsgDesc.header]
        exact List.mem_append_left _ (List.mem_append_right _ ht)))
      (fun scope x hx => hu scope x (.inside List.mem_cons_self hx))
    have h1 : ∀ x ∈ msgDeps ns (.mk name fields oneofs enums nested), P x := by
      intro x hx
      rw [msgDeps] at hx
      rcases List.mem_cons.mp hx with rfl | hx
      · exact hns
      · rcases List.mem_append.mp hx with hx | hx
        · obtain ⟨⟨m, hm, hx⟩, _⟩ := mem_outerDeps.mp hx
          exact ih.1 m hm x hx
        · rcases mem_fieldDeps hx with rfl | h
          · exact hr
          · exact hu ns (.mk name fields oneofs enums nested) (.here List.mem_cons_self) x h
    refine ⟨h1, ?_⟩
    intro p hp
    rw [addMsg] at hp
    rcases List.mem_append.mp hp with hp | hp
    · rcases List.mem_append.mp hp with hp | hp
      · exact ih.2 p hp
      · obtain ⟨e, he, rfl⟩ := List.mem_map.mp hp
        refine ⟨hh _ ?_, fun x hx => List.mem_singleton.mp hx ▸ hown⟩
        rw [MsgDesc.header]
        exact List.mem_append_left _ (List.mem_append_left _ (List.mem_map_of_mem he))
    · rw [List.mem_singleton.mp hp]
      exact ⟨hown, h1⟩
theorem mentionedMsgs {P : Str → Prop} (hr : P "FieldErrorRecursive".toList) (ns : Str) : ∀ (ms : List MsgDesc), P ns →
    (∀ t ∈ headers ns ms, P t) → (∀ scope x, At ns ms scope x → ∀ t, Uses scope x t → P t) →
      (∀ m ∈ ms, ∀ x ∈ msgDeps ns m, P x) ∧ ∀ p ∈ addMsgs ns ms, P p.1 ∧ ∀ x ∈ p.2, P x
  | [], _, _, _ => And.intro (fun _ h => nomatch h) (fun _ h => nomatch h)
  | m :: ms, hns, hh, hu => by
    have lift : ∀ {a b s x}, (∀ y ∈ a, y ∈ b) → At ns a s x → At ns b s x := by
      intro a b s x hab h
      cases h with
      | here h => exact .here (hab _ h)
      | inside h h' => exact .inside (hab _ h) h'
    have ih1 := mentionedMsg hr ns m hns (fun t ht => hh t (List.mem_append_left _ ht))
      (fun scope x hx => hu scope x (lift (by simp) hx))
    have ih2 := mentionedMsgs hr ns ms hns (fun t ht => hh t (List.mem_append_right _ ht))
      (fun scope x hx => hu scope x (lift (fun y hy => List.mem_cons_of_mem _ hy) hx))
    refine ⟨?_, ?_⟩
    · intro x hx
      rcases List.mem_cons.mp hx with rfl | hx
      · exact ih1.1
      · exact ih2.1 x hx
    · intro p hp
      rcases List.mem_append.mp hp with hp | hp
      · exact ih1.2 p hp
      · exact ih2.2 p hp
end

/-- The package is no type of the file. -/
theorem package_ne {f : FileDesc} {scope : Str} {m : MsgDesc} (h : At f.package f.messages scope m) :
    dot scope m.name ≠ f.package := by
  intro e
  have key : ∀ {ns ms scope m}, At ns ms scope m → ns.length < (dot scope m.name).length := by
    intro ns ms scope m h
    induction h with
    | here => simp [dot]
    | inside _ _ ih =>
      refine Nat.lt_trans ?_ ih
      simp [dot]
  exact absurd (key h) (by rw [e]; exact Nat.lt_irrefl _)

/-- The context at the top. -/
theorem file_ctx {f : FileDesc} (hv : f.Valid) (hc : f.Clear) (ho : f.NoOuter) {full order : List Str}
    (ht : toposort strLe (addMsgs f.package f.messages) = .ok full)
    (hord : order = if f.package.isEmpty then full else full.erase f.package) :
    full.Nodup ∧ Ctx full order f.package f.messages := by
  have hdist : (headers f.package f.messages).Nodup := hv.distinct.sublist (List.sublist_append_right _ _)
  obtain ⟨hd, hk, hm, he⟩ := toposort_spec ((keys_addMsgs _ _).nodup_iff.mpr hdist) ht
  refine ⟨hd, ?_⟩
  have hment : ∀ x ∈ full, f.Mentions x := by
    have := (mentionedMsgs (P := f.Mentions) (.inr (.inr (.inl rfl))) f.package f.messages (.inl rfl)
      (fun t h => .inr (.inl h)) (fun scope x hx t hu => .inr (.inr (.inr ⟨scope, x, hx, hu⟩)))).2
    intro x hx
    rcases hm x hx with h | ⟨p, hp, h⟩
    · obtain ⟨p, hp, rfl⟩ := List.mem_map.mp h
      exact (this p hp).1
    · exact (this p hp).2 x h
  have hsub : order.Sublist full := by
    rw [hord]
    split
    · exact .refl _
    · exact List.erase_sublist
  have hindex : ∀ scope m, At f.package f.messages scope m →
      sortedIndex scope m.name order 0 0 = order.idxOf (dot scope m.name) := by
    intro scope m hat
    have hin : dot scope m.name ∈ order := by
      have : dot scope m.name ∈ full := hk _ ((keys_addMsgs _ _).mem_iff.mpr hat.under)
      rw [hord]
      split
      · exact this
      · exact (List.mem_erase_of_ne (package_ne hat)).mpr this
    rw [sortedIndex_eq (removeAll_scope (hv.names _ _ hat)) order 0 0 (hd.sublist hsub) ?_ hin, Nat.zero_add]
    intro x hx e
    have := removeAll_removed (old := scope ++ ['.']) (by simp) x 0
    rw [e, List.drop_zero] at this
    exact hc.scopes scope m hat x (hment x (hsub.subset hx)) this
  exact
    { edges := fun p hp x hx hne => he p hp x hx hne
      index := by
        intro scope m m' h1 h2 hb
        rw [hindex _ _ h1, hindex _ _ h2]
        refine idxOf_lt (hd.sublist hsub) ?_
        rw [hord]
        split
        · exact hb
        · rw [hd.erase_eq_filter]
          have := hb.filter (fun x => x != f.package)
          rw [List.filter_cons_of_pos (by simpa using package_ne h1),
            List.filter_cons_of_pos (by simpa using package_ne h2)] at this
          exact this
      names := hv.names
      distinct := hdist
      prefixes := hc.prefixes
      outer := ho }

theorem order_perm {f : FileDesc} {ms : List MsgDesc} (h : f.order = .ok ms) :
    (f.header ms).Perm (f.header f.messages) := by
  unfold FileDesc.order at h
  cases ht : toposort strLe (addMsgs f.package f.messages) with
  | error e => rw [ht] at h; exact nomatch h
  | ok full =>
    rw [ht] at h
    have h : Except.ok _ = Except.ok ms := h
    injection h with h
    subst h
    exact (sorted_header _ _ _).append_left _

theorem order_before {f : FileDesc} (hv : f.Valid) (hc : f.Clear) (ho : f.NoOuter) {ms : List MsgDesc}
    (h : f.order = .ok ms) {scope : Str} {m : MsgDesc} (hm : At f.package f.messages scope m) {t : Str}
    (hu : Uses scope m t) (hd : t ∈ f.header f.messages) : Before (f.header ms) t (dot scope m.name) := by
  unfold FileDesc.order at h
  cases ht : toposort strLe (addMsgs f.package f.messages) with
  | error e => rw [ht] at h; exact nomatch h
  | ok full =>
    rw [ht] at h
    have h : Except.ok _ = Except.ok ms := h
    injection h with h
    subst h
    obtain ⟨hn, ctx⟩ := file_ctx hv hc ho ht rfl
    rcases List.mem_append.mp hd with hd | hd
    · exact pair_sublist hd ((sorted_header _ _ _).mem_iff.mpr hm.under)
    · exact (ctx.before hn hm hu hd).trans (List.sublist_append_right _ _)

theorem order_error {f : FileDesc} {e : GenError} (h : f.order = .error e) : e = .circular := by
  unfold FileDesc.order at h
  cases ht : toposort strLe (addMsgs f.package f.messages) with
  | error e' =>
    rw [ht] at h
    have h : Except.error e' = Except.error e := h
    injection h with h
    exact h ▸ toposort_error ht
  | ok full => rw [ht] at h; exact nomatch h

end EP.Gen
