import Verif.Model.GenTypes
import Verif.Proof.GenTemplates

/-!
# Proofs about the names of types
-/

namespace EP.Gen

/-! ## Paths -/

theorem comps_ne_nil : ∀ s, comps s ≠ []
  | [] => by simp [comps]
  | c :: s => by
    unfold comps
    split
    · simp
    · split <;> simp

theorem comps_plain : ∀ {s : Str}, '.' ∉ s → comps s = [s]
  | [], _ => rfl
  | c :: s, h => by
    obtain ⟨h1, h2⟩ := not_or.mp (mt List.mem_cons.mpr h)
    unfold comps
    rw [if_neg (fun e => h1 e.symm), comps_plain h2]

theorem comps_dot : ∀ (s n : Str), comps (dot s n) = comps s ++ comps n
  | [], n => by simp [dot, comps]
  | c :: s, n => by
    have ih := comps_dot s n
    unfold dot at ih ⊢
    rw [List.cons_append]
    show (if c = '.' then [] :: comps (s ++ '.' :: n) else _) = (if c = '.' then [] :: comps s else _) ++ comps n
    rw [ih]
    by_cases hc : c = '.'
    · rw [if_pos hc, if_pos hc]; rfl
    · rw [if_neg hc, if_neg hc]
      cases e : comps s with
      | nil => exact absurd e (comps_ne_nil s)
      | cons x xs => rfl

theorem pathOf_dot {s n : Str} (h : '.' ∉ n) : pathOf (dot s n) = pathOf s ++ [n] := by
  unfold pathOf
  rw [comps_dot, comps_plain h]
  cases e : comps s with
  | nil => exact absurd e (comps_ne_nil s)
  | cons x xs => rfl

/-! ## Scopes -/

theorem common_le : ∀ (d p : List Str), common d p ≤ d.length ∧ common d p ≤ p.length
  | [], _ => by simp [common]
  | _ :: _, [] => by simp [common]
  | d :: ds, p :: ps => by
    have := common_le ds ps
    unfold common
    split
    · simp only [List.length_cons]; omega
    · exact ⟨Nat.zero_le _, Nat.zero_le _⟩

theorem common_take : ∀ (d p : List Str), d.take (common d p) = p.take (common d p)
  | [], _ => by simp [common]
  | _ :: _, [] => by simp [common]
  | d :: ds, p :: ps => by
    unfold common
    split
    · rename_i h
      rw [h, List.take_succ_cons, List.take_succ_cons, common_take ds ps]
    · rfl

theorem scopeGet_names (t : List Str → List Str) : ∀ (o l : List Str), (scopeGet t o l).map (·.1) = l
  | _, [] => rfl
  | o, x :: l => by
    show x :: (scopeGet t (o ++ [x]) l).map (·.1) = x :: l
    rw [scopeGet_names]

theorem scopeGet_dropLast (t : List Str → List Str) : ∀ (o l : List Str),
    (scopeGet t o l).dropLast = scopeGet t o l.dropLast
  | _, [] => rfl
  | _, [_] => rfl
  | o, x :: y :: l => by
    show (x, _) :: (scopeGet t (o ++ [x]) (y :: l)).dropLast = (x, _) :: scopeGet t (o ++ [x]) (y :: l).dropLast
    rw [scopeGet_dropLast]

theorem commonScopes_eq (t : List Str → List Str) : ∀ (o d p : List Str),
    commonScopes (scopeGet t o d) (scopeGet t o p) = common d p
  | _, [], _ => by cases ‹List Str› <;> rfl
  | _, _ :: _, [] => rfl
  | o, d :: ds, p :: ps => by
    show (if (d, t (o ++ [d])) = (p, t (o ++ [p])) then commonScopes (scopeGet t (o ++ [d]) ds) (scopeGet t (o ++ [p]) ps) + 1
      else 0) = if d = p then common ds ps + 1 else 0
    by_cases h : d = p
    · subst h
      rw [if_pos rfl, if_pos rfl, commonScopes_eq]
    · rw [if_neg h, if_neg (fun e => h (Prod.mk.inj e).1)]

theorem reducedScope_names (t : List Str → List Str) (own d : List Str) :
    (reducedScope t own d).map (·.1) = d.drop (shared own d) := by
  unfold reducedScope shared
  dsimp only
  rw [scopeGet_dropLast, commonScopes_eq, List.map_drop, scopeGet_names]

theorem scopeGet_getElem (t : List Str → List Str) : ∀ (o l : List Str) (i : Nat) (h : i < l.length),
    (l[i], t (o ++ l.take (i + 1))) ∈ (scopeGet t o l).drop i
  | o, x :: l, 0, _ => List.mem_cons_self
  | o, x :: l, i + 1, h => by
    have := scopeGet_getElem t (o ++ [x]) l i (Nat.lt_of_succ_lt_succ h)
    rw [List.append_assoc] at this
    exact this

theorem mem_drop_of_le {α : Type} {l : List α} {a : α} {i j : Nat} (hij : i ≤ j) (h : a ∈ l.drop j) : a ∈ l.drop i := by
  rw [show j = i + (j - i) by omega, ← List.drop_drop] at h
  exact List.mem_of_mem_drop h

theorem reducedScope_templates (t : List Str → List Str) (own d : List Str)
    (h : (reducedScope t own d).any (fun s => !s.2.isEmpty) = false) :
    ∀ i, shared own d < i → i ≤ d.length → (!(t (d.take i)).isEmpty) = false := by
  intro i h0 hi
  have hm := scopeGet_getElem t [] d (i - 1) (by omega)
  rw [List.nil_append, show i - 1 + 1 = i by omega] at hm
  have hm := mem_drop_of_le (show shared own d ≤ i - 1 by omega) hm
  unfold shared at hm
  unfold reducedScope at h
  dsimp only at h
  rw [scopeGet_dropLast, commonScopes_eq] at h
  have := List.any_eq_false.mp h _ hm
  simpa using this

theorem shared_take (own d : List Str) : d.take (shared own d) = own.take (shared own d) := by
  have h := common_take d.dropLast own
  have hl := (common_le d.dropLast own).1
  rw [List.length_dropLast] at hl
  unfold shared
  rw [← h]
  generalize common d.dropLast own = n at hl
  rw [List.dropLast_eq_take, List.take_take, Nat.min_eq_left hl]

theorem shared_lt {own d : List Str} (h : d ≠ []) : shared own d < d.length := by
  have hl := (common_le d.dropLast own).1
  rw [List.length_dropLast] at hl
  have := List.length_pos_iff.mpr h
  unfold shared
  omega

theorem shared_le (own d : List Str) : shared own d ≤ own.length := (common_le d.dropLast own).2

theorem shared_append (own d : List Str) : own.take (shared own d) ++ d.drop (shared own d) = d := by
  rw [← shared_take, List.take_append_drop]

/-! ## Lookup -/

namespace Program
variable (P : Program)

theorem lookup_nil (text : List Str) : P.lookup [] text = P.here text [] .missing := rfl

theorem lookup_snoc (ctx : List Str) (x : Str) (text : List Str) :
    P.lookup (ctx ++ [x]) text = P.here text (ctx ++ [x]) (P.lookup ctx text) := by
  unfold lookup
  rw [List.reverse_append]
  show P.here text (x :: ctx.reverse).reverse (P.resolve text ctx.reverse) = _
  rw [List.reverse_cons, List.reverse_reverse]

theorem lookup_here (ctx text : List Str) : ∃ outer, P.lookup ctx text = P.here text ctx outer := by
  rcases List.eq_nil_or_concat ctx with rfl | ⟨l, x, rfl⟩
  · exact ⟨_, rfl⟩
  · rw [List.concat_eq_append]
    exact ⟨_, P.lookup_snoc l x text⟩

theorem within_iff {scope text : List Str} (h : scope ++ text ∈ P.types) :
    P.within scope text = .type (scope ++ text) ↔
      ∀ i, 0 < i → i < text.length → P.template (scope ++ text.take i) = false := by
  unfold within
  rw [if_pos h]
  constructor
  · intro e i h0 hi
    by_cases ht : ((List.range (text.length - 1)).any fun i => P.template (scope ++ text.take (i + 1))) = true
    · rw [if_pos ht] at e
      exact nomatch e
    · have := ht
      simp only [List.any_eq_true, List.mem_range, not_exists, not_and, Bool.not_eq_true] at this
      have := this (i - 1) (by omega)
      rwa [show i - 1 + 1 = i by omega] at this
  · intro ha
    rw [if_neg]
    simp only [List.any_eq_true, List.mem_range, not_exists, not_and, Bool.not_eq_true]
    exact fun i hi => ha (i + 1) (by omega) (by omega)

theorem within_type {scope text p : List Str} (h : P.within scope text = .type p) : p = scope ++ text := by
  unfold within at h
  split at h
  · exact nomatch h
  · split at h
    · injection h with h; exact h.symm
    · exact nomatch h

/-- Exactly when the text stands for what it is meant for. -/
theorem lookup_iff {ctx text : List Str} {n : Nat} (hn : n ≤ ctx.length) (hs : P.IsScope (ctx.take n ++ text.take 1))
    (ht : ctx.take n ++ text ∈ P.types) :
    P.lookup ctx text = .type (ctx.take n ++ text) ↔
      (∀ k, n < k → k ≤ ctx.length → ¬ P.Hides (ctx.take k) text ∧ ¬ P.IsScope (ctx.take k ++ text.take 1)) ∧
      ¬ P.Hides (ctx.take n) text ∧
      ∀ i, 0 < i → i < text.length → P.template (ctx.take n ++ text.take i) = false := by
  have key : ∀ k, n ≤ k → k ≤ ctx.length → (P.lookup (ctx.take k) text = .type (ctx.take n ++ text) ↔
      (∀ j, n < j → j ≤ k → ¬ P.Hides (ctx.take j) text ∧ ¬ P.IsScope (ctx.take j ++ text.take 1)) ∧
      ¬ P.Hides (ctx.take n) text ∧
      ∀ i, 0 < i → i < text.length → P.template (ctx.take n ++ text.take i) = false) := by
    intro k hk
    induction hk with
    | refl =>
      intro _
      obtain ⟨outer, e⟩ := P.lookup_here (ctx.take n) text
      rw [e]
      unfold here
      by_cases hh : P.Hides (ctx.take n) text
      · rw [if_pos hh]
        exact ⟨fun h => (nomatch h), fun h => absurd hh h.2.1⟩
      · rw [if_neg hh, if_pos hs, P.within_iff ht]
        exact ⟨fun h => ⟨fun j h1 h2 => absurd h2 (by omega), hh, h⟩, fun h => h.2.2⟩
    | @step k hk ih =>
      intro hl
      have ih := ih (by omega)
      have e : ctx.take (k + 1) = ctx.take k ++ [ctx[k]] := (List.take_append_getElem (by omega)).symm
      rw [e, P.lookup_snoc, ← e]
      unfold here
      have split : ∀ Q : Nat → Prop, (∀ j, n < j → j ≤ k + 1 → Q j) ↔ Q (k + 1) ∧ ∀ j, n < j → j ≤ k → Q j := fun Q =>
        ⟨fun h => ⟨h _ (by have : n ≤ k := hk; omega) (Nat.le_refl _), fun j h1 h2 => h j h1 (by omega)⟩,
          fun h j h1 h2 => if hj : j = k + 1 then hj ▸ h.1 else h.2 j h1 (by omega)⟩
      rw [split]
      by_cases hh : P.Hides (ctx.take (k + 1)) text
      · rw [if_pos hh]
        exact Iff.intro (fun h => nomatch h) (fun h => absurd hh h.1.1.1)
      · rw [if_neg hh]
        by_cases hsc : P.IsScope (ctx.take (k + 1) ++ text.take 1)
        · rw [if_pos hsc]
          refine ⟨fun h => ?_, fun h => absurd hsc h.1.1.2⟩
          have := congrArg List.length (P.within_type h)
          rw [List.length_append, List.length_append, List.length_take, List.length_take] at this
          have : n ≤ k := hk
          omega
        · rw [if_neg hsc, ih]
          exact ⟨fun h => ⟨⟨⟨hh, hsc⟩, h.1⟩, h.2⟩, fun h => ⟨h.1.2, h.2⟩⟩
  have := key ctx.length hn (Nat.le_refl _)
  rwa [List.take_length] at this

end Program

/-! ## Names of definitions -/

theorem sep_inj : ∀ {x y r r' : Str}, ':' ∉ x → ':' ∉ y → x ++ ':' :: r = y ++ ':' :: r' → x = y ∧ r = r'
  | [], [], _, _, _, _, h => ⟨rfl, (List.cons.inj h).2⟩
  | [], c :: y, _, _, _, hy, h => absurd List.mem_cons_self ((List.cons.inj h).1 ▸ hy)
  | c :: x, [], _, _, hx, _, h => absurd List.mem_cons_self ((List.cons.inj h).1 ▸ hx)
  | c :: x, d :: y, _, _, hx, hy, h => by
    obtain ⟨h1, h2⟩ := List.cons.inj h
    obtain ⟨h3, h4⟩ := sep_inj (fun h => hx (List.mem_cons_of_mem _ h)) (fun h => hy (List.mem_cons_of_mem _ h)) h2
    exact ⟨by rw [h1, h3], h4⟩

theorem scopeStr_inj : ∀ {a b : List Str}, a ≠ [] → b ≠ [] → (∀ x ∈ a, ':' ∉ x) → (∀ x ∈ b, ':' ∉ x) →
    scopeStr a = scopeStr b → a = b
  | [], _, h, _, _, _, _ => absurd rfl h
  | _ :: _, [], _, h, _, _, _ => absurd rfl h
  | [x], [y], _, _, _, _, h => congrArg (· :: []) h
  | [x], y :: z :: l, _, _, ha, _, h => by
    refine absurd ?_ (ha x List.mem_cons_self)
    rw [show x = _ from h]
    simp [scopeStr]
  | x :: z :: l, [y], _, _, _, hb, h => by
    refine absurd ?_ (hb y List.mem_cons_self)
    rw [show y = _ from h.symm]
    simp [scopeStr]
  | x :: x' :: l, y :: y' :: l', _, _, ha, hb, h => by
    have h' : x ++ ':' :: (':' :: scopeStr (x' :: l)) = y ++ ':' :: (':' :: scopeStr (y' :: l')) := by
      simpa [scopeStr] using h
    obtain ⟨h1, h2⟩ := sep_inj (ha x List.mem_cons_self) (hb y List.mem_cons_self) h'
    rw [h1, scopeStr_inj (by simp) (by simp) (fun x hx => ha x (List.mem_cons_of_mem _ hx))
      (fun x hx => hb x (List.mem_cons_of_mem _ hx)) (List.cons.inj h2).2]

theorem scopeStr_comps : ∀ s : Str, scopeStr (comps s) = s.flatMap fun c => if c = '.' then "::".toList else [c]
  | [] => rfl
  | c :: s => by
    have ih := scopeStr_comps s
    rw [List.flatMap_cons, ← ih]
    show scopeStr (if c = '.' then [] :: comps s else _) = _
    cases e : comps s with
    | nil => exact absurd e (comps_ne_nil s)
    | cons x xs =>
      by_cases hc : c = '.'
      · rw [if_pos hc, if_pos hc]; rfl
      · rw [if_neg hc, if_neg hc]
        cases xs <;> rfl

theorem typeStr_pathOf {t : Str} (h : t.head? = some '.') : typeStr t = scopeStr (pathOf t) := by
  cases t with
  | nil => exact nomatch h
  | cons c s =>
    obtain rfl : c = '.' := Option.some.inj h
    exact (scopeStr_comps s).symm

/-- A full name. -/
structure FullName (t : Str) : Prop where
  lead : t.head? = some '.'
  plain : ∀ x ∈ pathOf t, SimpleName x
  ne : pathOf t ≠ []

theorem FullName.mk_dot {ns n : Str} (h : ns = [] ∨ ns.head? = some '.') (hp : ∀ x ∈ pathOf ns, SimpleName x)
    (hn : SimpleName n) : FullName (dot ns n) := by
  refine ⟨?_, ?_, ?_⟩
  · rcases h with rfl | h
    · rfl
    · cases ns with
      | nil => exact nomatch h
      | cons c s => exact h
  · rw [pathOf_dot hn.2.1]
    intro x hx
    rcases List.mem_append.mp hx with hx | hx
    · exact hp x hx
    · exact List.mem_singleton.mp hx ▸ hn
  · rw [pathOf_dot hn.2.1]; simp

theorem matchType_ok {names : List Str} {t : Str} (hall : ∀ n ∈ names, FullName n) (ht : t ∈ names) :
    matchType (names.map pathOf) t = .ok (pathOf t) := by
  have hf := hall t ht
  unfold matchType
  have hs : ∃ d, (names.map pathOf).find? (fun d => decide (typeStr t = scopeStr d)) = some d := by
    rw [← Option.isSome_iff_exists, List.find?_isSome]
    exact ⟨pathOf t, List.mem_map_of_mem ht, by simp [typeStr_pathOf hf.lead]⟩
  obtain ⟨d, hd⟩ := hs
  rw [hd]
  have h1 := List.find?_some hd
  have h2 := List.mem_of_find?_eq_some hd
  obtain ⟨n, hn, rfl⟩ := List.mem_map.mp h2
  have h3 : typeStr t = scopeStr (pathOf n) := by simpa using h1
  rw [typeStr_pathOf hf.lead] at h3
  show Except.ok (pathOf n) = .ok (pathOf t)
  rw [scopeStr_inj hf.ne (hall n hn).ne (fun x hx => (hf.plain x hx).2.2) (fun x hx => ((hall n hn).plain x hx).2.2) h3]

mutual
theorem all_eq_defs (ns : Str) : ∀ m : MsgDesc, m.all ns = m.defs ns
  | .mk name fields oneofs enums nested => by rw [MsgDesc.all, MsgDesc.defs, allMsgs_eq_defsList]
theorem allMsgs_eq_defsList (ns : Str) : ∀ ms : List MsgDesc, allMsgs ns ms = defsList ns ms
  | [] => rfl
  | m :: ms => by rw [allMsgs, defsList, all_eq_defs, allMsgs_eq_defsList]
end

theorem mem_filesMsgs {files : List FileDesc} {t : Str} {m : MsgDesc} : (t, m) ∈ filesMsgs files ↔
    MessageNamed files t m := by
  unfold filesMsgs MessageNamed
  rw [List.mem_flatMap]
  refine exists_congr fun f => and_congr_right fun _ => ?_
  rw [allMsgs_eq_defsList]
  constructor
  · intro h
    obtain ⟨scope, h1, h2⟩ := at_of_defsList _ _ _ h
    exact ⟨scope, h1, h2⟩
  · rintro ⟨scope, h1, rfl⟩
    exact h1.mem_defsList

theorem At.mono {ns : Str} {ms ms' : List MsgDesc} (hs : ∀ m ∈ ms, m ∈ ms') {scope : Str} {m : MsgDesc}
    (h : At ns ms scope m) : At ns ms' scope m := by
  cases h with
  | here h => exact .here (hs _ h)
  | inside h h' => exact .inside (hs _ h) h'

mutual
theorem at_of_allEnums (ns : Str) : ∀ (m : MsgDesc), ∀ e ∈ m.allEnums ns,
    ∃ scope m', At ns [m] scope m' ∧ ∃ n ∈ m'.enums, e = dot (dot scope m'.name) n
  | .mk name fields oneofs enums nested, e, h => by
    rw [MsgDesc.allEnums, List.mem_append] at h
    rcases h with h | h
    · obtain ⟨n, hn, rfl⟩ := List.mem_map.mp h
      exact ⟨ns, _, .here List.mem_cons_self, n, hn, rfl⟩
    · obtain ⟨scope, m', h1, h2⟩ := at_of_allEnumsList (dot ns name) nested e h
      exact ⟨scope, m', .inside List.mem_cons_self h1, h2⟩
theorem at_of_allEnumsList (ns : Str) : ∀ (ms : List MsgDesc), ∀ e ∈ allEnums ns ms,
    ∃ scope m', At ns ms scope m' ∧ ∃ n ∈ m'.enums, e = dot (dot scope m'.name) n
  | [], _, h => nomatch h
  | m :: ms, e, h => by
    rw [allEnums, List.mem_append] at h
    rcases h with h | h
    · obtain ⟨scope, m', h1, h2⟩ := at_of_allEnums ns m e h
      exact ⟨scope, m', h1.mono (fun _ hm => List.mem_singleton.mp hm ▸ List.mem_cons_self), h2⟩
    · obtain ⟨scope, m', h1, h2⟩ := at_of_allEnumsList ns ms e h
      exact ⟨scope, m', h1.mono (fun _ hm => List.mem_cons_of_mem _ hm), h2⟩
end

theorem mem_allEnumsList {ns e : Str} : ∀ {ms : List MsgDesc}, e ∈ allEnums ns ms ↔ ∃ m ∈ ms, e ∈ m.allEnums ns
  | [] => by simp [allEnums]
  | m :: ms => by simp [allEnums, mem_allEnumsList]

theorem At.mem_allEnums {ns : Str} {ms : List MsgDesc} {scope : Str} {m : MsgDesc} (h : At ns ms scope m) {n : Str}
    (hn : n ∈ m.enums) : dot (dot scope m.name) n ∈ allEnums ns ms := by
  induction h with
  | @here ns ms m hm =>
    refine mem_allEnumsList.mpr ⟨_, hm, ?_⟩
    cases m
    exact List.mem_append_left _ (List.mem_map_of_mem hn)
  | @inside ns ms c scope m hc h ih =>
    refine mem_allEnumsList.mpr ⟨_, hc, ?_⟩
    cases c
    exact List.mem_append_right _ (ih hn)

theorem mem_filesEnums {files : List FileDesc} {t : Str} : t ∈ filesEnums files ↔ EnumNamed files t := by
  unfold filesEnums EnumNamed
  rw [List.mem_flatMap]
  refine exists_congr fun f => and_congr_right fun _ => ?_
  rw [List.mem_append, List.mem_map]
  refine or_congr (exists_congr fun e => and_congr_right fun _ => eq_comm) ⟨fun h => at_of_allEnumsList _ _ _ h, ?_⟩
  rintro ⟨scope, m, h1, n, h2, rfl⟩
  exact h1.mem_allEnums h2

/-- What is around a message. -/
structure Around (ns : Str) (ms : List MsgDesc) (t : Str) : Prop where
  pre : pathOf ns <+: pathOf t
  full : (ns = [] ∨ ns.head? = some '.') → (∀ x ∈ pathOf ns, SimpleName x) → FullName t
  take : ∀ k, (pathOf ns).length < k → k ≤ (pathOf t).length → ∃ scope m, At ns ms scope m ∧
    (pathOf t).take k = pathOf (Gen.dot scope m.name)

theorem At.around {ns : Str} {ms : List MsgDesc} {scope : Str} {m : MsgDesc} (h : At ns ms scope m)
    (hp : ∀ scope m, At ns ms scope m → SimpleName m.name) : Around ns ms (dot scope m.name) := by
  induction h with
  | @here ns ms m hm =>
    have hn := hp _ _ (.here hm)
    refine ⟨?_, fun h1 h2 => .mk_dot h1 h2 hn, fun k h1 h2 => ⟨_, _, .here hm, ?_⟩⟩
    · rw [pathOf_dot hn.2.1]; exact List.prefix_append _ _
    · rw [pathOf_dot hn.2.1] at h2 ⊢
      rw [List.take_of_length_le]
      rw [List.length_append, List.length_singleton] at h2 ⊢
      omega
  | @inside ns ms c scope m hc h ih =>
    have hn := hp _ _ (.here hc)
    have ih := ih fun scope m h => hp scope m (.inside hc h)
    have e := pathOf_dot (s := ns) hn.2.1
    refine ⟨?_, fun h1 h2 => ?_, fun k h1 h2 => ?_⟩
    · exact (List.prefix_append _ _).trans (e ▸ ih.pre)
    · have hf := FullName.mk_dot h1 h2 hn
      exact ih.full (.inr hf.lead) hf.plain
    · by_cases hk : k = (pathOf ns).length + 1
      · refine ⟨ns, c, .here hc, ?_⟩
        obtain ⟨r, hr⟩ := ih.pre
        rw [← hr, List.take_append_of_le_length (by rw [e]; simp [hk]), List.take_of_length_le (by rw [e]; simp [hk])]
      · obtain ⟨scope', m', h3, h4⟩ := ih.take k (by rw [e, List.length_append, List.length_singleton]; omega) h2
        exact ⟨scope', m', .inside hc h3, h4⟩

variable {files : List FileDesc} (hv : FilesNames files)
include hv

theorem FilesNames.msg {t : Str} {m : MsgDesc} (h : (t, m) ∈ filesMsgs files) :
    ∃ f ∈ files, Around f.package f.messages t ∧ FullName t := by
  obtain ⟨f, hf, scope, hat, rfl⟩ := mem_filesMsgs.mp h
  have ha := hat.around fun scope m h => (hv.messages f hf scope m h).1
  exact ⟨f, hf, ha, ha.full (hv.package f hf).1 (hv.package f hf).2⟩

theorem FilesNames.enum {t : Str} (h : t ∈ filesEnums files) : FullName t ∧ ∃ f ∈ files, ∃ s n, t = dot s n ∧ '.' ∉ n ∧
    (s = f.package ∨ ∃ m, (s, m) ∈ filesMsgs files) := by
  unfold filesEnums at h
  obtain ⟨f, hf, h⟩ := List.mem_flatMap.mp h
  rcases List.mem_append.mp h with h | h
  · obtain ⟨n, hn, rfl⟩ := List.mem_map.mp h
    exact ⟨.mk_dot (hv.package f hf).1 (hv.package f hf).2 (hv.enums f hf n hn), f, hf, _, _, rfl,
      (hv.enums f hf n hn).2.1, .inl rfl⟩
  · obtain ⟨scope, m, hat, n, hn, rfl⟩ := at_of_allEnumsList _ _ _ h
    have hp := (hv.messages f hf scope m hat).2 n hn
    have hm := mem_filesMsgs.mpr ⟨f, hf, scope, hat, rfl⟩
    obtain ⟨_, _, _, hfull⟩ := hv.msg hm
    exact ⟨.mk_dot (.inr hfull.lead) hfull.plain hp, f, hf, _, _, rfl, hp.2.1, .inr ⟨m, hm⟩⟩

omit hv in
theorem space_scope (T : List Str → List Str) {f : FileDesc} (hf : f ∈ files) {k : Nat} (h0 : 0 < k)
    (hk : k ≤ (pathOf f.package).length) : (programOf T files).IsScope ((pathOf f.package).take k) := by
  refine .inr (List.mem_cons_of_mem _ (List.mem_flatMap.mpr ⟨f, hf, ?_⟩))
  unfold spacesOf
  exact List.mem_map.mpr ⟨k - 1, List.mem_range.mpr (by omega), by rw [show k - 1 + 1 = k by omega]⟩

theorem msg_scope (T : List Str → List Str) {t : Str} {m : MsgDesc} (h : (t, m) ∈ filesMsgs files) {k : Nat}
    (h0 : 0 < k) (hk : k ≤ (pathOf t).length) : (programOf T files).IsScope ((pathOf t).take k) := by
  obtain ⟨f, hf, ha, _⟩ := hv.msg h
  by_cases hp : k ≤ (pathOf f.package).length
  · obtain ⟨r, hr⟩ := ha.pre
    rw [← hr, List.take_append_of_le_length hp]
    exact space_scope T hf h0 hp
  · obtain ⟨scope, m', hat, e⟩ := ha.take k (by omega) hk
    rw [e]
    refine .inl (List.mem_append_left _ (List.mem_append_right _ ?_))
    exact List.mem_map.mpr ⟨(dot scope m'.name, m'), mem_filesMsgs.mpr ⟨f, hf, scope, hat, rfl⟩, rfl⟩

theorem known_spec (T : List Str → List Str) {f : FieldDesc} (hk : KnownType files f) :
    FullName f.typeName ∧ pathOf f.typeName ∈ (programOf T files).types ∧
      matchType (definitions files f.type) f.typeName = .ok (pathOf f.typeName) ∧
      ∀ k, 0 < k → k ≤ (pathOf f.typeName).length → (programOf T files).IsScope ((pathOf f.typeName).take k) := by
  rcases hk with ⟨ht, hm⟩ | ⟨ht, hm⟩
  · obtain ⟨m, hmem⟩ := hm
    replace hmem := mem_filesMsgs.mpr hmem
    obtain ⟨_, _, _, hfull⟩ := hv.msg hmem
    refine ⟨hfull, ?_, ?_, fun k h0 hk => msg_scope hv T hmem h0 hk⟩
    · exact List.mem_append_left _ (List.mem_append_right _ (List.mem_map.mpr ⟨_, hmem, rfl⟩))
    · rw [ht]
      show matchType ((filesMsgs files).map fun m => pathOf m.1) _ = _
      have := matchType_ok (names := (filesMsgs files).map (·.1)) (fun n hn => by
        obtain ⟨⟨t', m'⟩, h1, rfl⟩ := List.mem_map.mp hn
        exact (hv.msg h1).elim fun _ h => h.2.2) (List.mem_map.mpr ⟨_, hmem, rfl⟩)
      rwa [List.map_map] at this
  · replace hm := mem_filesEnums.mpr hm
    obtain ⟨hfull, g, hg, s, n, e, hn, hs⟩ := hv.enum hm
    have hty : pathOf f.typeName ∈ (programOf T files).types :=
      List.mem_append_left _ (List.mem_append_left _ (List.mem_map.mpr ⟨_, hm, rfl⟩))
    refine ⟨hfull, hty, ?_, fun k h0 hk => ?_⟩
    · rw [ht]
      exact matchType_ok (fun n hn => (hv.enum hn).1) hm
    · have ep : pathOf f.typeName = pathOf s ++ [n] := by rw [e, pathOf_dot hn]
      by_cases hl : k = (pathOf f.typeName).length
      · rw [hl, List.take_length]
        exact .inl hty
      · have hk' : k ≤ (pathOf s).length := by
          rw [ep, List.length_append, List.length_singleton] at hk hl
          omega
        rw [ep, List.take_append_of_le_length hk']
        rcases hs with rfl | ⟨m, hm⟩
        · exact space_scope T hg h0 hk'
        · exact msg_scope hv T hm h0 hk'

end EP.Gen
