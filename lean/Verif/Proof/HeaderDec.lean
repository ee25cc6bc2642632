import Verif.Spec.Header

/-!
# Deciding the conditions on names

For concrete files.
-/

namespace EP.Gen

mutual
def MsgDesc.listAt (ns : Str) : MsgDesc → List (Str × MsgDesc)
  | .mk name fields oneofs enums nested => (ns, .mk name fields oneofs enums nested) :: listAts (dot ns name) nested
def listAts (ns : Str) : List MsgDesc → List (Str × MsgDesc)
  | [] => []
  | m :: ms => m.listAt ns ++ listAts ns ms
end

theorem At.cons {ns : Str} {a : MsgDesc} {ms : List MsgDesc} {scope : Str} {m : MsgDesc} (h : At ns ms scope m) :
    At ns (a :: ms) scope m := by
  cases h with
  | here h => exact .here (List.mem_cons_of_mem _ h)
  | inside h h' => exact .inside (List.mem_cons_of_mem _ h) h'

mutual
theorem at_of_listAt (ns : Str) : ∀ (m : MsgDesc), ∀ p ∈ m.listAt ns, At ns [m] p.1 p.2
  | .mk name fields oneofs enums nested, p, h => by
    rw [MsgDesc.listAt] at h
    rcases List.mem_cons.mp h with rfl | h
    · exact .here List.mem_cons_self
    · exact .inside List.mem_cons_self (at_of_listAts (dot ns name) nested p h)
theorem at_of_listAts (ns : Str) : ∀ (ms : List MsgDesc), ∀ p ∈ listAts ns ms, At ns ms p.1 p.2
  | [], _, h => nomatch h
  | m :: ms, p, h => by
    rcases List.mem_append.mp h with h | h
    · cases at_of_listAt ns m p h with
      | here h => exact .here (List.mem_singleton.mp h ▸ List.mem_cons_self)
      | inside h h' => exact .inside (List.mem_singleton.mp h ▸ List.mem_cons_self) h'
    · exact (at_of_listAts ns ms p h).cons
end

theorem listAt_self (ns : Str) (m : MsgDesc) : (ns, m) ∈ m.listAt ns := by
  cases m
  rw [MsgDesc.listAt]
  exact List.mem_cons_self

theorem listAt_subset {ns : Str} {m : MsgDesc} : ∀ {ms : List MsgDesc}, m ∈ ms → ∀ p ∈ m.listAt ns, p ∈ listAts ns ms
  | [], h, _, _ => nomatch h
  | _ :: _, h, p, hp => by
    rw [listAts]
    rcases List.mem_cons.mp h with rfl | h
    · exact List.mem_append_left _ hp
    · exact List.mem_append_right _ (listAt_subset h p hp)

theorem At.mem_listAts {ns : Str} {ms : List MsgDesc} {scope : Str} {m : MsgDesc} (h : At ns ms scope m) :
    (scope, m) ∈ listAts ns ms := by
  induction h with
  | here hm => exact listAt_subset hm _ (listAt_self _ _)
  | @inside ns ms c scope m hc _ ih =>
    refine listAt_subset hc _ ?_
    cases c
    rw [MsgDesc.listAt]
    exact List.mem_cons_of_mem _ ih

/-- Statements about all messages of a file. -/
theorem forall_at {ns : Str} {ms : List MsgDesc} {P : Str → MsgDesc → Prop} :
    (∀ scope m, At ns ms scope m → P scope m) ↔ ∀ p ∈ listAts ns ms, P p.1 p.2 :=
  ⟨fun h p hp => h _ _ (at_of_listAts ns ms p hp), fun h _ _ hm => h _ hm.mem_listAts⟩

/-- The types used. -/
def used (scope : Str) (m : MsgDesc) : List Str :=
  ((m.fields.filter fun f => f.type == .message || f.type == .enum).map (·.typeName)).filter (· ≠ dot scope m.name)

theorem uses_iff {scope : Str} {m : MsgDesc} {t : Str} : Uses scope m t ↔ t ∈ used scope m := by
  simp only [Uses, used, List.mem_filter, List.mem_map]
  constructor
  · rintro ⟨h1, f, hf, h2, rfl⟩
    exact ⟨⟨f, ⟨hf, by simpa using h2⟩, rfl⟩, by simpa using h1⟩
  · rintro ⟨⟨f, ⟨hf, h2⟩, rfl⟩, h1⟩
    exact ⟨by simpa using h1, f, hf, by simpa using h2, rfl⟩

/-- `Removed`, for strings of at most `n` characters. -/
def removed (old : Str) : Nat → Str → Str → Bool
  | _, [], t => t.isEmpty
  | 0, _ :: _, _ => false
  | n + 1, c :: s, t =>
    (match t with
      | [] => false
      | d :: t => c == d && removed old n s t) ||
    (old.isPrefixOf (c :: s) && removed old n ((c :: s).drop old.length) t)

theorem removed_of {old : Str} (ho : old ≠ []) {s t : Str} (h : Removed old s t) : ∀ n, s.length ≤ n → removed old n s t = true := by
  induction h with
  | nil => intro n _; cases n <;> rfl
  | @keep s t c _ ih =>
    intro n hn
    cases n with
    | zero => simp at hn
    | succ n =>
      simp only [List.length_cons] at hn
      simp [removed, ih n (by omega)]
  | @drop s t _ ih =>
    intro n hn
    match old, ho with
    | o :: os, _ =>
      cases n with
      | zero => simp at hn
      | succ n =>
        simp only [List.cons_append, List.length_cons, List.length_append] at hn
        have h1 := ih n (by omega)
        cases t <;> simp [removed, h1]

theorem clear_of {f : FileDesc}
    (h1 : ∀ p ∈ listAts f.package f.messages, ∀ q ∈ listAts f.package f.messages, ∀ t ∈ used q.1 q.2,
      (dot p.1 p.2.name).isPrefixOf t = true → t = dot p.1 p.2.name ∨ (dot p.1 p.2.name ++ ['.']).isPrefixOf t = true)
    (h2 : ∀ p ∈ listAts f.package f.messages,
      ∀ n ∈ f.package :: (headers f.package f.messages ++ "FieldErrorRecursive".toList ::
        (listAts f.package f.messages).flatMap fun q => used q.1 q.2),
      removed (p.1 ++ ['.']) n.length n p.2.name = true → n = dot p.1 p.2.name) : f.Clear where
  prefixes := by
    intro scope m hm scope' m' t hm' hu hp
    rcases h1 _ hm.mem_listAts _ hm'.mem_listAts t (uses_iff.mp hu) (List.isPrefixOf_iff_prefix.mpr hp) with h | h
    · exact .inl h
    · exact .inr (List.isPrefixOf_iff_prefix.mp h)
  scopes := by
    intro scope m hm n hn hr
    refine h2 _ hm.mem_listAts n ?_ (removed_of (by simp) hr _ (Nat.le_refl _))
    rcases hn with rfl | hn | rfl | ⟨s, x, hx, hu⟩
    · exact List.mem_cons_self
    · exact List.mem_cons_of_mem _ (List.mem_append_left _ hn)
    · exact List.mem_cons_of_mem _ (List.mem_append_right _ List.mem_cons_self)
    · exact List.mem_cons_of_mem _ (List.mem_append_right _ (List.mem_cons_of_mem _
        (List.mem_flatMap.mpr ⟨_, hx.mem_listAts, uses_iff.mp hu⟩)))

theorem noOuter_of {f : FileDesc}
    (h : ∀ p ∈ listAts f.package f.messages, ∀ q ∈ listAts f.package f.messages, dot q.1 q.2.name ∈ used p.1 p.2 →
      (dot q.1 q.2.name ++ ['.']).isPrefixOf (dot p.1 p.2.name) = false) : f.NoOuter := by
  intro scope m t hm hu ⟨outer, c, hc, e, hp⟩
  have := h _ hm.mem_listAts _ hc.mem_listAts (e ▸ uses_iff.mp hu)
  rw [List.isPrefixOf_iff_prefix.mpr hp] at this
  exact nomatch this

theorem valid_of {f : FileDesc}
    (h1 : ∀ p ∈ listAts f.package f.messages, '.' ∉ p.2.name ∧ ∀ e ∈ p.2.enums, '.' ∉ e)
    (h2 : (f.header f.messages).Nodup) : f.Valid where
  names _ _ hm := (h1 _ hm.mem_listAts).1
  enums _ _ hm := (h1 _ hm.mem_listAts).2
  distinct := h2

end EP.Gen
