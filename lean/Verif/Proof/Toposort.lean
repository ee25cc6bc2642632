import Verif.Model.GenOrder
import Verif.Proof.GenMessage

/-!
# Topological sorting
-/

namespace EP.Gen

section
variable {α : Type} [DecidableEq α]

theorem mem_dedup {a : α} : ∀ {l : List α}, a ∈ dedup l ↔ a ∈ l
  | [] => Iff.rfl
  | b :: l => by
    unfold dedup
    split
    · next h => rw [mem_dedup, List.mem_cons]; exact ⟨.inr, fun h' => h'.elim (fun e => e ▸ h) id⟩
    · rw [List.mem_cons, List.mem_cons, mem_dedup]

theorem nodup_dedup : ∀ l : List α, (dedup l).Nodup
  | [] => List.nodup_nil
  | b :: l => by
    unfold dedup
    split
    · exact nodup_dedup l
    · next h => exact List.nodup_cons.mpr ⟨fun h' => h (mem_dedup.mp h'), nodup_dedup l⟩

/-- Every dependency is an item. -/
def Closed (d : Deps α) : Prop := ∀ p ∈ d, ∀ x ∈ p.2, x ∈ keys d

omit [DecidableEq α] in
theorem mem_keys_of_mem {d : Deps α} {p : α × List α} (h : p ∈ d) : p.1 ∈ keys d := List.mem_map_of_mem h

theorem keys_close (d : Deps α) : keys (closeDeps d) = keys d ++
    (dedup ((d.map fun p => (p.1, p.2.filter (· ≠ p.1))).flatMap (·.2))).filter (· ∉ keys d) := by
  have h1 : keys (d.map fun p => (p.1, p.2.filter (· ≠ p.1))) = keys d := by
    simp only [keys, List.map_map]
    rfl
  have h2 : ∀ l : List α, keys (l.map (·, ([] : List α))) = l := fun l => by
    simp only [keys, List.map_map]
    exact List.map_id l
  have h3 : ∀ a b : Deps α, keys (a ++ b) = keys a ++ keys b := fun a b => List.map_append
  simp only [closeDeps]
  rw [h3, h2, h1]

theorem closeDeps_closed (d : Deps α) : Closed (closeDeps d) := by
  intro p hp x hx
  rw [keys_close]
  rcases List.mem_append.mp hp with hp | hp
  · obtain ⟨q, hq, rfl⟩ := List.mem_map.mp hp
    by_cases hk : x ∈ keys d
    · exact List.mem_append_left _ hk
    · refine List.mem_append_right _ (List.mem_filter.mpr ⟨mem_dedup.mpr ?_, by simpa using hk⟩)
      exact List.mem_flatMap.mpr ⟨_, List.mem_map_of_mem hq, hx⟩
  · obtain ⟨q, hq, rfl⟩ := List.mem_map.mp hp
    exact nomatch hx

theorem closeDeps_nodup {d : Deps α} (h : (keys d).Nodup) : (keys (closeDeps d)).Nodup := by
  rw [keys_close]
  refine List.nodup_append.mpr ⟨h, (nodup_dedup _).filter _, ?_⟩
  intro a ha b hb e
  subst e
  have := (List.mem_filter.mp hb).2
  simp at this
  exact this ha

theorem closeDeps_mem {d : Deps α} {p : α × List α} (hp : p ∈ d) {x : α} (hx : x ∈ p.2) (hne : x ≠ p.1) :
    ∃ q ∈ closeDeps d, q.1 = p.1 ∧ x ∈ q.2 :=
  ⟨_, List.mem_append_left _ (List.mem_map_of_mem hp), rfl, List.mem_filter.mpr ⟨hx, by simpa using hne⟩⟩

theorem closeDeps_keys_mem {d : Deps α} {x : α} : x ∈ keys (closeDeps d) → x ∈ keys d ∨ ∃ p ∈ d, x ∈ p.2 := by
  rw [keys_close]
  intro h
  rcases List.mem_append.mp h with h | h
  · exact .inl h
  · obtain ⟨q, hq, hx⟩ := List.mem_flatMap.mp (mem_dedup.mp (List.mem_filter.mp h).1)
    obtain ⟨p, hp, rfl⟩ := List.mem_map.mp hq
    exact .inr ⟨p, hp, (List.mem_filter.mp hx).1⟩

/-! ## One round -/

theorem keys_peel (done : List α) (d : Deps α) : keys (peel done d) = (keys d).filter (· ∉ done) := by
  simp only [keys, peel, List.map_map, List.filter_map]
  rfl

theorem peel_closed {done : List α} {d : Deps α} (h : Closed d) : Closed (peel done d) := by
  intro p hp x hx
  obtain ⟨q, hq, rfl⟩ := List.mem_map.mp hp
  rw [keys_peel]
  have := List.mem_filter.mp hx
  exact List.mem_filter.mpr ⟨h q (List.mem_filter.mp hq).1 x this.1, this.2⟩

theorem peel_mem {done : List α} {d : Deps α} {p : α × List α} (hp : p ∈ d) (h : p.1 ∉ done) :
    (p.1, p.2.filter (· ∉ done)) ∈ peel done d :=
  List.mem_map.mpr ⟨p, List.mem_filter.mpr ⟨hp, by simpa using h⟩, rfl⟩

omit [DecidableEq α] in
theorem free_sublist (d : Deps α) : (free d).Sublist (keys d) := List.Sublist.map _ List.filter_sublist

omit [DecidableEq α] in
theorem free_deps {d : Deps α} (hn : (keys d).Nodup) {p : α × List α} (hp : p ∈ d) (h : p.1 ∈ free d) : p.2 = [] := by
  obtain ⟨q, hq, e⟩ := List.mem_map.mp h
  have hq' := List.mem_filter.mp hq
  have : q = p := by
    have : ∀ {l : Deps α}, (keys l).Nodup → q ∈ l → p ∈ l → q.1 = p.1 → q = p := by
      intro l
      induction l with
      | nil => intro _ h; exact nomatch h
      | cons a l ih =>
        intro hn h1 h2 e
        have hn' := List.nodup_cons.mp hn
        rcases List.mem_cons.mp h1 with rfl | h1'
        · rcases List.mem_cons.mp h2 with rfl | h2
          · rfl
          · exact absurd ((show q.1 ∈ keys l by rw [e]; exact mem_keys_of_mem h2)) hn'.1
        · rcases List.mem_cons.mp h2 with rfl | h2
          · exact absurd ((show p.1 ∈ keys l by rw [← e]; exact mem_keys_of_mem h1')) hn'.1
          · exact ih hn'.2 h1' h2 e
    exact this hn hq'.1 hp e
  rw [← this]
  simpa using hq'.2

theorem peel_length {d : Deps α} (h : free d ≠ []) : (peel (free d) d).length < d.length := by
  have h1 : (peel (free d) d).length = (d.filter (·.1 ∉ free d)).length := by simp [peel]
  rw [h1]
  cases hf : free d with
  | nil => exact absurd hf h
  | cons a l =>
    have ha : a ∈ free d := by rw [hf]; exact List.mem_cons_self
    obtain ⟨q, hq, e⟩ := List.mem_map.mp ha
    rw [← hf]
    refine List.length_filter_lt_length_iff_exists.mpr ⟨q, (List.mem_filter.mp hq).1, ?_⟩
    rw [e]
    simpa using ha

omit [DecidableEq α] in
theorem pair_sublist {l r : List α} {a b : α} (ha : a ∈ l) (hb : b ∈ r) : [a, b].Sublist (l ++ r) :=
  List.Sublist.append (List.singleton_sublist.mpr ha) (List.singleton_sublist.mpr hb)

/-- The order found: all items, dependencies first. -/
theorem rounds_spec {le : α → α → Bool} : ∀ (n : Nat) (d : Deps α) (l : List α), (keys d).Nodup → Closed d →
    rounds le n d = .ok l → l.Perm (keys d) ∧ ∀ p ∈ d, ∀ x ∈ p.2, [x, p.1].Sublist l
  | 0, d, l, _, _, h => by
    unfold rounds at h
    split at h
    · next he =>
      injection h with h
      subst h
      have : d = [] := by simpa using he
      subst this
      exact ⟨.refl _, fun p hp => nomatch hp⟩
    · exact nomatch h
  | n + 1, d, l, hn, hc, h => by
    unfold rounds at h
    split at h
    · split at h
      · next he =>
        injection h with h
        subst h
        have : d = [] := by simpa using he
        subst this
        exact ⟨.refl _, fun p hp => nomatch hp⟩
      · exact nomatch h
    · cases hr : rounds le n (peel (free d) d) with
      | error e => rw [hr] at h; exact nomatch h
      | ok l' =>
        rw [hr] at h
        have h : Except.ok (sortBy le (free d) ++ l') = Except.ok l := h
        injection h with h
        subst h
        have hn' : (keys (peel (free d) d)).Nodup := by rw [keys_peel]; exact hn.filter _
        obtain ⟨h1, h2⟩ := rounds_spec n _ l' hn' (peel_closed hc) hr
        have hfree : (free d).Perm ((keys d).filter (· ∈ free d)) := by
          refine (List.perm_ext_iff_of_nodup (hn.sublist (free_sublist d)) (hn.filter _)).mpr fun a => ?_
          rw [List.mem_filter]
          exact ⟨fun h => ⟨(free_sublist d).subset h, by simpa using h⟩, fun h => by simpa using h.2⟩
        constructor
        · have h3 := h1
          rw [keys_peel] at h3
          refine (((sortBy_perm le _).trans hfree).append h3).trans ?_
          have := List.filter_append_perm (fun x => decide (x ∈ free d)) (keys d)
          simpa using this
        · intro p hp x hx
          by_cases hk : p.1 ∈ free d
          · rw [free_deps hn hp hk] at hx
            exact nomatch hx
          · have hpm := peel_mem hp hk
            by_cases hxf : x ∈ free d
            · have hmem := mem_keys_of_mem hpm
              exact pair_sublist ((sortBy_perm le _).mem_iff.mpr hxf) (h1.mem_iff.mpr hmem)
            · refine List.Sublist.trans (h2 _ hpm x (List.mem_filter.mpr ⟨hx, by simpa using hxf⟩))
                (List.sublist_append_right _ _)

omit [DecidableEq α] in
/-- An item of least rank has no dependency. -/
theorem free_ne_nil {d : Deps α} (hc : Closed d) (rank : α → Nat) (hr : ∀ p ∈ d, ∀ x ∈ p.2, rank x < rank p.1)
    (hd : d ≠ []) : free d ≠ [] := by
  intro hf
  have key : ∀ n, ∀ p ∈ d, rank p.1 < n → False := by
    intro n
    induction n with
    | zero => intro p _ h; exact absurd h (Nat.not_lt_zero _)
    | succ n ih =>
      intro p hp h
      cases hv : p.2 with
      | nil =>
        have : p.1 ∈ free d := List.mem_map.mpr ⟨p, List.mem_filter.mpr ⟨hp, by simp [hv]⟩, rfl⟩
        rw [hf] at this
        exact nomatch this
      | cons x xs =>
        have hx : x ∈ p.2 := by rw [hv]; exact List.mem_cons_self
        obtain ⟨q, hq, e⟩ := List.mem_map.mp (hc p hp x hx)
        refine ih q hq ?_
        have := hr p hp x hx
        rw [← e] at this
        omega
  match d, hd with
  | p :: _, _ => exact key (rank p.1 + 1) p List.mem_cons_self (Nat.lt_succ_self _)

/-- If there is a ranking the items can be sorted. -/
theorem rounds_ok {le : α → α → Bool} (rank : α → Nat) : ∀ (n : Nat) (d : Deps α), d.length ≤ n → Closed d →
    (∀ p ∈ d, ∀ x ∈ p.2, rank x < rank p.1) → ∃ l, rounds le n d = .ok l
  | 0, d, hl, _, _ => by
    have : d = [] := List.length_eq_zero_iff.mp (by omega)
    subst this
    exact ⟨_, rfl⟩
  | n + 1, d, hl, hc, hr => by
    by_cases hd : d = []
    · subst hd
      exact ⟨_, rfl⟩
    · have hf := free_ne_nil hc rank hr hd
      have hlt := peel_length hf
      obtain ⟨l, h⟩ := rounds_ok (le := le) rank n (peel (free d) d) (by omega) (peel_closed hc) (by
        intro p hp x hx
        obtain ⟨q, hq, rfl⟩ := List.mem_map.mp hp
        exact hr q (List.mem_filter.mp hq).1 x (List.mem_filter.mp hx).1)
      refine ⟨sortBy le (free d) ++ l, ?_⟩
      unfold rounds
      have hf' : (free d).isEmpty = false := by simpa using hf
      rw [hf', h]
      rfl

/-- The only error is a circular dependency. -/
theorem rounds_error {le : α → α → Bool} : ∀ (n : Nat) (d : Deps α) (e : GenError), rounds le n d = .error e →
    e = .circular
  | 0, d, e, h => by
    unfold rounds at h
    split at h
    · exact nomatch h
    · injection h with h; exact h.symm
  | n + 1, d, e, h => by
    unfold rounds at h
    split at h
    · split at h
      · exact nomatch h
      · injection h with h; exact h.symm
    · cases hr : rounds le n (peel (free d) d) with
      | error e' =>
        rw [hr] at h
        have h : Except.error e' = Except.error e := h
        injection h with h
        exact h ▸ rounds_error n _ e' hr
      | ok l' => rw [hr] at h; exact nomatch h

theorem toposort_spec {le : α → α → Bool} {d : Deps α} {l : List α} (hn : (keys d).Nodup)
    (h : toposort le d = .ok l) : l.Nodup ∧ (∀ x ∈ keys d, x ∈ l) ∧
      (∀ x ∈ l, x ∈ keys d ∨ ∃ p ∈ d, x ∈ p.2) ∧
      ∀ p ∈ d, ∀ x ∈ p.2, x ≠ p.1 → [x, p.1].Sublist l := by
  obtain ⟨h1, h2⟩ := rounds_spec _ _ _ (closeDeps_nodup hn) (closeDeps_closed d) h
  refine ⟨h1.nodup_iff.mpr (closeDeps_nodup hn), ?_, fun x hx => closeDeps_keys_mem (h1.mem_iff.mp hx), ?_⟩
  · intro x hx
    rw [h1.mem_iff, keys_close]
    exact List.mem_append_left _ hx
  · intro p hp x hx hne
    obtain ⟨q, hq, e, hxq⟩ := closeDeps_mem hp hx hne
    exact e ▸ h2 q hq x hxq

theorem toposort_ok {le : α → α → Bool} {d : Deps α} (rank : α → Nat)
    (hr : ∀ p ∈ d, ∀ x ∈ p.2, x ≠ p.1 → rank x < rank p.1) : ∃ l, toposort le d = .ok l := by
  refine rounds_ok rank _ _ (Nat.le_refl _) (closeDeps_closed d) ?_
  intro p hp x hx
  rcases List.mem_append.mp hp with hp | hp
  · obtain ⟨q, hq, rfl⟩ := List.mem_map.mp hp
    have := List.mem_filter.mp hx
    exact hr q hq x this.1 (by simpa using this.2)
  · obtain ⟨q, _, rfl⟩ := List.mem_map.mp hp
    exact nomatch hx

theorem toposort_error {le : α → α → Bool} {d : Deps α} {e : GenError} (h : toposort le d = .error e) :
    e = .circular := rounds_error _ _ _ h

omit [DecidableEq α] in
/-- In a list without duplicates "before" is an order. -/
theorem pair_trans {a b c : α} : ∀ {l : List α}, l.Nodup → [a, b].Sublist l → [b, c].Sublist l → [a, c].Sublist l
  | [], _, h, _ => by cases h
  | x :: l, hn, h1, h2 => by
    have hn' := List.nodup_cons.mp hn
    cases h1 with
    | cons _ h1 =>
      cases h2 with
      | cons _ h2 => exact (pair_trans hn'.2 h1 h2).cons _
      | cons_cons _ h2 => exact absurd (h1.subset (by simp)) hn'.1
    | cons_cons _ h1 =>
      cases h2 with
      | cons _ h2 => exact (List.singleton_sublist.mpr (h2.subset (by simp))).cons_cons _
      | cons_cons _ h2 => exact absurd (List.singleton_sublist.mp h1) hn'.1

omit [DecidableEq α] in
theorem pair_irrefl {a : α} {l : List α} (hn : l.Nodup) : ¬ [a, a].Sublist l := by
  intro h
  have := hn.sublist h
  simp at this

end

end EP.Gen
