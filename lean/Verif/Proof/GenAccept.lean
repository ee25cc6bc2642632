import Verif.Proof.GenOrder

/-!
# Pairs in lists
-/

namespace EP.Gen

/-- Two messages of a list: one comes first. -/
theorem before_or {α : Type} {x y : α} : ∀ {l : List α}, x ∈ l → y ∈ l → x ≠ y → [x, y].Sublist l ∨ [y, x].Sublist l
  | [], h, _, _ => nomatch h
  | a :: l, hx, hy, hne => by
    rcases List.mem_cons.mp hx with rfl | hx'
    · exact .inl ((List.singleton_sublist.mpr ((List.mem_cons.mp hy).resolve_left hne.symm)).cons_cons _)
    · rcases List.mem_cons.mp hy with rfl | hy'
      · exact .inr ((List.singleton_sublist.mpr hx').cons_cons _)
      · exact (before_or hx' hy' hne).imp (·.cons _) (·.cons _)

theorem pair_of_append {α : Type} {a b : α} {l r : List α} (h : [a, b].Sublist (l ++ r)) (ha : a ∉ l) :
    [a, b].Sublist r := by
  induction l with
  | nil => exact h
  | cons x l ih =>
    cases h with
    | cons _ h => exact ih h fun m => ha (List.mem_cons_of_mem _ m)
    | cons_cons _ _ => exact absurd List.mem_cons_self ha

end EP.Gen
