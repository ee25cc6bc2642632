import Verif.Spec.Outcome

/-! # Lemmas about predicates on outcomes -/

namespace EP.Res

variable {α β : Type}

@[simp] theorem Post_ok {a : α} {P : α → Prop} : Post (.ok a) P ↔ P a := Iff.rfl
@[simp] theorem Post_ub {P : α → Prop} : Post (.ub : Res α) P ↔ False := Iff.rfl
@[simp] theorem Post_diverge {P : α → Prop} : Post (.diverge : Res α) P ↔ False := Iff.rfl
@[simp] theorem Post_bind {x : Res α} {f : α → Res β} {Q : β → Prop} :
    Post (x >>= f) Q ↔ Post x (fun a => Post (f a) Q) := by cases x <;> rfl

@[simp] theorem Safe_ok {T : Prop} {a : α} {P : α → Prop} : Safe T (.ok a) P ↔ P a := Iff.rfl
@[simp] theorem Safe_ub {T : Prop} {P : α → Prop} : Safe T (.ub : Res α) P ↔ False := Iff.rfl
@[simp] theorem Safe_diverge {T : Prop} {P : α → Prop} : Safe T (.diverge : Res α) P ↔ ¬ T := Iff.rfl
@[simp] theorem Safe_bind {T : Prop} {x : Res α} {f : α → Res β} {Q : β → Prop} :
    Safe T (x >>= f) Q ↔ Safe T x (fun a => Safe T (f a) Q) := by cases x <;> rfl

theorem Post.mono {r : Res α} {P Q : α → Prop} (h : Post r P) (hpq : ∀ a, P a → Q a) : Post r Q := by
  cases r <;> simp_all

theorem Safe.mono {T : Prop} {r : Res α} {P Q : α → Prop} (h : Safe T r P) (hpq : ∀ a, P a → Q a) :
    Safe T r Q := by
  cases r <;> simp_all

/-- Weaken the termination hypothesis. -/
theorem Safe.weaken {T T' : Prop} {r : Res α} {P : α → Prop} (h : Safe T r P) (ht : T' → T) :
    Safe T' r P := by
  cases r <;> simp_all

theorem Post.safe {T : Prop} {r : Res α} {P : α → Prop} (h : Post r P) : Safe T r P := by
  cases r <;> simp_all

theorem Safe.post {T : Prop} {r : Res α} {P : α → Prop} (h : Safe T r P) (ht : T) : Post r P := by
  cases r <;> simp_all

theorem Post.exists {r : Res α} {P : α → Prop} (h : Post r P) : ∃ a, r = .ok a ∧ P a := by
  cases r <;> simp_all

theorem Post.of_eq {r : Res α} {a : α} {P : α → Prop} (h : r = .ok a) (hp : P a) : Post r P := by
  subst h; exact hp

theorem Post_iff {r : Res α} {P : α → Prop} : Post r P ↔ ∃ a, r = .ok a ∧ P a := by
  cases r <;> simp

theorem Post.and {r : Res α} {P Q : α → Prop} (h : Post r P) (h' : Post r Q) :
    Post r (fun a => P a ∧ Q a) := by
  cases r <;> simp_all

end EP.Res

namespace EP

theorem arrayGet_of_lt {α : Type} {l : List α} {i : Nat} (h : i < l.length) :
    arrayGet l i = .ok l[i] := by
  simp [arrayGet, h]

theorem arraySet_of_lt {α : Type} {l : List α} {i : Nat} {a : α} (h : i < l.length) :
    arraySet l i a = .ok (l.set i a) := by
  simp [arraySet, h]

theorem u32_of_lt {n : Nat} (h : n < 4294967296) : u32 n = n := by
  simp [u32, two32]; omega

theorem u32_lt (n : Nat) : u32 n < 4294967296 := by
  simp [u32, two32]; omega

theorem u32sub_of_le {a b : Nat} (h : b ≤ a) (ha : a < 4294967296) : u32sub a b = a - b := by
  simp only [u32sub, u32, two32]; omega

end EP
