import Verif.Model.Basic

/-! # Hoare style predicates on outcomes -/

namespace EP.Res

variable {α : Type}

/-- The run ends normally and the result satisfies `P`. -/
def Post (r : Res α) (P : α → Prop) : Prop :=
  match r with
  | .ok a => P a
  | _ => False

/-- No undefined behaviour; if the run ends the result satisfies `P`; running out of fuel is only
possible when `¬ T`. -/
def Safe (T : Prop) (r : Res α) (P : α → Prop) : Prop :=
  match r with
  | .ok a => P a
  | .ub => False
  | .diverge => ¬ T

end EP.Res
