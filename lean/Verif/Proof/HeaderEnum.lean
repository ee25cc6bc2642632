import Verif.Proof.HeaderMessage

/-!
# The text of TypeDefEnum.h
-/

namespace EP.Gen.Jinja

open Cpp Parsed

variable {T : Typedef} {S : Spelling}

theorem lexes_values : Lexes (render T S (renderCall T S) typedefEnv typeDefEnum_2)
    (sep (cpp! ",") (T.values.map fun v => [.id v.1] ++ cpp! "=" ++ [.raw v.2])) := by
  refine lexes_for_sep (fun p : Str × Str => .value p.1 p.2) (fun v => [.id v.1] ++ cpp! "=" ++ [.raw v.2]) _
    T.values (by kernel_rfl) ?_ ?_ rfl
  · intro a _ b
    exact (show Lexes _ _ by lexes)
  · intro a _ b
    exact (show Lexes _ _ by lexes)

/-- The text of an enum. -/
theorem lexes_enum : Lexes (enumText T S) (enumOf T.name T.values) := by
  unfold enumText
  rw [load_eq parse_typeDefEnum]
  have H :=
    lexes_flatten (show Lexes (render T S (renderCall T S) typedefEnv typeDefEnum_1)
      [cpp! "enum class" ++ [.id T.name] ++ cpp! ": uint32_t {"].flatten by lexes) <|
    lexes_flatten (lexes_values (T := T) (S := S)).one <|
    (show Lexes (render T S (renderCall T S) typedefEnv typeDefEnum_3) [cpp! "};"].flatten by lexes)
  refine Lexes.of_eq (congrArg (render T S (renderCall T S) typedefEnv) ?e) (Lexes.cast ?p H)
  case e => kernel_rfl
  case p =>
    unfold enumOf
    kernel_rfl

end EP.Gen.Jinja
