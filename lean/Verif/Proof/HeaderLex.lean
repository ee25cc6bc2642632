import Verif.Proof.HeaderFields

/-!
# Texts put together
-/

namespace EP.Gen.Jinja

open Cpp

theorem lexFrom_append (t r : Text) : ∀ st, lexFrom st (t ++ r) =
    ((lexFrom st t).1 ++ (lexFrom (lexFrom st t).2 r).1, (lexFrom (lexFrom st t).2 r).2) := by
  induction t with
  | nil => intro st; simp [lexFrom]
  | cons s t ih => intro st; simp [lexFrom, ih, List.append_assoc]

theorem Lexes.nil : Lexes [] [] := rfl

theorem Lexes.append {t r : Text} {p q : List Tok} (h : Lexes t p) (k : Lexes r q) : Lexes (t ++ r) (p ++ q) := by
  unfold Lexes at *
  rw [lexFrom_append, h]; simp [k]

theorem Lexes.append_nil {t : Text} {p : List Tok} (h : Lexes t p) : Lexes (t ++ []) p := by
  simpa using h

theorem Lexes.of_eq {t r : Text} {p : List Tok} (e : t = r) (h : Lexes r p) : Lexes t p := e ▸ h

theorem Lexes.cast {t : Text} {p q : List Tok} (e : p = q) (h : Lexes t p) : Lexes t q := e ▸ h

/-- The tokens are determined. -/
theorem Lexes.unique {t : Text} {p q : List Tok} (h : Lexes t p) (k : Lexes t q) : p = q := by
  unfold Lexes at *
  rw [h] at k; exact (Prod.mk.inj k).1

/-- Spaces at the beginning of a line. -/
theorem lexFrom_spaces {st : Lex} (h : lexStep st (.c ' ') = ([], st)) (t : Text) :
    ∀ n, lexFrom st (List.replicate n (.c ' ') ++ t) = lexFrom st t
  | 0 => rfl
  | n + 1 => by
    show ((lexStep st (.c ' ')).1 ++ _, _) = _
    rw [h]
    exact lexFrom_spaces h t n

theorem after_newline (st : Lex) : lexStep (lexStep st (.c '\n')).2 (.c ' ') = ([], (lexStep st (.c '\n')).2) := by
  cases st <;> rfl

/-- `|indent(n)` has no effect on the tokens. -/
theorem lexFrom_indent (n : Nat) : ∀ (t : Text) (st : Lex), lexFrom st (indentText n t) = lexFrom st t
  | [], _ => rfl
  | s :: r, st => by
    have ih := lexFrom_indent n r
    have : lexFrom (lexStep st s).2 (padding n s r ++ indentText n r) = lexFrom (lexStep st s).2 r := by
      unfold padding
      split
      · split
        · rename_i ch hc
          have hn : ch = '\n' := by
            rw [Bool.and_eq_true, beq_iff_eq] at hc
            exact hc.1
          subst hn
          rw [lexFrom_spaces (after_newline st), ih]
        · exact ih _
      · exact ih _
    show ((lexStep st s).1 ++ (lexFrom (lexStep st s).2 (padding n s r ++ indentText n r)).1,
      (lexFrom (lexStep st s).2 (padding n s r ++ indentText n r)).2) = _
    rw [this]
    rfl

theorem Lexes.indent {t : Text} {p : List Tok} (h : Lexes t p) {n : Nat} : Lexes (indentText n t) p :=
  (lexFrom_indent n t .start).trans h

theorem Lexes.flatten {t r : Text} {ps qs : List (List Tok)} (h : Lexes t ps.flatten) (k : Lexes r qs.flatten) :
    Lexes (t ++ r) (ps ++ qs).flatten := by
  rw [List.flatten_append]; exact h.append k

theorem Lexes.one {t : Text} {p : List Tok} (h : Lexes t p) : Lexes t [p].flatten := by
  simpa using h

section
variable (T : Typedef) (S : Spelling) (R : Val → Attr → Val → Text)

theorem render_append (env : Env) : ∀ a b : Nodes,
    render T S R env (a ++ b) = render T S R env a ++ render T S R env b
  | .nil, b => rfl
  | .text s r, b => by
    show lit s ++ render T S R env (r ++ b) = (lit s ++ render T S R env r) ++ _
    rw [render_append env r b, List.append_assoc]
  | .expr e r, b => by
    show (eval T S R env e).show ++ render T S R env (r ++ b) = ((eval T S R env e).show ++ render T S R env r) ++ _
    rw [render_append env r b, List.append_assoc]
  | .ite c x y r, b => by
    show (if (eval T S R env c).truth then render T S R env x else render T S R env y) ++ render T S R env (r ++ b) =
      ((if (eval T S R env c).truth then render T S R env x else render T S R env y) ++ render T S R env r) ++ _
    rw [render_append env r b, List.append_assoc]
  | .loop v e x r, b => by
    show loopText _ true (eval T S R env e).elems ++ render T S R env (r ++ b) =
      (loopText _ true (eval T S R env e).elems ++ render T S R env r) ++ _
    rw [render_append env r b, List.append_assoc]
  | .defn _ _ r, b => render_append env r b

variable {T S R}

theorem lexes_append {env : Env} {a b : Nodes} {p q : List Tok} (h : Lexes (render T S R env a) p)
    (k : Lexes (render T S R env b) q) : Lexes (render T S R env (a ++ b)) (p ++ q) := by
  rw [render_append]; exact h.append k

theorem lexes_flatten {env : Env} {a b : Nodes} {ps qs : List (List Tok)} (h : Lexes (render T S R env a) ps.flatten)
    (k : Lexes (render T S R env b) qs.flatten) : Lexes (render T S R env (a ++ b)) (ps ++ qs).flatten := by
  rw [render_append]; exact h.flatten k

/-- A part without effect. -/
theorem lexes_before {env : Env} {a b : Nodes} {q : List Tok} (h : Lexes (render T S R env a) [])
    (k : Lexes (render T S R env b) q) : Lexes (render T S R env (a ++ b)) q := lexes_append h k

theorem lexes_after {env : Env} {a b : Nodes} {q : List Tok} (h : Lexes (render T S R env a) q)
    (k : Lexes (render T S R env b) []) : Lexes (render T S R env (a ++ b)) q := by
  have := lexes_append h k
  rwa [List.append_nil] at this

theorem lexes_loop {α : Type} {f : Bool → Bool → Val → Text} (h : α → Val) (p : α → List Tok) :
    ∀ (l : List α) (first : Bool), (∀ a ∈ l, ∀ b c, Lexes (f b c (h a)) (p a)) →
    Lexes (loopText f first (l.map h)) (l.flatMap p)
  | [], _, _ => rfl
  | a :: l, first, H => by
    simp only [List.map_cons, List.flatMap_cons, loopText]
    exact (H a (by simp) _ _).append (lexes_loop h p l false fun a ha => H a (by simp [ha]))

/-- A `for`. -/
theorem lexes_for {α : Type} {env : Env} {v : Var} {e : Ex} {body : Nodes} (h : α → Val) (p : α → List Tok) (l : List α)
    {q : List Tok} (he : (eval T S R env e).elems = l.map h)
    (H : ∀ a ∈ l, ∀ b c, Lexes (render T S R ((env.set v (h a)).set .loop (.loop b c)) body) (p a))
    (hq : q = l.flatMap p) : Lexes (render T S R env (.loop v e body .nil)) q := by
  show Lexes (loopText _ true (eval T S R env e).elems ++ []) q
  rw [he, hq]
  exact (lexes_loop h p l true H).append_nil

theorem lexes_loop_sep {α : Type} {f : Bool → Bool → Val → Text} (h : α → Val) (p : α → List Tok) (c : List Tok) :
    ∀ (l : List α) (first : Bool), (∀ a ∈ l, ∀ b, Lexes (f b true (h a)) (p a)) →
    (∀ a ∈ l, ∀ b, Lexes (f b false (h a)) (p a ++ c)) →
    Lexes (loopText f first (l.map h)) (sep c (l.map p))
  | [], _, _, _ => rfl
  | [a], first, H, _ => by
    simp only [List.map_cons, List.map_nil, loopText, List.isEmpty_nil, sep, List.append_nil]
    exact H a (by simp) _
  | a :: b :: l, first, H, K => by
    have ih := lexes_loop_sep h p c (b :: l) false (fun a ha => H a (List.mem_cons_of_mem _ ha))
      (fun a ha => K a (List.mem_cons_of_mem _ ha))
    exact (K a (by simp) first).append ih

/-- A `for` with a separator. -/
theorem lexes_for_sep {α : Type} {env : Env} {v : Var} {e : Ex} {body : Nodes} (h : α → Val) (p : α → List Tok)
    (c : List Tok) (l : List α) {q : List Tok} (he : (eval T S R env e).elems = l.map h)
    (H : ∀ a ∈ l, ∀ b, Lexes (render T S R ((env.set v (h a)).set .loop (.loop b true)) body) (p a))
    (K : ∀ a ∈ l, ∀ b, Lexes (render T S R ((env.set v (h a)).set .loop (.loop b false)) body) (p a ++ c))
    (hq : q = sep c (l.map p)) : Lexes (render T S R env (.loop v e body .nil)) q := by
  show Lexes (loopText _ true (eval T S R env e).elems ++ []) q
  rw [he, hq]
  exact (lexes_loop_sep h p c l true H K).append_nil

theorem render_ite (env : Env) (c : Ex) (x y : Nodes) :
    render T S R env (.ite c x y .nil) =
      (if (eval T S R env c).truth then render T S R env x else render T S R env y) ++ [] := rfl

end

end EP.Gen.Jinja
