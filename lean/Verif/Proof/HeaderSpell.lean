import Verif.Proof.HeaderGood
import Verif.Spec.HeaderRequest

/-!
# The spelling of types
-/

namespace EP.Gen.Jinja

open Cpp

/-- The text stands alone, and has these tokens. -/
structure Spells (t : Str) (e : List Tok) : Prop where
  whole : Whole t
  toks : toks t = e

theorem toks_eq (t : Str) : toks t = (lexFrom .start (lit t ++ [.c ' '])).1 := rfl

theorem spells_nil : Spells [] [] := ⟨trivial, rfl⟩

theorem spells_word {x : Str} (h : Word x) : Spells x [.id x] := by
  obtain ⟨hn, hc⟩ := h
  cases x with
  | nil => exact absurd rfl hn
  | cons c x =>
    have h1 : identChar c = true := hc c List.mem_cons_self
    obtain ⟨b, hb, hf⟩ := lexFrom_ident x (fun d hd => hc d (List.mem_cons_of_mem _ hd)) [.c c]
    have hl : lexFrom .start (lit (c :: x)) = ([], .ident b) := by
      show lexFrom _ (.c c :: lit x) = _
      simp [lexFrom, lexStep, startStep, h1, hb]
    refine ⟨?_, ?_⟩
    · unfold Whole; rw [hl]; trivial
    · rw [toks_of_ident hl, hf]; rfl

/-- A character that is a token, or white space. -/
def Between (c : Char) (k : List Tok) : Prop := identChar c = false ∧ startStep (.c c) = (k, .start)

/-- Two spellings with such a character between them. -/
theorem Spells.join {t u : Str} {e e' k : List Tok} {c : Char} (h : Spells t e) (hc : Between c k) (h' : Spells u e') :
    Spells (t ++ c :: u) (e ++ k ++ e') := by
  have hl : ∀ z, lexFrom .start (lit (t ++ c :: u) ++ z) =
      (e ++ k ++ (lexFrom .start (lit u ++ z)).1, (lexFrom .start (lit u ++ z)).2) := by
    intro z
    rw [lit_append, List.append_assoc, lexFrom_append]
    rcases h.whole.cases with ⟨a, ha⟩ | ⟨a, b, ha⟩
    · have : a = e := by rw [← h.toks, toks_of_start ha]
      subst this
      rw [ha]
      show (a ++ (lexFrom .start (.c c :: (lit u ++ z))).1, (lexFrom .start (.c c :: (lit u ++ z))).2) = _
      simp [lexFrom, lexStep, hc.2]
    · have : a ++ [.id (flat b [])] = e := by rw [← h.toks, toks_of_ident ha]
      subst this
      rw [ha]
      show (a ++ (lexFrom (.ident b) (.c c :: (lit u ++ z))).1, (lexFrom (.ident b) (.c c :: (lit u ++ z))).2) = _
      simp [lexFrom, lexStep, hc.1, hc.2]
  refine ⟨?_, ?_⟩
  · have := h'.whole
    unfold Whole at this ⊢
    have e := hl []
    rw [List.append_nil, List.append_nil] at e
    rw [e]; exact this
  · rw [toks_eq, hl]
    show e ++ k ++ Jinja.toks u = _
    rw [h'.toks]

theorem between_colon : Between ':' [.sym ':'] := ⟨by decide, by decide⟩
theorem between_less : Between '<' [.sym '<'] := ⟨by decide, by decide⟩
theorem between_greater : Between '>' [.sym '>'] := ⟨by decide, by decide⟩
theorem between_comma : Between ',' [.sym ','] := ⟨by decide, by decide⟩
theorem between_space : Between ' ' [] := ⟨by decide, by decide⟩
theorem between_minus : Between '-' [.sym '-'] := ⟨by decide, by decide⟩
theorem between_dot : Between '.' [.sym '.'] := ⟨by decide, by decide⟩

theorem Spells.cast {t u : Str} {e f : List Tok} (h : Spells t e) (h1 : u = t) (h2 : f = e) : Spells u f := by
  subst h1 h2; exact h

theorem sep_cons2 (c x y : List Tok) (l : List (List Tok)) : sep c (x :: y :: l) = x ++ c ++ sep c (y :: l) := rfl

theorem spells_scope : ∀ {p : List Str}, (∀ x ∈ p, Word x) → Spells (scopeStr p) (scopeToks p)
  | [], _ => spells_nil
  | [x], h => (spells_word (h x List.mem_cons_self)).cast rfl (List.append_nil _)
  | x :: y :: l, h => by
    have ih := spells_scope (p := y :: l) fun z hz => h z (List.mem_cons_of_mem _ hz)
    exact ((spells_word (h x List.mem_cons_self)).join between_colon (spells_nil.join between_colon ih)).cast
      (List.append_assoc ..) rfl

theorem spells_commas : ∀ {p : List Str}, (∀ x ∈ p, Word x) → Spells (commas p) (sep (cpp! ",") (p.map fun x => [.id x]))
  | [], _ => spells_nil
  | [x], h => (spells_word (h x List.mem_cons_self)).cast rfl (List.append_nil _)
  | x :: y :: l, h => by
    have ih := spells_commas (p := y :: l) fun z hz => h z (List.mem_cons_of_mem _ hz)
    exact ((spells_word (h x List.mem_cons_self)).join between_comma (spells_nil.join between_space ih)).cast
      (List.append_assoc ..) rfl

theorem spells_args {t : Str} {e : List Tok} (ht : Spells t e) : ∀ {p : List Str}, (∀ x ∈ p, Word x) →
    Spells (t ++ argsText p) (e ++ argToks p)
  | [], _ => ht.cast (List.append_nil _) (List.append_nil _)
  | x :: l, h => by
    exact (ht.join between_less ((spells_commas h).join between_greater spells_nil)).cast rfl
      (by simp only [List.append_assoc, List.append_nil]; rfl)

/-! ## `split("::")[-1]` -/

theorem lastPartFrom_word : ∀ (x : Str), ':' ∉ x → ∀ cur t, (t = [] ∨ ∃ s, t = ':' :: ':' :: s) ∨ ':' ∉ t →
    lastPartFrom cur (x ++ t) = lastPartFrom cur t
  | [], _, _, _, _ => rfl
  | c :: x, h, cur, t, ht => by
    have h1 : c ≠ ':' := fun e => h (e ▸ List.mem_cons_self)
    have ih := lastPartFrom_word x (fun e => h (List.mem_cons_of_mem _ e)) cur t ht
    rw [← ih, List.cons_append]
    conv => lhs; unfold lastPartFrom
    split
    · rename_i h; injection h with h _; exact absurd h h1
    · rename_i h; injection h with _ h; subst h; rfl
    · rename_i h; exact nomatch h

theorem lastPartFrom_plain : ∀ (x : Str), ':' ∉ x → ∀ cur, lastPartFrom cur x = cur := by
  intro x h cur
  have := lastPartFrom_word x h cur [] (.inl (.inl rfl))
  rwa [List.append_nil] at this

theorem lastPart_plain {x : Str} (h : ':' ∉ x) : lastPart x = x := lastPartFrom_plain x h x

theorem lastPart_colon {x t : Str} (h : ':' ∉ x) : lastPart (x ++ ':' :: ':' :: t) = lastPart t :=
  lastPartFrom_word x h _ _ (.inl (.inr ⟨t, rfl⟩))

theorem Word.colon {x : Str} (h : Word x) : ':' ∉ x := fun hc => h.ne (d := ':') (by decide) _ hc rfl

theorem commas_colon : ∀ {p : List Str}, (∀ x ∈ p, Word x) → ':' ∉ commas p
  | [], _ => nofun
  | [x], h => (h x List.mem_cons_self).colon
  | x :: y :: l, h => by
    have ih := commas_colon (p := y :: l) fun z hz => h z (List.mem_cons_of_mem _ hz)
    have h1 := (h x List.mem_cons_self).colon
    unfold commas
    rw [List.append_assoc, List.mem_append, List.mem_append]
    rintro (h | h | h)
    · exact h1 h
    · exact absurd h (by decide)
    · exact ih h

theorem argsText_colon : ∀ {p : List Str}, (∀ x ∈ p, Word x) → ':' ∉ argsText p
  | [], _ => nofun
  | x :: l, h => by
    have ih := commas_colon h
    unfold argsText
    rw [List.mem_cons, List.mem_append]
    rintro (h | h | h)
    · exact absurd h (by decide)
    · exact ih h
    · exact absurd h (by decide)

/-- The name without the scopes around it, with the arguments. -/
theorem lastPart_type : ∀ {p : List Str} {a : Str}, p ≠ [] → (∀ x ∈ p, Word x) → ':' ∉ a →
    ∃ x ∈ p, lastPart (scopeStr p ++ a) = x ++ a ∧ p.getLast? = some x
  | [], _, h, _, _ => absurd rfl h
  | [x], a, _, h, ha => by
    refine ⟨x, List.mem_cons_self, lastPart_plain ?_, rfl⟩
    rw [List.mem_append]
    rintro (h' | h')
    · exact (h x List.mem_cons_self).colon h'
    · exact ha h'
  | x :: y :: l, a, _, h, ha => by
    obtain ⟨z, hz, e, e'⟩ := lastPart_type (p := y :: l) (a := a) (by simp) (fun z hz => h z (List.mem_cons_of_mem _ hz)) ha
    refine ⟨z, List.mem_cons_of_mem _ hz, ?_, ?_⟩
    · rw [← e]
      refine Eq.trans (congrArg lastPart ?_) (lastPart_colon (h x List.mem_cons_self).colon)
      show x ++ "::".toList ++ scopeStr (y :: l) ++ a = _
      rw [List.append_assoc, List.append_assoc]; rfl
    · rw [List.getLast?_cons_cons]; exact e'

theorem spells_repr (n : Nat) : Spells (Nat.repr n).toList [.id (Nat.repr n).toList] := spells_word (word_repr n)

theorem spells_int : ∀ n : Int, Spells (intText n) (intToks n)
  | .ofNat n => spells_repr n
  | .negSucc n => spells_nil.join between_minus (spells_repr (n + 1))

theorem whole_dotted : ∀ {t : Str}, DottedName t → ∀ {s : Str}, Whole s → Whole (s ++ t)
  | [], _, _, h => by rwa [List.append_nil]
  | c :: t, ht, s, h => by
    have e : s ++ c :: t = (s ++ [c]) ++ t := by simp
    rw [e]
    refine whole_dotted (fun d hd => ht d (List.mem_cons_of_mem _ hd)) ?_
    rcases ht c List.mem_cons_self with rfl | hc
    · exact (Spells.join ⟨h, rfl⟩ between_dot spells_nil).whole
    · unfold Whole
      rw [lit_append, lexFrom_append]
      show match (lexFrom _ [.c c]).2 with
        | .start | .ident _ => True
        | _ => False
      rcases h.cases with ⟨e, he⟩ | ⟨e, b, he⟩
      · rw [he]; simp [lexFrom, lexStep, startStep, hc]
      · rw [he]; simp [lexFrom, lexStep, hc]

theorem DottedName.whole {t : Str} (h : DottedName t) : Whole t := whole_dotted (s := []) h trivial

end EP.Gen.Jinja
