import Verif.Proof.HeaderLex
import Verif.Spec.HeaderChars

/-!
# From symbols to characters
-/

namespace EP.Gen.Jinja

theorem flat_eq : ∀ (b : List Sym) (r : Str), flat b r = flat b [] ++ r
  | [], r => rfl
  | .c ch :: b, r => by
    show flat b (ch :: r) = flat b [ch] ++ r
    rw [flat_eq b (ch :: r), flat_eq b [ch], List.append_assoc]; rfl
  | .nm x :: b, [] => by simp
  | .nm x :: b, a :: r => by
    show flat b (x ++ a :: r) = flat b x ++ (a :: r)
    rw [flat_eq b (x ++ a :: r), flat_eq b x, List.append_assoc]
  | .raw x :: b, r => by
    show flat b (x ++ r) = flat b (x ++ []) ++ r
    rw [List.append_nil, flat_eq b (x ++ r), flat_eq b x, List.append_assoc]
  | .path x :: b, r => by
    show flat b (x ++ r) = flat b (x ++ []) ++ r
    rw [List.append_nil, flat_eq b (x ++ r), flat_eq b x, List.append_assoc]

theorem flat_path (b : List Sym) (x : Str) : flat (.path x :: b) [] = flat b [] ++ x := by
  show flat b (x ++ []) = _
  rw [List.append_nil]
  exact flat_eq b x

theorem flat_c (b : List Sym) (ch : Char) : flat (.c ch :: b) [] = flat b [] ++ [ch] := by
  show flat b [ch] = _
  exact flat_eq b [ch]

theorem flat_nm (b : List Sym) (x : Str) : flat (.nm x :: b) [] = flat b [] ++ x := by
  show flat b x = _
  exact flat_eq b x

theorem identChar_ne {ch d : Char} (h : identChar ch = true) (hd : identChar d = false) : ch ≠ d := by
  intro e; rw [e, hd] at h; exact nomatch h

/-- The states of the two runs, and the tokens the second one is ahead. -/
inductive Sim : Lex → Lex → List Tok → Prop where
  | start : Sim .start .start []
  | ident {b b' : List Sym} : flat b [] = flat b' [] → Sim (.ident b) (.ident b') []
  | quoted {b b' : List Sym} : flat b [] = flat b' [] → Sim (.quoted b) (.quoted b') []
  | escaped {b b' : List Sym} : flat b [] = flat b' [] → Sim (.escaped b) (.escaped b') []
  | slash : Sim .slash .slash []
  | comment : Sim .comment .comment []
  | block : Sim .block .block []
  | star : Sim .star .star []
  | line {b b' : List Sym} : flat b [] = flat b' [] → Sim (.line b) (.line b') []
  | spelled {t : Str} {e : List Tok} : lexFrom .start (lit t) = (e, .start) → Sim (.spelled t) .start e
  | spelledIdent {t : Str} {e : List Tok} {b : List Sym} :
    lexFrom .start (lit t) = (e, .ident b) → Sim (.spelled t) (.ident b) e

theorem toks_of_start {t : Str} {e : List Tok} (h : lexFrom .start (lit t) = (e, .start)) : toks t = e := by
  unfold toks
  rw [lexFrom_append, h]; simp [lexFrom, lexStep, startStep, identChar]

theorem toks_of_ident {t : Str} {e : List Tok} {b : List Sym} (h : lexFrom .start (lit t) = (e, .ident b)) :
    toks t = e ++ [.id (flat b [])] := by
  unfold toks
  rw [lexFrom_append, h]; simp [lexFrom, lexStep, startStep, identChar]

theorem startStep_c (ch : Char) : (startStep (.c ch)).2 ≠ .bad ∧
    Sim (startStep (.c ch)).2 (startStep (.c ch)).2 [] ∧
    (startStep (.c ch)).1.flatMap Tok.expand = (startStep (.c ch)).1 := by
  simp only [startStep]
  split
  · exact ⟨nofun, .ident rfl, rfl⟩
  · split
    · exact ⟨nofun, .start, rfl⟩
    · split
      · exact ⟨nofun, .quoted rfl, rfl⟩
      · split
        · exact ⟨nofun, .slash, rfl⟩
        · split
          · exact ⟨nofun, .line rfl, rfl⟩
          · exact ⟨nofun, .start, rfl⟩

theorem step_c {st st' : Lex} {e : List Tok} (h : Sim st st' e) (ch : Char) (hb : (lexStep st (.c ch)).2 ≠ .bad) :
    ∃ e1, Sim (lexStep st (.c ch)).2 (lexStep st' (.c ch)).2 e1 ∧
      e ++ (lexStep st' (.c ch)).1 = (lexStep st (.c ch)).1.flatMap Tok.expand ++ e1 := by
  have hs := startStep_c ch
  cases h with
  | start => exact ⟨[], hs.2.1, by rw [List.append_nil]; exact hs.2.2.symm⟩
  | @ident b b' hf =>
    simp only [lexStep]
    split
    · exact ⟨[], .ident (by rw [flat_c, flat_c, hf]), rfl⟩
    · refine ⟨[], hs.2.1, ?_⟩
      rw [List.append_nil, List.flatMap_cons, hs.2.2, hf]; rfl
  | @quoted b b' hf =>
    simp only [lexStep]
    split
    · exact ⟨[], .start, by rw [hf]; rfl⟩
    · split
      · exact ⟨[], .escaped (by rw [flat_c, flat_c, hf]), rfl⟩
      · rename_i h1 h2
        have h3 : (ch == '\n') = false := by
          rw [Bool.eq_false_iff]
          intro h3
          apply hb
          simp [lexStep, h1, h2, h3]
        rw [h3]
        exact ⟨[], .quoted (by rw [flat_c, flat_c, hf]), rfl⟩
  | @escaped b b' hf =>
    simp only [lexStep] at hb ⊢
    split at hb
    · exact absurd rfl hb
    · rename_i hn
      rw [if_neg hn, if_neg hn]
      exact ⟨[], .quoted (by rw [flat_c, flat_c, hf]), rfl⟩
  | slash =>
    simp only [lexStep]
    split
    · exact ⟨[], .comment, rfl⟩
    · split
      · exact ⟨[], .block, rfl⟩
      · refine ⟨[], hs.2.1, ?_⟩
        rw [List.append_nil, List.flatMap_cons, hs.2.2]; rfl
  | comment =>
    simp only [lexStep]
    split
    · exact ⟨[], .start, rfl⟩
    · exact ⟨[], .comment, rfl⟩
  | block =>
    simp only [lexStep]
    split
    · exact ⟨[], .star, rfl⟩
    · exact ⟨[], .block, rfl⟩
  | star =>
    simp only [lexStep]
    split
    · exact ⟨[], .start, rfl⟩
    · split
      · exact ⟨[], .star, rfl⟩
      · exact ⟨[], .block, rfl⟩
  | @line b b' hf =>
    simp only [lexStep]
    split
    · exact ⟨[], .start, by rw [hf]; rfl⟩
    · exact ⟨[], .line (by rw [flat_c, flat_c, hf]), rfl⟩
  | @spelled t e he =>
    simp only [lexStep] at hb ⊢
    split at hb
    · exact absurd rfl hb
    · rename_i hi
      rw [if_neg hi]
      refine ⟨[], hs.2.1, ?_⟩
      rw [List.append_nil, List.flatMap_cons, hs.2.2]
      show _ = toks t ++ _
      rw [toks_of_start he]
  | @spelledIdent t e b he =>
    simp only [lexStep] at hb ⊢
    split at hb
    · exact absurd rfl hb
    · rename_i hi
      rw [if_neg hi, if_neg hi]
      refine ⟨[], hs.2.1, ?_⟩
      rw [List.append_nil, List.flatMap_cons, hs.2.2]
      show _ = toks t ++ _
      rw [toks_of_ident he, List.append_assoc]; rfl

theorem lexFrom_ident : ∀ (x : Str), (∀ c ∈ x, identChar c = true) → ∀ b, ∃ b',
    lexFrom (.ident b) (lit x) = ([], .ident b') ∧ flat b' [] = flat b [] ++ x
  | [], _, b => ⟨b, rfl, by simp⟩
  | c :: x, h, b => by
    obtain ⟨b', h1, h2⟩ := lexFrom_ident x (fun d hd => h d (List.mem_cons_of_mem _ hd)) (.c c :: b)
    refine ⟨b', ?_, ?_⟩
    · show lexFrom _ (.c c :: lit x) = _
      simp [lexFrom, lexStep, h c List.mem_cons_self, h1]
    · rw [h2, flat_c]; simp

theorem lexFrom_quoted : ∀ (x : Str), (∀ c ∈ x, identChar c = true) → ∀ b, ∃ b',
    lexFrom (.quoted b) (lit x) = ([], .quoted b') ∧ flat b' [] = flat b [] ++ x
  | [], _, b => ⟨b, rfl, by simp⟩
  | c :: x, h, b => by
    obtain ⟨b', h1, h2⟩ := lexFrom_quoted x (fun d hd => h d (List.mem_cons_of_mem _ hd)) (.c c :: b)
    have hc := h c List.mem_cons_self
    refine ⟨b', ?_, ?_⟩
    · show lexFrom _ (.c c :: lit x) = _
      simp [lexFrom, lexStep, identChar_ne hc (d := '"') (by decide), identChar_ne hc (d := '\\') (by decide),
        identChar_ne hc (d := '\n') (by decide), h1]
    · rw [h2, flat_c]; simp

theorem lexFrom_line : ∀ (x : Str), (∀ c ∈ x, c ≠ '\n') → ∀ b, ∃ b',
    lexFrom (.line b) (lit x) = ([], .line b') ∧ flat b' [] = flat b [] ++ x
  | [], _, b => ⟨b, rfl, by simp⟩
  | c :: x, h, b => by
    obtain ⟨b', h1, h2⟩ := lexFrom_line x (fun d hd => h d (List.mem_cons_of_mem _ hd)) (.c c :: b)
    refine ⟨b', ?_, ?_⟩
    · show lexFrom _ (.c c :: lit x) = _
      simp [lexFrom, lexStep, h c List.mem_cons_self, h1]
    · rw [h2, flat_c]; simp

theorem lexFrom_comment : ∀ (x : Str), (∀ c ∈ x, c ≠ '\n') → lexFrom .comment (lit x) = ([], .comment)
  | [], _ => rfl
  | c :: x, h => by
    have h1 := lexFrom_comment x (fun d hd => h d (List.mem_cons_of_mem _ hd))
    show lexFrom _ (.c c :: lit x) = _
    simp [lexFrom, lexStep, h c List.mem_cons_self, h1]

theorem lexFrom_block : ∀ (x : Str), (∀ c ∈ x, c ≠ '*') → lexFrom .block (lit x) = ([], .block)
  | [], _ => rfl
  | c :: x, h => by
    have h1 := lexFrom_block x (fun d hd => h d (List.mem_cons_of_mem _ hd))
    show lexFrom _ (.c c :: lit x) = _
    simp [lexFrom, lexStep, h c List.mem_cons_self, h1]

theorem Word.ne {x : Str} (h : Word x) {d : Char} (hd : identChar d = false) : ∀ c ∈ x, c ≠ d :=
  fun c hc => identChar_ne (h.2 c hc) hd

theorem step_nm {st st' : Lex} {e : List Tok} (h : Sim st st' e) {x : Str} (hx : Word x)
    (hb : (lexStep st (.nm x)).2 ≠ .bad) :
    ∃ e1, Sim (lexStep st (.nm x)).2 (lexFrom st' (lit x)).2 e1 ∧
      e ++ (lexFrom st' (lit x)).1 = (lexStep st (.nm x)).1.flatMap Tok.expand ++ e1 := by
  cases h with
  | start =>
    obtain ⟨hn, hc⟩ := hx
    cases x with
    | nil => exact absurd rfl hn
    | cons c x =>
      obtain ⟨b', h1, h2⟩ := lexFrom_ident x (fun d hd => hc d (List.mem_cons_of_mem _ hd)) [.c c]
      have : lexFrom .start (lit (c :: x)) = ([], .ident b') := by
        show lexFrom _ (.c c :: lit x) = _
        simp [lexFrom, lexStep, startStep, hc c List.mem_cons_self, h1]
      rw [this]
      exact ⟨[], .ident (by rw [h2]; rfl), rfl⟩
  | @ident b b' hf =>
    obtain ⟨b1, h1, h2⟩ := lexFrom_ident x hx.2 b'
    rw [h1]
    exact ⟨[], .ident (by rw [h2, flat_nm, hf]), rfl⟩
  | @quoted b b' hf =>
    obtain ⟨b1, h1, h2⟩ := lexFrom_quoted x hx.2 b'
    rw [h1]
    exact ⟨[], .quoted (by rw [h2, flat_nm, hf]), rfl⟩
  | escaped hf => exact absurd rfl hb
  | slash =>
    obtain ⟨hn, hc⟩ := hx
    cases x with
    | nil => exact absurd rfl hn
    | cons c x =>
      obtain ⟨b', h1, h2⟩ := lexFrom_ident x (fun d hd => hc d (List.mem_cons_of_mem _ hd)) [.c c]
      have h3 := hc c List.mem_cons_self
      have : lexFrom .slash (lit (c :: x)) = ([.sym '/'], .ident b') := by
        show lexFrom _ (.c c :: lit x) = _
        simp [lexFrom, lexStep, startStep, h3, h1, identChar_ne h3 (d := '/') (by decide),
          identChar_ne h3 (d := '*') (by decide)]
      rw [this]
      exact ⟨[], .ident (by rw [h2]; rfl), rfl⟩
  | comment =>
    rw [lexFrom_comment x (hx.ne (by decide))]
    exact ⟨[], .comment, rfl⟩
  | block =>
    rw [lexFrom_block x (hx.ne (by decide))]
    exact ⟨[], .block, rfl⟩
  | star =>
    obtain ⟨hn, hc⟩ := hx
    cases x with
    | nil => exact absurd rfl hn
    | cons c x =>
      have h3 := hc c List.mem_cons_self
      have : lexFrom .star (lit (c :: x)) = ([], .block) := by
        show lexFrom _ (.c c :: lit x) = _
        simp [lexFrom, lexStep, identChar_ne h3 (d := '/') (by decide), identChar_ne h3 (d := '*') (by decide),
          lexFrom_block x fun d hd => identChar_ne (hc d (List.mem_cons_of_mem _ hd)) (by decide)]
      rw [this]
      exact ⟨[], .block, rfl⟩
  | @line b b' hf =>
    obtain ⟨b1, h1, h2⟩ := lexFrom_line x (hx.ne (by decide)) b'
    rw [h1]
    exact ⟨[], .line (by rw [h2, flat_nm, hf]), rfl⟩
  | spelled => exact absurd rfl hb
  | spelledIdent => exact absurd rfl hb

theorem step_raw {st st' : Lex} {e : List Tok} (h : Sim st st' e) {t : Str} (ht : Whole t)
    (hb : (lexStep st (.raw t)).2 ≠ .bad) :
    ∃ e1, Sim (lexStep st (.raw t)).2 (lexFrom st' (lit t)).2 e1 ∧
      e ++ (lexFrom st' (lit t)).1 = (lexStep st (.raw t)).1.flatMap Tok.expand ++ e1 := by
  cases h with
  | start =>
    unfold Whole at ht
    cases hl : lexFrom .start (lit t) with
    | mk e s =>
      rw [hl] at ht
      cases s with
      | start => exact ⟨e, .spelled hl, rfl⟩
      | ident b => exact ⟨e, .spelledIdent hl, rfl⟩
      | _ => exact ht.elim
  | _ => exact absurd rfl hb

theorem step_path {st st' : Lex} {e : List Tok} (h : Sim st st' e) {x : Str} (hx : Plain x)
    (hb : (lexStep st (.path x)).2 ≠ .bad) :
    ∃ e1, Sim (lexStep st (.path x)).2 (lexFrom st' (lit x)).2 e1 ∧
      e ++ (lexFrom st' (lit x)).1 = (lexStep st (.path x)).1.flatMap Tok.expand ++ e1 := by
  cases h with
  | comment =>
    rw [lexFrom_comment x fun c hc => (hx c hc).1]
    exact ⟨[], .comment, rfl⟩
  | block =>
    rw [lexFrom_block x fun c hc => (hx c hc).2]
    exact ⟨[], .block, rfl⟩
  | @line b b' hf =>
    obtain ⟨b1, h1, h2⟩ := lexFrom_line x (fun c hc => (hx c hc).1) b'
    rw [h1]
    exact ⟨[], .line (by rw [h2, flat_path, hf]), rfl⟩
  | _ => exact absurd rfl hb

theorem lexFrom_bad : ∀ t : Text, (lexFrom .bad t).2 = .bad
  | [] => rfl
  | s :: t => by
    show (lexFrom (lexStep .bad s).2 t).2 = _
    cases s <;> exact lexFrom_bad t

/-- The characters have the tokens, with those of the spellings. -/
theorem sim : ∀ (t : Text) {st st' : Lex} {e ts : List Tok}, Good t → Sim st st' e → lexFrom st t = (ts, .start) →
    ∃ us, lexFrom st' (lit (chars t)) = (us, .start) ∧ e ++ us = ts.flatMap Tok.expand
  | [], st, st', e, ts, _, hs, h => by
    injection h with h1 h2
    subst h1 h2
    cases hs
    exact ⟨[], rfl, rfl⟩
  | s :: t, st, st', e, ts, hg, hs, h => by
    have h0 : lexFrom st (s :: t) = ((lexStep st s).1 ++ (lexFrom (lexStep st s).2 t).1, (lexFrom (lexStep st s).2 t).2) :=
      rfl
    rw [h0] at h
    injection h with h1 h2
    have hb : (lexStep st s).2 ≠ .bad := by
      intro hb
      rw [hb, lexFrom_bad] at h2
      exact nomatch h2
    have hst : ∃ e1, Sim (lexStep st s).2 (lexFrom st' (lit s.chars)).2 e1 ∧
        e ++ (lexFrom st' (lit s.chars)).1 = (lexStep st s).1.flatMap Tok.expand ++ e1 := by
      have hgs := hg s List.mem_cons_self
      cases s with
      | c ch =>
        have := step_c hs ch hb
        simpa [Sym.chars, lit, lexFrom] using this
      | nm x => exact step_nm hs hgs hb
      | raw r => exact step_raw hs hgs hb
      | path x => exact step_path hs hgs hb
    obtain ⟨e1, hs1, he1⟩ := hst
    obtain ⟨us, hu, heu⟩ := sim t (fun s hs => hg s (List.mem_cons_of_mem _ hs)) hs1
      (show lexFrom (lexStep st s).2 t = ((lexFrom (lexStep st s).2 t).1, .start) by rw [← h2])
    refine ⟨(lexFrom st' (lit s.chars)).1 ++ us, ?_, ?_⟩
    · have : lit (chars (s :: t)) = lit s.chars ++ lit (chars t) := by simp [chars, lit]
      rw [this, lexFrom_append, hu]
    · rw [← List.append_assoc, he1, List.append_assoc, heu, ← h1, List.flatMap_append]

theorem Lexes.tokens {t : Text} {ts : List Tok} (h : Lexes t ts) (hg : Good t) :
    Tokens (chars t) (ts.flatMap Tok.expand) := by
  obtain ⟨us, h1, h2⟩ := sim t hg .start h
  rw [List.nil_append] at h2
  rw [← h2]; exact h1

end EP.Gen.Jinja
