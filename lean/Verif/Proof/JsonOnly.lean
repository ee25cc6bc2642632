import Verif.Proof.Json

/-!
# Texts that are read as the right value only if the value is readable
-/

namespace EP
open Spec

namespace Json

/-- What is behind a value in the text of a message: the end of the line, or a comma and the end of the line. -/
def Ends (r : List Byte) : Prop := ∃ l, r = 0x0A :: l ∨ r = 0x2C :: 0x0A :: l

theorem Ends.stop {r : List Byte} (h : Ends r) : Stop r := by
  obtain ⟨l, rfl | rfl⟩ := h <;> (intro b hb; injection hb with hb; subst hb; rfl)

/-- If the text is read as `v` then `R` holds and all of the text was read. -/
def Only (text : List Byte) (v : JVal) (R : Prop) : Prop :=
  ∀ n r r', Ends r → value n (text ++ r) = some (v, r') → R ∧ r' = r

/-! ## Strings -/

theorem string_ends {r : List Byte} (h : Ends r) : string r = none := by
  obtain ⟨l, rfl | rfl⟩ := h
  · rw [string.eq_def]; rfl
  · have e : EP.Json.string (0x0A :: l) = none := by rw [string.eq_def]; rfl
    rw [string.eq_def]
    dsimp only
    rw [if_neg (by decide), if_neg (by decide), if_neg (by decide), e]
    rfl

theorem utf8_length (n : Nat) : (utf8 n).length ≤ 3 := by
  unfold utf8
  rw [List.length_map]
  split
  · exact (by decide : 1 ≤ 3)
  · split
    · exact (by decide : 2 ≤ 3)
    · exact Nat.le_refl 3

theorem hexCode_quote (a b c d : Byte) (h : a = 0x22 ∨ b = 0x22 ∨ c = 0x22 ∨ d = 0x22) : hexCode a b c d = none := by
  have q : hexDigit 0x22 = none := by decide
  unfold hexCode
  rcases h with rfl | rfl | rfl | rfl
  · rw [q]; rfl
  · rw [q]; cases hexDigit a <;> rfl
  · rw [q]; cases hexDigit a <;> cases hexDigit b <;> rfl
  · rw [q]; cases hexDigit a <;> cases hexDigit b <;> cases hexDigit c <;> rfl

/-- A string is never longer than what it was read from, and as long only if nothing in it needed an escape. -/
theorem string_length : ∀ (k : Nat) (s r p r' : List Byte), s.length ≤ k → Ends r → string (s ++ 0x22 :: r) = some (p, r') →
    p.length ≤ s.length ∧ (p.length = s.length → PlainText s ∧ r' = r) := by
  intro k
  induction k with
  | zero =>
    intro s r p r' hk _ h
    rw [List.eq_nil_of_length_eq_zero (Nat.le_zero.mp hk), List.nil_append, string.eq_def] at h
    dsimp only at h
    rw [if_pos rfl] at h
    cases h
    refine ⟨Nat.zero_le _, fun _ => ⟨?_, rfl⟩⟩
    rw [List.eq_nil_of_length_eq_zero (Nat.le_zero.mp hk)]
    exact fun b hb => nomatch hb
  | succ k ih =>
    intro s r p r' hk hr h
    cases s with
    | nil => exact ih [] r p r' (Nat.zero_le _) hr h
    | cons b s =>
      rw [List.length_cons] at hk ⊢
      rw [List.cons_append, string.eq_def] at h
      dsimp only at h
      by_cases h1 : b = 0x22
      · rw [if_pos h1] at h
        cases h
        exact ⟨Nat.zero_le _, fun e => nomatch e⟩
      rw [if_neg h1] at h
      by_cases h2 : b = 0x5C
      · rw [if_pos h2] at h
        cases s with
        | nil =>
          have e : escape 0x22 = some 0x22 := by decide
          rw [List.nil_append] at h
          dsimp only at h
          rw [e] at h
          dsimp only at h
          rw [string_ends hr] at h
          exact nomatch h
        | cons c s =>
          rw [List.cons_append] at h
          dsimp only at h
          rw [List.length_cons] at hk ⊢
          cases hc : escape c with
          | some e =>
            rw [hc] at h
            dsimp only at h
            obtain ⟨⟨p1, r1⟩, g1, g2⟩ := Option.map_eq_some_iff.mp h
            cases g2
            have := (ih s r p1 r1 (by omega) hr g1).1
            rw [List.length_cons]
            dsimp only
            exact ⟨by omega, fun e => by omega⟩
          | none =>
            rw [hc] at h
            dsimp only at h
            by_cases hu : c = 0x75
            · rw [if_pos hu] at h
              match s, hk, h with
              | [], _, h =>
                rw [List.nil_append] at h
                match r, h with
                | h2 :: h3 :: h4 :: r, h =>
                  dsimp only at h
                  rw [hexCode_quote _ _ _ _ (Or.inl rfl)] at h
                  exact nomatch h
              | [h1], _, h =>
                rw [List.cons_append, List.nil_append] at h
                match r, h with
                | h3 :: h4 :: r, h =>
                  dsimp only at h
                  rw [hexCode_quote _ _ _ _ (Or.inr (Or.inl rfl))] at h
                  exact nomatch h
              | [h1, h2], _, h =>
                simp only [List.cons_append, List.nil_append] at h
                match r, h with
                | h4 :: r, h =>
                  dsimp only at h
                  rw [hexCode_quote _ _ _ _ (Or.inr (Or.inr (Or.inl rfl)))] at h
                  exact nomatch h
              | [h1, h2, h3], _, h =>
                simp only [List.cons_append, List.nil_append] at h
                rw [hexCode_quote _ _ _ _ (Or.inr (Or.inr (Or.inr rfl)))] at h
                exact nomatch h
              | h1 :: h2 :: h3 :: h4 :: s, hk, h =>
                simp only [List.cons_append] at h
                simp only [List.length_cons] at hk ⊢
                cases hx : hexCode h1 h2 h3 h4 with
                | none => rw [hx] at h; exact nomatch h
                | some n =>
                  rw [hx] at h
                  simp only [Option.bind_eq_bind, Option.bind_some] at h
                  obtain ⟨⟨p1, r1⟩, g1, g2⟩ := Option.bind_eq_some_iff.mp h
                  cases g2
                  have := (ih s r p1 r1 (by omega) hr g1).1
                  have := utf8_length n
                  rw [List.length_append]
                  dsimp only
                  exact ⟨by omega, fun e => by omega⟩
            · rw [if_neg hu] at h
              exact nomatch h
      rw [if_neg h2] at h
      by_cases h3 : b.toNat < 0x20
      · rw [if_pos h3] at h
        exact nomatch h
      rw [if_neg h3] at h
      obtain ⟨⟨p1, r1⟩, g1, g2⟩ := Option.map_eq_some_iff.mp h
      cases g2
      obtain ⟨k1, k2⟩ := ih s r p1 r1 (by omega) hr g1
      rw [List.length_cons]
      dsimp only
      refine ⟨by omega, fun e => ?_⟩
      obtain ⟨k3, k4⟩ := k2 (by omega)
      refine ⟨fun c hc => ?_, k4⟩
      rcases List.mem_cons.mp hc with rfl | hc
      · exact ⟨h1, h2, by omega⟩
      · exact k3 c hc

theorem Only.string (s : List Byte) : Only (quoted s) (.str s) (PlainText s) := by
  intro n r r' hr h
  cases n with
  | zero => exact nomatch h
  | succ n =>
    have e : quoted s ++ r = 0x22 :: (s ++ 0x22 :: r) := by
      rw [quoted]; simp only [List.append_assoc]; rfl
    rw [e, value, skipWs_cons rfl] at h
    dsimp only at h
    rw [if_neg (by decide), if_neg (by decide), if_pos rfl] at h
    obtain ⟨⟨p1, r1⟩, g1, g2⟩ := Option.map_eq_some_iff.mp h
    injection g2 with g2 g3
    injection g2 with g2
    dsimp only at g2 g3
    subst g2 g3
    exact (string_length _ p1 r p1 r1 (Nat.le_refl _) hr g1).2 rfl

/-! ## Numbers -/

theorem takeWhile_numChars {l r : List Byte} (h : ∀ b ∈ l, isNumChar b = true) (hr : Stop r) :
    (l ++ r).takeWhile isNumChar = l ∧ (l ++ r).dropWhile isNumChar = r := by
  induction l with
  | nil =>
    rw [List.nil_append]
    cases r with
    | nil => exact ⟨rfl, rfl⟩
    | cons b r =>
      have := hr b rfl
      exact ⟨List.takeWhile_cons_of_neg (by rw [this]; decide), List.dropWhile_cons_of_neg (by rw [this]; decide)⟩
  | cons b l ih =>
    have hb := h b List.mem_cons_self
    obtain ⟨h1, h2⟩ := ih fun c hc => h c (List.mem_cons_of_mem _ hc)
    rw [List.cons_append, List.takeWhile_cons_of_pos hb, List.dropWhile_cons_of_pos hb, h1, h2]
    exact ⟨rfl, rfl⟩

theorem minus_numChars {l : List Byte} (h : (minus l).all isDigit = true) : ∀ b ∈ l, isNumChar b = true :=
  minus_all fun b hb => isNumChar_of_digit (List.all_eq_true.mp h b hb)

theorem numberOf_cases (l : List Byte) : (∃ i, numberOf l = .int i) ∨ numberOf l = .real l := by
  unfold numberOf
  split
  · exact Or.inl ⟨_, rfl⟩
  · exact Or.inr rfl

theorem Only.number {l : List Byte} (hl : l ≠ []) : Only l (numberOf l) (isNumber l = true) := by
  intro n r r' hr h
  -- the characters of numbers that are read
  have key : ∃ x, skipWs (l ++ r) = x ∧ isNumber (x.takeWhile isNumChar) = true ∧
      numberOf (x.takeWhile isNumChar) = numberOf l ∧ r' = x.dropWhile isNumChar := by
    cases n with
    | zero => exact nomatch h
    | succ n =>
      rw [value] at h
      cases hx : skipWs (l ++ r) with
      | nil => rw [hx] at h; exact nomatch h
      | cons b q =>
        refine ⟨_, rfl, ?_⟩
        rw [hx] at h
        dsimp only at h
        have nobj : ∀ m, numberOf l ≠ .obj m := fun m e => by
          rcases numberOf_cases l with ⟨i, k⟩ | k <;> rw [k] at e <;> exact nomatch e
        have narr : ∀ m, numberOf l ≠ .arr m := fun m e => by
          rcases numberOf_cases l with ⟨i, k⟩ | k <;> rw [k] at e <;> exact nomatch e
        have nstr : ∀ m, numberOf l ≠ .str m := fun m e => by
          rcases numberOf_cases l with ⟨i, k⟩ | k <;> rw [k] at e <;> exact nomatch e
        have nbool : ∀ m, numberOf l ≠ .bool m := fun m e => by
          rcases numberOf_cases l with ⟨i, k⟩ | k <;> rw [k] at e <;> exact nomatch e
        have nnull : numberOf l ≠ .null := fun e => by
          rcases numberOf_cases l with ⟨i, k⟩ | k <;> rw [k] at e <;> exact nomatch e
        split at h
        · split at h
          · exact nomatch h
          · split at h
            · injection h with h; exact absurd (congrArg Prod.fst h).symm (nobj _)
            · obtain ⟨_, _, g⟩ := Option.map_eq_some_iff.mp h
              exact absurd (congrArg Prod.fst g).symm (nobj _)
        split at h
        · split at h
          · exact nomatch h
          · split at h
            · injection h with h; exact absurd (congrArg Prod.fst h).symm (narr _)
            · obtain ⟨_, _, g⟩ := Option.map_eq_some_iff.mp h
              exact absurd (congrArg Prod.fst g).symm (narr _)
        split at h
        · obtain ⟨_, _, g⟩ := Option.map_eq_some_iff.mp h
          exact absurd (congrArg Prod.fst g).symm (nstr _)
        split at h
        · injection h with h; exact absurd (congrArg Prod.fst h).symm (nbool _)
        · injection h with h; exact absurd (congrArg Prod.fst h).symm (nbool _)
        · injection h with h; exact absurd (congrArg Prod.fst h).symm nnull
        · split at h
          · rename_i hn
            injection h with h
            exact ⟨hn, congrArg Prod.fst h, (congrArg Prod.snd h).symm⟩
          · exact nomatch h
  obtain ⟨x, hx, k1, k2, k3⟩ := key
  -- all characters of the text are characters of numbers
  have hall : ∀ b ∈ l, isNumChar b = true := by
    by_cases hd : (minus l).all isDigit = true
    · exact minus_numChars hd
    · have e : numberOf l = .real l := by unfold numberOf; rw [if_neg hd]
      rw [e] at k2
      have : x.takeWhile isNumChar = l := by
        rcases numberOf_cases (x.takeWhile isNumChar) with ⟨i, g⟩ | g
        · rw [g] at k2; exact nomatch k2
        · rw [g] at k2; injection k2
      rw [← this]
      exact fun b hb => List.all_eq_true.mp (List.all_takeWhile (p := isNumChar) (l := x)) b hb
  have hs : skipWs (l ++ r) = l ++ r := by
    cases l with
    | nil => exact absurd rfl hl
    | cons b l => exact skipWs_cons (numChar_cases (hall b List.mem_cons_self)).1 _
  rw [hs] at hx
  subst hx
  obtain ⟨t1, t2⟩ := takeWhile_numChars hall hr.stop
  rw [t1] at k1
  exact ⟨k1, k3.trans t2⟩

theorem Only.mono {text : List Byte} {v : JVal} {R Q : Prop} (h : Only text v R) (hq : R → Q) : Only text v Q :=
  fun n r r' hr e => ⟨hq (h n r r' hr e).1, (h n r r' hr e).2⟩

theorem Only.bool (b : Bool) : Only (if b then ascii "true" else ascii "false") (.bool b) True := by
  intro n r r' _ h
  cases n with
  | zero => exact nomatch h
  | succ n =>
    refine ⟨trivial, ?_⟩
    have := Reads.bool b
    cases b with
    | true =>
      have e : value (n + 1) ((if true then ascii "true" else ascii "false") ++ r) = some (.bool true, r) := rfl
      rw [e] at h
      cases h
      rfl
    | false =>
      have e : value (n + 1) ((if false then ascii "true" else ascii "false") ++ r) = some (.bool false, r) := rfl
      rw [e] at h
      cases h
      rfl

theorem scalar_only (P : Printer) (s : ScalarTy) (v : s.Val) : Only (s.text P v) (s.json P v) (s.Readable P v) := by
  have ne : ∀ l, isNumber l = true → l ≠ [] := fun l h => (isNumber_all h).1
  have int : ∀ i : Int, Only (decimalInt i) (.int i) True := fun i =>
    (decimalInt_number i).2 ▸ (Only.number (ne _ (decimalInt_number i).1)).mono fun _ => trivial
  have nat : ∀ n : Nat, Only (decimal n) (.int n) True := fun n =>
    (decimal_number n).2 ▸ (Only.number (ne _ (decimal_number n).1)).mono fun _ => trivial
  cases s with
  | boolean => exact Only.bool v
  | floatfixed => exact Only.number (P.float_ne v)
  | doublefixed => exact Only.number (P.double_ne v)
  | uint32 => exact nat _
  | uint64 => exact nat _
  | fixed32 => exact nat _
  | fixed64 => exact nat _
  | _ => exact int _

/-! ## Members and elements -/

/-- As `MemberText`, without the bodies being readable: `Q` follows if they are read as the right values. -/
inductive MemberOnly : Bool → List (List Byte × JVal) → List Byte → Prop → Prop where
  | nil (first : Bool) {Q : Prop} : Q → MemberOnly first [] [] Q
  | cons {first : Bool} {ws name body rest : List Byte} {v : JVal} {ms : List (List Byte × JVal)} {R R' Q : Prop} : Blank ws →
      PlainText name → Only body v R → MemberOnly false ms rest R' → (R → R' → Q) →
      MemberOnly first ((name, v) :: ms) (comma first ++ (ws ++ (quoted name ++ (ascii ": " ++ body))) ++ rest) Q

inductive ElemOnly : Bool → List JVal → List Byte → Prop → Prop where
  | nil (first : Bool) {Q : Prop} : Q → ElemOnly first [] [] Q
  | cons {first : Bool} {ws body rest : List Byte} {v : JVal} {vs : List JVal} {R R' Q : Prop} : Blank ws → Only body v R →
      ElemOnly false vs rest R' → (R → R' → Q) → ElemOnly first (v :: vs) (comma first ++ (ws ++ body) ++ rest) Q

theorem MemberOnly.mono {first : Bool} {ms : List (List Byte × JVal)} {t : List Byte} {Q Q' : Prop}
    (h : MemberOnly first ms t Q) (hq : Q → Q') : MemberOnly first ms t Q' := by
  cases h with
  | nil _ h => exact .nil _ (hq h)
  | cons h1 h2 h3 h4 h5 => exact .cons h1 h2 h3 h4 fun a b => hq (h5 a b)

theorem MemberOnly.append {first : Bool} {ms ms' : List (List Byte × JVal)} {t t' : List Byte} {Q Q' : Prop}
    (h : MemberOnly first ms t Q) (h' : MemberOnly (first && ms.isEmpty) ms' t' Q') :
    MemberOnly first (ms ++ ms') (t ++ t') (Q ∧ Q') := by
  induction h with
  | nil first hq =>
    rw [List.isEmpty_nil, Bool.and_true] at h'
    exact h'.mono fun g => ⟨hq, g⟩
  | cons h1 h2 h3 _ h5 ih =>
    rw [List.isEmpty_cons, Bool.and_false] at h'
    rw [List.append_assoc]
    exact .cons h1 h2 h3 (ih (by rw [Bool.false_and]; exact h')) fun a b => ⟨h5 a b.1, b.2⟩

theorem members_step {ws name : List Byte} (body : List Byte) (n : Nat) (h1 : Blank ws) (h2 : PlainText name) :
    members (n + 1) (ws ++ (quoted name ++ (ascii ": " ++ body))) = (value n body).bind fun p =>
      match skipWs p.2 with
      | [] => none
      | c :: r =>
        if c = 0x2C then (members n r).map fun q => ((name, p.1) :: q.1, q.2)
        else if c = 0x7D then some ([(name, p.1)], r) else none := by
  rw [members_blank h1]
  have e : quoted name ++ (ascii ": " ++ body) = 0x22 :: (name ++ 0x22 :: (0x3A :: 0x20 :: body)) := by
    rw [quoted]; simp only [List.append_assoc]; rfl
  rw [e, members, skipWs_cons rfl]
  dsimp only
  rw [if_pos rfl, string_plain h2]
  have ha : after (ascii ":") (0x3A :: 0x20 :: body) = some ([0x20] ++ body) := rfl
  simp only [Option.bind_eq_bind, Option.bind_some]
  rw [skipWs_cons rfl, ha]
  simp only [Option.bind_some]
  rw [value_blank (by show ∀ b ∈ _, _; decide)]
  rfl

theorem ends_comma (l : List Byte) : Ends (comma false ++ l) := ⟨l, Or.inr rfl⟩

theorem MemberOnly.read {ms : List (List Byte × JVal)} {rest : List Byte} {first : Bool} {Q : Prop}
    (h : MemberOnly first ms rest Q) (h0 : first = false) :
    ∀ {ws name body : List Byte} {v : JVal} {n : Nat} {tail : List Byte} {R : Prop} {r r' : List Byte}, Blank ws →
    PlainText name → Only body v R → Blank tail → Ends (tail ++ 0x7D :: r) →
    members n (ws ++ (quoted name ++ (ascii ": " ++ (body ++ (rest ++ (tail ++ 0x7D :: r)))))) = some ((name, v) :: ms, r') →
    R ∧ Q ∧ r' = r := by
  induction h with
  | nil first hq =>
    intro ws name body v n tail R r r' h1 h2 h3 ht he hr
    cases n with
    | zero => exact nomatch hr
    | succ n =>
      rw [members_step _ _ h1 h2, List.nil_append] at hr
      obtain ⟨⟨v', r''⟩, g1, g2⟩ := Option.bind_eq_some_iff.mp hr
      have hv : v' = v := by
        dsimp only at g2
        split at g2
        · exact nomatch g2
        · split at g2
          · obtain ⟨_, _, g⟩ := Option.map_eq_some_iff.mp g2
            injection g with g _
            injection g with g _
            injection g
          · split at g2
            · injection g2 with g2
              injection g2 with g _
              injection g with g _
              injection g
            · exact nomatch g2
      subst hv
      obtain ⟨k1, rfl⟩ := h3 n _ _ he g1
      dsimp only at g2
      rw [skipWs_blank ht, skipWs_cons rfl] at g2
      dsimp only at g2
      rw [if_neg (by decide), if_pos rfl] at g2
      injection g2 with g2
      injection g2 with _ g2
      exact ⟨k1, hq, g2.symm⟩
  | @cons first ws' name' body' rest' v' ms' S S' Q g1 g2 g3 g4 g5 ih =>
    intro ws name body v n tail R r r' h1 h2 h3 ht he hr
    subst h0
    cases n with
    | zero => exact nomatch hr
    | succ n =>
      rw [members_step _ _ h1 h2] at hr
      obtain ⟨⟨v'', r''⟩, q1, q2⟩ := Option.bind_eq_some_iff.mp hr
      have hv : v'' = v := by
        dsimp only at q2
        split at q2
        · exact nomatch q2
        · split at q2
          · obtain ⟨_, _, g⟩ := Option.map_eq_some_iff.mp q2
            injection g with g _
            injection g with g _
            injection g
          · split at q2
            · injection q2 with q2
              injection q2 with g _
              injection g with g _
              injection g
            · exact nomatch q2
      subst hv
      simp only [List.append_assoc] at q1
      obtain ⟨k1, rfl⟩ := h3 n _ _ (ends_comma _) q1
      dsimp only at q2
      have e : ∀ l, comma false ++ l = 0x2C :: ([0x0A] ++ l) := fun l => rfl
      rw [e, skipWs_cons rfl] at q2
      dsimp only at q2
      rw [if_pos rfl, members_blank (by show ∀ b ∈ _, _; decide)] at q2
      obtain ⟨⟨ms'', r3⟩, q3, q4⟩ := Option.map_eq_some_iff.mp q2
      injection q4 with q4 q5
      injection q4 with _ q4
      dsimp only at q4 q5
      subst q4 q5
      obtain ⟨w1, w2, w3⟩ := ih rfl g1 g2 g3 ht he q3
      exact ⟨k1, g5 w1 w2, w3⟩

theorem ElemOnly.read {vs : List JVal} {rest : List Byte} {first : Bool} {Q : Prop} (h : ElemOnly first vs rest Q)
    (h0 : first = false) :
    ∀ {ws body : List Byte} {v : JVal} {n : Nat} {tail : List Byte} {R : Prop} {r r' : List Byte}, Blank ws →
    Only body v R → Blank tail → Ends (tail ++ 0x5D :: r) →
    elements n (ws ++ (body ++ (rest ++ (tail ++ 0x5D :: r)))) = some (v :: vs, r') → R ∧ Q ∧ r' = r := by
  induction h with
  | nil first hq =>
    intro ws body v n tail R r r' h1 h3 ht he hr
    cases n with
    | zero => exact nomatch hr
    | succ n =>
      rw [elements_blank h1, elements, List.nil_append] at hr
      obtain ⟨⟨v', r''⟩, g1, g2⟩ := Option.bind_eq_some_iff.mp hr
      have hv : v' = v := by
        dsimp only at g2
        split at g2
        · exact nomatch g2
        · split at g2
          · obtain ⟨_, _, g⟩ := Option.map_eq_some_iff.mp g2
            injection g with g _
            injection g
          · split at g2
            · injection g2 with g2
              injection g2 with g _
              injection g
            · exact nomatch g2
      subst hv
      obtain ⟨k1, rfl⟩ := h3 n _ _ he g1
      dsimp only at g2
      rw [skipWs_blank ht, skipWs_cons rfl] at g2
      dsimp only at g2
      rw [if_neg (by decide), if_pos rfl] at g2
      injection g2 with g2
      injection g2 with _ g2
      exact ⟨k1, hq, g2.symm⟩
  | @cons first ws' body' rest' v' vs' S S' Q g1 g3 g4 g5 ih =>
    intro ws body v n tail R r r' h1 h3 ht he hr
    subst h0
    cases n with
    | zero => exact nomatch hr
    | succ n =>
      rw [elements_blank h1, elements] at hr
      obtain ⟨⟨v'', r''⟩, q1, q2⟩ := Option.bind_eq_some_iff.mp hr
      have hv : v'' = v := by
        dsimp only at q2
        split at q2
        · exact nomatch q2
        · split at q2
          · obtain ⟨_, _, g⟩ := Option.map_eq_some_iff.mp q2
            injection g with g _
            injection g
          · split at q2
            · injection q2 with q2
              injection q2 with g _
              injection g
            · exact nomatch q2
      subst hv
      simp only [List.append_assoc] at q1
      obtain ⟨k1, rfl⟩ := h3 n _ _ (ends_comma _) q1
      dsimp only at q2
      have e : ∀ l, comma false ++ l = 0x2C :: ([0x0A] ++ l) := fun l => rfl
      rw [e, skipWs_cons rfl] at q2
      dsimp only at q2
      rw [if_pos rfl, elements_blank (by show ∀ b ∈ _, _; decide)] at q2
      obtain ⟨⟨vs'', r3⟩, q3, q4⟩ := Option.map_eq_some_iff.mp q2
      injection q4 with q4 q5
      injection q4 with _ q4
      dsimp only at q4 q5
      subst q4 q5
      obtain ⟨w1, w2, w3⟩ := ih rfl g1 g3 ht he q3
      exact ⟨k1, g5 w1 w2, w3⟩

theorem Blank.ends {tail : List Byte} (hn : ∃ l, tail = 0x0A :: l) (l : List Byte) : Ends (tail ++ l) := by
  obtain ⟨t, rfl⟩ := hn
  exact ⟨t ++ l, Or.inl rfl⟩

theorem object_only {text ws tail : List Byte} {ms : List (List Byte × JVal)} {Q : Prop} (h : MemberOnly true ms text Q)
    (hw : Blank ws) (ht : Blank tail) (hn : ∃ l, tail = 0x0A :: l) {n : Nat} {r r' : List Byte}
    (hr : value n (ascii "{" ++ ws ++ text ++ tail ++ ascii "}" ++ r) = some (.obj ms, r')) : Q ∧ r' = r := by
  have e : ascii "{" ++ ws ++ text ++ tail ++ ascii "}" ++ r = 0x7B :: (ws ++ (text ++ (tail ++ 0x7D :: r))) := by
    simp only [List.append_assoc]; rfl
  cases n with
  | zero => exact nomatch hr
  | succ n =>
    rw [e, value, skipWs_cons rfl] at hr
    dsimp only at hr
    rw [if_pos rfl, skipWs_blank hw] at hr
    cases h with
    | nil _ hq =>
      rw [List.nil_append, skipWs_blank ht, skipWs_cons rfl] at hr
      dsimp only at hr
      rw [if_pos rfl] at hr
      injection hr with hr
      injection hr with _ hr
      exact ⟨hq, hr.symm⟩
    | @cons _ ws' name body rest v ms R R' Q g1 g2 g3 g4 g5 =>
      have hq : ∀ l, quoted name ++ l = 0x22 :: (name ++ (0x22 :: l)) := by
        intro l
        rw [quoted]; simp only [List.append_assoc]; rfl
      have e2 : comma true ++ (ws' ++ (quoted name ++ (ascii ": " ++ body))) ++ rest ++ (tail ++ 0x7D :: r) =
          ws' ++ (quoted name ++ (ascii ": " ++ (body ++ (rest ++ (tail ++ 0x7D :: r))))) := by
        rw [show comma true = [] from rfl, List.nil_append]
        simp only [List.append_assoc]
      rw [e2, skipWs_blank g1, hq, skipWs_cons rfl] at hr
      dsimp only at hr
      rw [if_neg (by decide), ← hq, ← members_blank g1] at hr
      obtain ⟨⟨ms'', r3⟩, q3, q4⟩ := Option.map_eq_some_iff.mp hr
      injection q4 with q4 q5
      injection q4 with q4
      dsimp only at q4 q5
      subst q4 q5
      obtain ⟨w1, w2, w3⟩ := g4.read rfl g1 g2 g3 ht (Blank.ends hn _) q3
      exact ⟨g5 w1 w2, w3⟩

theorem array_only {text ws tail : List Byte} {vs : List JVal} {Q : Prop} (h : ElemOnly true vs text Q)
    (hw : Blank ws) (ht : Blank tail) (hn : ∃ l, tail = 0x0A :: l) :
    Only (ascii "[" ++ ws ++ text ++ tail ++ ascii "]") (.arr vs) Q := by
  intro n r r' _ hr
  have e : ascii "[" ++ ws ++ text ++ tail ++ ascii "]" ++ r = 0x5B :: (ws ++ (text ++ (tail ++ 0x5D :: r))) := by
    simp only [List.append_assoc]; rfl
  cases n with
  | zero => exact nomatch hr
  | succ n =>
    rw [e, value, skipWs_cons rfl] at hr
    dsimp only at hr
    rw [if_neg (by decide), if_pos rfl, skipWs_blank hw] at hr
    cases h with
    | nil _ hq =>
      rw [List.nil_append, skipWs_blank ht, skipWs_cons rfl] at hr
      dsimp only at hr
      rw [if_pos rfl] at hr
      injection hr with hr
      injection hr with _ hr
      exact ⟨hq, hr.symm⟩
    | @cons _ ws' body rest v vs R R' Q g1 g3 g4 g5 =>
      have e2 : comma true ++ (ws' ++ body) ++ rest ++ (tail ++ 0x5D :: r) = ws' ++ (body ++ (rest ++ (tail ++ 0x5D :: r))) := by
        rw [show comma true = [] from rfl, List.nil_append]
        simp only [List.append_assoc]
      rw [e2] at hr
      have hs : ∀ l, elements n (skipWs l) = elements n l := by
        intro l
        have hb : Blank (l.takeWhile isWs) := fun b hb => List.all_eq_true.mp (List.all_takeWhile (p := isWs) (l := l)) b hb
        have := elements_blank hb n (skipWs l)
        rw [skipWs, List.takeWhile_append_dropWhile] at this
        exact this.symm
      cases hc : skipWs (ws' ++ (body ++ (rest ++ (tail ++ 0x5D :: r)))) with
      | nil => rw [hc] at hr; exact nomatch hr
      | cons c l =>
        rw [hc] at hr
        dsimp only at hr
        split at hr
        · injection hr with hr
          injection hr with hr _
          injection hr with hr
          exact nomatch hr
        · rw [← hc, hs] at hr
          obtain ⟨⟨ms'', r3⟩, q3, q4⟩ := Option.map_eq_some_iff.mp hr
          injection q4 with q4 q5
          injection q4 with q4
          dsimp only at q4 q5
          subst q4 q5
          obtain ⟨w1, w2, w3⟩ := g4.read rfl g1 g3 ht (Blank.ends hn _) q3
          exact ⟨g5 w1 w2, w3⟩

/-! ## Messages -/

theorem elemOnly {V : Type} {f : V → Bool → List Byte} {j : V → JVal} {R : V → Prop} {ws : List Byte} (hw : Blank ws) :
    ∀ (vs : List V), (∀ v ∈ vs, ∀ first, ∃ body, f v first = comma first ++ (ws ++ body) ∧ Only body (j v) (R v)) →
    ∀ first, ElemOnly first (vs.map j) (textElems f vs first) (∀ v ∈ vs, R v)
  | [], _, first => .nil first fun v hv => nomatch hv
  | v :: vs, h, first => by
    obtain ⟨body, e, hb⟩ := h v (List.mem_cons_self ..) first
    rw [textElems, e]
    refine .cons hw hb (elemOnly hw vs (fun v hv => h v (List.mem_cons_of_mem _ hv)) false) fun a b x hx => ?_
    rcases List.mem_cons.mp hx with rfl | hx
    · exact a
    · exact b x hx

theorem textList_only {V : Type} {f : Nat → V → Bool → List Byte} {j : V → JVal} {R : V → Prop} (lab : List Byte) (vs : List V)
    (h : ∀ v ∈ vs, ∀ n first, 0 < n → ∃ body, f n v first = comma first ++ (spaces n ++ body) ∧ Only body (j v) (R v)) :
    ∃ body, textList f (lab ++ ascii "[\n") vs = lab ++ body ∧ Only body (.arr (vs.map j)) (∀ v ∈ vs, R v) := by
  have hl : 0 < (lab ++ ascii "[\n").length := by
    rw [List.length_append]
    exact Nat.lt_of_lt_of_le (by decide : 0 < (ascii "[\n").length) (Nat.le_add_left _ _)
  refine ⟨_, ?_, array_only (elemOnly (f := f (lab ++ ascii "[\n").length) (blank_spaces (lab ++ ascii "[\n").length) vs
    (fun v hv first => h v hv _ first hl) true) blank_nl
    (blank_nl.append (blank_spaces ((lab ++ ascii "[\n").length - 2))) ⟨_, rfl⟩⟩
  rw [textList]
  have e : ascii "[\n" = ascii "[" ++ ascii "\n" := rfl
  simp only [List.append_assoc, e]

theorem memberOnly {indent : Nat} {name body : List Byte} {first : Bool} {v : JVal} {ms : List (List Byte × JVal)}
    {rest : List Byte} {R R' : Prop} (hp : PlainText name) (hb : Only body v R) (hr : MemberOnly false ms rest R') :
    MemberOnly first ((name, v) :: ms) (comma first ++ (label indent (some name) ++ body) ++ rest) (R ∧ R') := by
  have e : label indent (some name) ++ body = spaces indent ++ (quoted name ++ (ascii ": " ++ body)) := by
    simp only [label, List.append_assoc]
  rw [e]
  exact .cons (blank_spaces _) hp hb hr fun a b => ⟨a, b⟩

/-- Nothing can be read between braces that begins with a comma. -/
theorem value_comma (n : Nat) (l : List Byte) : value n (ascii "{\n,\n" ++ l) = none := by
  cases n with
  | zero => rfl
  | succ n =>
    cases n with
    | zero => rfl
    | succ n => rfl

theorem leading_or : ∀ (os : Oneofs) (v : os.Val), os.Leading v ∨ os.Trailing v
  | .nil, _ => Or.inl trivial
  | .cons _ rest, (some _, _) => Or.inl (Or.inl rfl)
  | .cons _ rest, (none, r) => by
    rcases Classical.em (rest.NoneSet r) with h | h
    · exact Or.inl (Or.inr h)
    · exact Or.inr ⟨rfl, h⟩

theorem noneSet_readable (P : Printer) : ∀ (os : Oneofs) (path : List Nat) (v : os.Val), os.NoneSet v → os.Readable P path v
  | .nil, _, _, _ => trivial
  | .cons _ rest, path, (none, r), h => ⟨fun _ g => (nomatch g), noneSet_readable P rest path r h.2⟩
  | .cons _ _, _, (some _, _), h => nomatch h.1

variable (P : Printer) (hP : ∀ path, PlainText (P.name path))

/-- What is read of the text of a message, whatever is behind it. -/
theorem msg_only {fs : Fields} {os : Oneofs} {path : List Nat} {v : (ElemTy.msg fs os).Val} {indent : Nat}
    (hf : MemberOnly true (fs.json P path v.1) (fs.text P path v.1 (indent + 2) true) (fs.Readable P path v.1))
    (ho : (fs.numbers = [] → os.Leading v.2) → MemberOnly (decide (fs.numbers = [])) (os.json P path v.2)
      (os.text P path v.2 (indent + 2) (decide (fs.numbers = []))) (os.Readable P path v.2)) :
    ∃ body, (∀ name first, (ElemTy.msg fs os).text P path v indent name first =
      comma first ++ (openLabel indent name ++ body)) ∧
      ∀ n r r', value n (body ++ r) = some ((ElemTy.msg fs os).json P path v, r') →
        (ElemTy.msg fs os).Readable P path v ∧ r' = r := by
  refine ⟨ascii "{" ++ ascii "\n" ++ (fs.text P path v.1 (indent + 2) true ++
      os.text P path v.2 (indent + 2) (decide (fs.numbers = []))) ++
      (ascii "\n" ++ (if indent = 0 then [] else spaces indent)) ++ ascii "}", fun name first => ?_, fun n r r' h => ?_⟩
  · have e : ascii "{\n" = ascii "{" ++ ascii "\n" := rfl
    simp only [ElemTy.text, List.append_assoc, e]
  · rcases Classical.em (fs.numbers = [] → os.Leading v.2) with hl | hl
    · obtain ⟨⟨k1, k2⟩, k3⟩ := object_only (hf.append (ms' := os.json P path v.2) (t' := _) (by
        rw [fields_json_isEmpty, Bool.true_and]; exact ho hl)) blank_nl (blank_nl.append (by
          split
          · exact fun b hb => nomatch hb
          · exact blank_spaces _)) ⟨_, rfl⟩ h
      exact ⟨⟨k1, k2, hl⟩, k3⟩
    · have hz : fs.numbers = [] := Classical.byContradiction fun g => hl fun e => absurd e g
      have hz' : fs = .nil := by
        cases fs with
        | nil => rfl
        | _ => exact absurd hz (by simp [Fields.numbers])
      subst hz'
      have ht : os.Trailing v.2 := (leading_or os v.2).resolve_left fun g => hl fun _ => g
      obtain ⟨os', l, e⟩ : ∃ k l, os.text P path v.2 (indent + 2) k = ascii ",\n" ++ l ∧
          k = decide (Fields.nil.numbers = []) := by
        match os, v, ht with
        | .cons a rest, ((), none, q), ht =>
          obtain ⟨l, e⟩ := EP.Oneofs.text_comma P rest path q (indent + 2) ht.2
          exact ⟨_, l, e, rfl⟩
      obtain ⟨e, rfl⟩ := e
      rw [e] at h
      have e2 : ascii "{" ++ ascii "\n" ++ (Fields.text P .nil path v.1 (indent + 2) true ++ (ascii ",\n" ++ l)) ++
          (ascii "\n" ++ (if indent = 0 then [] else spaces indent)) ++ ascii "}" ++ r =
          ascii "{\n,\n" ++ (l ++ ((ascii "\n" ++ (if indent = 0 then [] else spaces indent)) ++ (ascii "}" ++ r))) := by
        simp only [Fields.text, List.nil_append, List.append_assoc]
        rfl
      rw [e2, value_comma] at h
      exact nomatch h

include hP
set_option linter.unusedSectionVars false
mutual
theorem elem_only : ∀ (t : ElemTy) (path : List Nat) (v : t.Val),
    ∀ (indent : Nat) (name : Option (List Byte)) (first : Bool), 0 < indent →
    ∃ body, t.text P path v indent name first = comma first ++ (label indent name ++ body) ∧
      Only body (t.json P path v) (t.Readable P path v)
  | .scalar s, path, v, indent, name, first, _ =>
    ⟨_, List.append_assoc .., scalar_only P s v⟩
  | .str cap, path, v, indent, name, first, _ => by
    show ∃ body, (if P.isBytes path then _ else _) = _ ∧ Only body (if P.isBytes path then _ else _) _
    by_cases hb : P.isBytes path = true
    · rw [if_pos hb, if_pos hb]
      obtain ⟨body, e, hr⟩ := textList_only (f := fun n (b : Byte) fst => textScalar P .uint32 (b.setWidth 32) n none fst)
        (j := fun b : Byte => .int b.toNat) (R := fun _ => True) (label indent name) v (fun b _ n first _ =>
          ⟨_, List.append_assoc .., by
            have := scalar_only P .uint32 (b.setWidth 32)
            rw [show ScalarTy.json P .uint32 (b.setWidth 32) = .int b.toNat from by
              show JVal.int ((b.setWidth 32).toNat : Int) = _
              rw [BitVec.toNat_setWidth, Nat.mod_eq_of_lt (by have := b.isLt; omega)]] at this
            exact this.mono fun _ => trivial⟩)
      exact ⟨body, by rw [e], hr.mono fun _ => Or.inl hb⟩
    · rw [if_neg hb, if_neg hb]
      exact ⟨_, by rw [List.append_assoc], (Only.string v).mono Or.inr⟩
  | .msg fs os, path, v, indent, name, first, hi => by
    obtain ⟨body, e, hr⟩ := msg_only P (indent := indent) (fields_only fs path v.1 (indent + 2) true (by omega))
      (fun hl => oneofs_only os path v.2 (indent + 2) (decide (fs.numbers = [])) (by omega)
        (fun he => hl (of_decide_eq_true he)))
    refine ⟨body, ?_, fun n r r' _ h => hr n r r' h⟩
    rw [e, openLabel.eq_def, if_neg (by omega)]
theorem fields_only : ∀ (fs : Fields) (path : List Nat) (v : fs.Val),
    ∀ (indent : Nat) (first : Bool), 0 < indent →
    MemberOnly first (fs.json P path v) (fs.text P path v indent first) (fs.Readable P path v)
  | .nil, _, _, _, first, _ => .nil first trivial
  | .plain num t rest, path, v, indent, first, hi => by
    obtain ⟨body, e, hr⟩ := elem_only t (num :: path) v.1 indent (some (P.name (num :: path))) first hi
    rw [Fields.text, e]
    exact memberOnly (hP _) hr (fields_only rest path v.2 indent false hi)
  | .optional num t rest, path, v, indent, first, hi => by
    obtain ⟨body, e, hr⟩ := elem_only t (num :: path) _ indent (some (P.name (num :: path))) first hi
    rw [Fields.text, e]
    exact memberOnly (hP _) hr (fields_only rest path v.2 indent false hi)
  | .repeated num cap t rest, path, v, indent, first, hi => by
    obtain ⟨body, e, hr⟩ := textList_only (f := fun n v fst => t.text P (num :: path) v n none fst)
      (j := t.json P (num :: path)) (R := t.Readable P (num :: path)) (label indent (some (P.name (num :: path)))) v.1
      (fun x hx n first hn => elem_only t (num :: path) x n none first hn)
    rw [Fields.text, e]
    exact memberOnly (hP _) hr (fields_only rest path v.2 indent false hi)
theorem alts_only : ∀ (a : Alts) (path : List Nat) (v : a.Val),
    ∀ (indent : Nat) (first : Bool), 0 < indent →
    MemberOnly first (a.json P path v) (a.text P path v indent first) (a.Readable P path v) ∧
      (a.json P path v).isEmpty = false
  | .cons num t _, path, .inl v, indent, first, hi => by
    obtain ⟨body, e, hr⟩ := elem_only t (num :: path) v indent (some (P.name (num :: path))) first hi
    rw [Alts.text, e]
    have := memberOnly (indent := indent) (first := first) (hP (num :: path)) hr (.nil false trivial)
    rw [List.append_nil] at this
    exact ⟨this.mono And.left, rfl⟩
  | .cons _ _ rest, path, .inr v, indent, first, hi => alts_only rest path v indent first hi
theorem oneofs_only : ∀ (os : Oneofs) (path : List Nat) (v : os.Val),
    ∀ (indent : Nat) (first : Bool), 0 < indent → (first = true → os.Leading v) →
    MemberOnly first (os.json P path v) (os.text P path v indent first) (os.Readable P path v)
  | .nil, _, _, _, first, _, _ => .nil first trivial
  | .cons a rest, path, (none, r), indent, first, hi, hl => by
    show MemberOnly first ([] ++ rest.json P path r) ([] ++ rest.text P path r indent false) _
    rw [List.nil_append, List.nil_append]
    cases first with
    | false => exact (oneofs_only rest path r indent false hi (fun h => nomatch h)).mono fun g => ⟨fun _ h => (nomatch h), g⟩
    | true =>
      have hn : rest.NoneSet r := (hl rfl).resolve_left (fun h => nomatch h)
      rw [(noneSet_json P rest path r hn).1, (noneSet_json P rest path r hn).2]
      exact .nil _ ⟨fun _ h => (nomatch h), noneSet_readable P rest path r hn⟩
  | .cons a rest, path, (some w, r), indent, first, hi, _ => by
    obtain ⟨h1, h2⟩ := alts_only a path w indent first hi
    refine (h1.append (Q' := rest.Readable P path r) ?_).mono fun g => ⟨fun w' hw => by cases hw; exact g.1, g.2⟩
    rw [h2, Bool.and_false]
    exact oneofs_only rest path r indent false hi (fun h => nomatch h)
end

/-- The text of a whole message. -/
theorem parse_only {fs : Fields} {os : Oneofs} {v : (ElemTy.msg fs os).Val}
    (h : parse ((ElemTy.msg fs os).text P [] v 0 none true) = some ((ElemTy.msg fs os).json P [] v)) :
    (ElemTy.msg fs os).Readable P [] v := by
  obtain ⟨body, e, hr⟩ := msg_only P (indent := 0) (fields_only P hP fs [] v.1 2 true (by omega))
    (fun hl => oneofs_only P hP os [] v.2 2 (decide (fs.numbers = [])) (by omega) (fun he => hl (of_decide_eq_true he)))
  rw [e, show comma true ++ (openLabel 0 none ++ body) = body from rfl, parse] at h
  cases hb : value (body.length + 1) body with
  | none => rw [hb] at h; exact nomatch h
  | some p =>
    rw [hb] at h
    dsimp only at h
    split at h
    · injection h with h
      refine (hr (body.length + 1) [] p.2 ?_).1
      rw [List.append_nil, hb, ← h]
    · exact nomatch h

end Json
end EP
