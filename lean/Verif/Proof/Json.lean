import Verif.Spec.Json

/-!
# Reading the text of a message as JSON
-/

namespace EP
open Spec

namespace Json

/-! ## White space -/

def Blank (l : List Byte) : Prop := ∀ b ∈ l, isWs b = true

theorem skipWs_blank {l : List Byte} (h : Blank l) (r : List Byte) : skipWs (l ++ r) = skipWs r := by
  induction l with
  | nil => rfl
  | cons b l ih =>
    rw [List.cons_append, skipWs, List.dropWhile_cons_of_pos (h b List.mem_cons_self)]
    exact ih fun c hc => h c (List.mem_cons_of_mem _ hc)

theorem skipWs_cons {b : Byte} (h : isWs b = false) (r : List Byte) : skipWs (b :: r) = b :: r :=
  List.dropWhile_cons_of_neg (by rw [h]; decide)

theorem blank_spaces (n : Nat) : Blank (spaces n) := fun b hb => by
  rw [List.eq_of_mem_replicate hb]; rfl

theorem Blank.append {l r : List Byte} (hl : Blank l) (hr : Blank r) : Blank (l ++ r) := fun b hb =>
  (List.mem_append.mp hb).elim (hl b) (hr b)

theorem blank_nl : Blank (ascii "\n") := by
  show ∀ b ∈ _, _
  decide

theorem value_blank {l : List Byte} (h : Blank l) (n : Nat) (r : List Byte) : value n (l ++ r) = value n r := by
  cases n with
  | zero => rfl
  | succ n => rw [value, value, skipWs_blank h]

theorem members_blank {l : List Byte} (h : Blank l) (n : Nat) (r : List Byte) : members n (l ++ r) = members n r := by
  cases n with
  | zero => rfl
  | succ n => rw [members, members, skipWs_blank h]

theorem elements_blank {l : List Byte} (h : Blank l) (n : Nat) (r : List Byte) : elements n (l ++ r) = elements n r := by
  cases n with
  | zero => rfl
  | succ n => rw [elements, elements, value_blank h]

/-! ## Strings -/

theorem string_plain {s : List Byte} (h : PlainText s) (r : List Byte) : string (s ++ 0x22 :: r) = some (s, r) := by
  induction s with
  | nil => rw [List.nil_append, string.eq_def]; exact if_pos rfl
  | cons b s ih =>
    have hb := h b List.mem_cons_self
    rw [List.cons_append, string.eq_def]
    dsimp only
    rw [if_neg hb.1, if_neg hb.2.1, if_neg (by omega), ih fun c hc => h c (List.mem_cons_of_mem _ hc)]
    rfl

/-! ## Numbers -/

theorem takeWhile_all {p : Byte → Bool} {l : List Byte} (h : ∀ b ∈ l, p b = true) {r : List Byte}
    (hr : ∀ b ∈ r.head?, p b = false) : (l ++ r).takeWhile p = l ∧ (l ++ r).dropWhile p = r := by
  rw [List.takeWhile_append_of_pos h, List.dropWhile_append_of_pos h]
  cases r with
  | nil => simp
  | cons b r =>
    have := hr b rfl
    rw [List.takeWhile_cons_of_neg (by rw [this]; decide), List.dropWhile_cons_of_neg (by rw [this]; decide)]
    simp

theorem isNumChar_of_digit {b : Byte} (h : isDigit b = true) : isNumChar b = true := by
  simp [isNumChar, h]

theorem digits_all {l r : List Byte} (h : digits l = some r) (hr : ∀ b ∈ r, isNumChar b = true) :
    ∀ b ∈ l, isNumChar b = true := by
  cases l with
  | nil => exact nomatch h
  | cons c l =>
    rw [digits] at h
    split at h
    · next hc =>
      injection h with h
      intro b hb
      rcases List.mem_cons.mp hb with rfl | hb
      · exact isNumChar_of_digit hc
      · rw [← List.takeWhile_append_dropWhile (p := isDigit) (l := l)] at hb
        rcases List.mem_append.mp hb with hb | hb
        · exact isNumChar_of_digit (List.all_eq_true.mp (List.all_takeWhile (p := isDigit) (l := l)) b hb)
        · exact hr b (h ▸ hb)
    · exact nomatch h

theorem minus_all {l : List Byte} (h : ∀ b ∈ minus l, isNumChar b = true) : ∀ b ∈ l, isNumChar b = true := by
  cases l with
  | nil => exact h
  | cons c l =>
    rw [minus] at h
    split at h
    · next hc =>
      intro b hb
      rcases List.mem_cons.mp hb with rfl | hb
      · rw [hc]; rfl
      · exact h b hb
    · exact h

theorem sign_all {l : List Byte} (h : ∀ b ∈ sign l, isNumChar b = true) : ∀ b ∈ l, isNumChar b = true := by
  cases l with
  | nil => exact h
  | cons c l =>
    rw [sign] at h
    split at h
    · next hc =>
      intro b hb
      rcases List.mem_cons.mp hb with rfl | hb
      · rcases hc with hc | hc <;> (rw [hc]; rfl)
      · exact h b hb
    · exact h

theorem expPart_all {l : List Byte} (h : expPart l = some []) : ∀ b ∈ l, isNumChar b = true := by
  cases l with
  | nil => exact fun _ h => nomatch h
  | cons c l =>
    rw [expPart] at h
    split at h
    · next hc =>
      have := sign_all (digits_all h fun _ h => nomatch h)
      intro b hb
      rcases List.mem_cons.mp hb with rfl | hb
      · rcases hc with hc | hc <;> (rw [hc]; rfl)
      · exact this b hb
    · exact nomatch h

theorem fracPart_all {l r : List Byte} (h : fracPart l = some r) (hr : ∀ b ∈ r, isNumChar b = true) :
    ∀ b ∈ l, isNumChar b = true := by
  cases l with
  | nil => exact fun _ h => nomatch h
  | cons c l =>
    rw [fracPart] at h
    split at h
    · next hc =>
      have := digits_all h hr
      intro b hb
      rcases List.mem_cons.mp hb with rfl | hb
      · rw [hc]; rfl
      · exact this b hb
    · injection h with h; rw [h]; exact hr

theorem intPart_all {l r : List Byte} (h : intPart l = some r) (hr : ∀ b ∈ r, isNumChar b = true) :
    ∀ b ∈ l, isNumChar b = true := by
  cases l with
  | nil => exact nomatch h
  | cons c l =>
    rw [intPart] at h
    split at h
    · next hc =>
      injection h with h
      intro b hb
      rcases List.mem_cons.mp hb with rfl | hb
      · rw [hc]; rfl
      · exact hr b (h ▸ hb)
    · exact digits_all h hr

theorem isNumber_all {l : List Byte} (h : isNumber l = true) : l ≠ [] ∧ ∀ b ∈ l, isNumChar b = true := by
  have h := eq_of_beq h
  cases e1 : intPart (minus l) with
  | none => rw [e1] at h; exact nomatch h
  | some r =>
    rw [e1, Option.bind_some] at h
    cases e2 : fracPart r with
    | none => rw [e2] at h; exact nomatch h
    | some r' =>
      rw [e2, Option.bind_some] at h
      refine ⟨?_, minus_all (intPart_all e1 (fracPart_all e2 (expPart_all h)))⟩
      rintro rfl
      exact nomatch e1

/-- What may follow a number. -/
def Stop (r : List Byte) : Prop := ∀ b ∈ r.head?, isNumChar b = false

theorem numChar_cases {b : Byte} (h : isNumChar b = true) : isWs b = false ∧ b ≠ 0x7B ∧ b ≠ 0x5B ∧ b ≠ 0x22 ∧
    b ≠ 0x74 ∧ b ≠ 0x66 ∧ b ≠ 0x6E := by
  revert h b
  decide +kernel

theorem value_number {l r : List Byte} (h : isNumber l = true) (hr : Stop r) (n : Nat) :
    value (n + 1) (l ++ r) = some (numberOf l, r) := by
  obtain ⟨hne, hall⟩ := isNumber_all h
  obtain ⟨h1, h2⟩ := takeWhile_all hall hr
  cases l with
  | nil => exact absurd rfl hne
  | cons b l =>
    obtain ⟨c0, c1, c2, c3, c4, c5, c6⟩ := numChar_cases (hall b List.mem_cons_self)
    rw [List.cons_append] at h1 h2 ⊢
    have nope {x : Byte} {s : List Byte} (hx : b ≠ x) : after (x :: s) (b :: (l ++ r)) = none := by
      rw [after, if_neg]
      intro hp
      exact hx ((eq_of_beq (Bool.and_eq_true_iff.mp hp).1).symm)
    rw [value, skipWs_cons c0]
    dsimp only
    rw [if_neg c1, if_neg c2, if_neg c3,
      show ascii "true" = [0x74, 0x72, 0x75, 0x65] from rfl, show ascii "false" = [0x66, 0x61, 0x6C, 0x73, 0x65] from rfl,
      show ascii "null" = [0x6E, 0x75, 0x6C, 0x6C] from rfl, nope c4, nope c5, nope c6]
    dsimp only
    rw [h1, h2, if_pos h]

/-! ## Decimal numbers -/

def digitByte (c : Char) : Byte := BitVec.ofNat 8 c.toNat

theorem decimal_eq (n : Nat) : decimal n = (Nat.toDigits 10 n).map digitByte := by
  rw [decimal, ascii, Nat.toList_repr]
  rfl

theorem digitByte_digitChar {d : Nat} (h : d < 10) : (digitByte (Nat.digitChar d)).toNat = 0x30 + d := by
  revert d
  decide

theorem isDigit_digitChar {d : Nat} (h : d < 10) : isDigit (digitByte (Nat.digitChar d)) = true := by
  simp [isDigit, digitByte_digitChar h]
  omega

theorem natOf_append (l : List Byte) (b : Byte) : natOf (l ++ [b]) = 10 * natOf l + (b.toNat - 0x30) := by
  simp [natOf]

/-- Digits, the first of which is not 0 except for 0 itself, that stand for the number. -/
theorem decimal_spec (n : Nat) : (∀ b ∈ decimal n, isDigit b = true) ∧ natOf (decimal n) = n ∧
    ∃ b l, decimal n = b :: l ∧ (b = 0x30 → l = []) ∧ (n = 0 ∨ b ≠ 0x30) := by
  induction n using Nat.strongRecOn with
  | ind n ih =>
    rw [decimal_eq, Nat.toDigits_eq_if (by decide)]
    by_cases hn : n < 10
    · rw [if_pos hn]
      have hd := digitByte_digitChar hn
      refine ⟨?_, ?_, _, [], rfl, fun _ => rfl, ?_⟩
      · intro b hb
        rw [List.map_cons, List.map_nil, List.mem_singleton] at hb
        exact hb ▸ isDigit_digitChar hn
      · show 10 * 0 + ((digitByte (Nat.digitChar n)).toNat - 0x30) = n
        omega
      · by_cases h0 : n = 0
        · exact .inl h0
        · refine .inr fun e => ?_
          rw [e] at hd
          have : BitVec.toNat (48 : Byte) = 48 := rfl
          omega
    · rw [if_neg hn, List.map_append, ← decimal_eq]
      obtain ⟨h1, h2, b, l, h3, h4, h5⟩ := ih (n / 10) (by omega)
      have hm : n % 10 < 10 := Nat.mod_lt _ (by decide)
      have hb : b ≠ 0x30 := h5.resolve_left (by omega)
      refine ⟨?_, ?_, b, l ++ [digitByte (Nat.digitChar (n % 10))], by rw [h3]; rfl, fun e => absurd e hb, .inr hb⟩
      · intro c hc
        rcases List.mem_append.mp hc with hc | hc
        · exact h1 c hc
        · rw [List.map_cons, List.map_nil, List.mem_singleton] at hc
          exact hc ▸ isDigit_digitChar hm
      · rw [List.map_cons, List.map_nil, natOf_append, h2, digitByte_digitChar hm]
        omega

theorem digit_ne {b : Byte} (h : isDigit b = true) : b ≠ 0x2D := by
  rintro rfl
  exact nomatch h

theorem minus_decimal (n : Nat) : minus (decimal n) = decimal n := by
  obtain ⟨h1, _, b, l, h3, _⟩ := decimal_spec n
  rw [h3] at h1 ⊢
  rw [minus, if_neg (digit_ne (h1 b List.mem_cons_self))]

theorem intPart_decimal (n : Nat) : intPart (decimal n) = some [] := by
  obtain ⟨h1, _, b, l, h3, h4, _⟩ := decimal_spec n
  rw [h3] at h1 ⊢
  rw [intPart]
  split
  · next hb => rw [h4 hb]
  · rw [digits, if_pos (h1 b List.mem_cons_self)]
    congr 1
    have := (takeWhile_all (p := isDigit) (r := []) (fun c hc => h1 c (List.mem_cons_of_mem b hc)) fun _ h => nomatch h).2
    rw [List.append_nil] at this
    exact this

theorem decimalInt_number (i : Int) : isNumber (decimalInt i) = true ∧ numberOf (decimalInt i) = .int i := by
  have hall : ∀ n, (decimal n).all isDigit = true := fun n => List.all_eq_true.mpr (decimal_spec n).1
  unfold decimalInt
  by_cases hi : i < 0
  · rw [if_pos hi]
    have hm : minus (ascii "-" ++ decimal i.natAbs) = decimal i.natAbs := rfl
    constructor
    · rw [isNumber, hm, intPart_decimal]; rfl
    · rw [numberOf, hm, if_pos (hall _), if_pos (show (ascii "-" ++ decimal i.natAbs).head? = some 0x2D from rfl),
        (decimal_spec _).2.1]
      congr 1
      omega
  · rw [if_neg hi]
    constructor
    · rw [isNumber, minus_decimal, intPart_decimal]; rfl
    · rw [numberOf, minus_decimal, if_pos (hall _), if_neg, (decimal_spec _).2.1]
      · congr 1
        omega
      · obtain ⟨h1, _, b, l, h3, _⟩ := decimal_spec i.natAbs
        rw [h3] at h1 ⊢
        intro e
        injection e with e
        exact digit_ne (h1 b List.mem_cons_self) e

theorem decimal_number (n : Nat) : isNumber (decimal n) = true ∧ numberOf (decimal n) = .int n := by
  have h := decimalInt_number (n : Int)
  have e : decimalInt (n : Int) = decimal n := by rw [decimalInt, if_neg (by omega)]; rfl
  rw [e] at h
  exact h

/-! ## Values, members and elements -/

/-- The text is that of a value, whatever follows. -/
def Reads (text : List Byte) (v : JVal) : Prop :=
  ∀ n r, text.length ≤ n → Stop r → value n (text ++ r) = some (v, r)

theorem Reads.number {l : List Byte} (h : isNumber l = true) : Reads l (numberOf l) := by
  intro n r hn hr
  have : l.length ≠ 0 := fun e => (isNumber_all h).1 (List.eq_nil_of_length_eq_zero e)
  obtain ⟨n, rfl⟩ : ∃ k, n = k + 1 := ⟨n - 1, by omega⟩
  exact value_number h hr n

theorem Reads.string {s : List Byte} (h : PlainText s) : Reads (quoted s) (.str s) := by
  intro n r hn _
  obtain ⟨n, rfl⟩ : ∃ k, n = k + 1 := ⟨n - 1, by simp [quoted, ascii] at hn; omega⟩
  have e : quoted s ++ r = 0x22 :: (s ++ 0x22 :: r) := by
    rw [quoted, List.append_assoc, List.append_assoc]; rfl
  rw [e, value, skipWs_cons rfl]
  dsimp only
  rw [if_neg (by decide), if_neg (by decide), if_pos rfl, string_plain h]
  rfl

theorem Reads.bool (b : Bool) : Reads (if b then ascii "true" else ascii "false") (.bool b) := by
  intro n r hn _
  cases b with
  | true =>
    obtain ⟨n, rfl⟩ : ∃ k, n = k + 1 := ⟨n - 1, by simp [ascii] at hn; omega⟩
    rfl
  | false =>
    obtain ⟨n, rfl⟩ : ∃ k, n = k + 1 := ⟨n - 1, by simp [ascii] at hn; omega⟩
    rfl

/-- Members one after the other; `true` if none comes before. -/
inductive MemberText : Bool → List (List Byte × JVal) → List Byte → Prop where
  | nil (first : Bool) : MemberText first [] []
  | cons {first : Bool} {ws name body rest : List Byte} {v : JVal} {ms : List (List Byte × JVal)} : Blank ws →
      PlainText name → Reads body v → MemberText false ms rest →
      MemberText first ((name, v) :: ms) (comma first ++ (ws ++ (quoted name ++ (ascii ": " ++ body))) ++ rest)

/-- Elements one after the other. -/
inductive ElemText : Bool → List JVal → List Byte → Prop where
  | nil (first : Bool) : ElemText first [] []
  | cons {first : Bool} {ws body rest : List Byte} {v : JVal} {vs : List JVal} : Blank ws → Reads body v →
      ElemText false vs rest → ElemText first (v :: vs) (comma first ++ (ws ++ body) ++ rest)

theorem MemberText.append {first : Bool} {ms ms' : List (List Byte × JVal)} {t t' : List Byte}
    (h : MemberText first ms t) (h' : MemberText (first && ms.isEmpty) ms' t') :
    MemberText first (ms ++ ms') (t ++ t') := by
  induction h with
  | nil first =>
    rw [List.isEmpty_nil, Bool.and_true] at h'
    exact h'
  | cons h1 h2 h3 _ ih =>
    rw [List.append_assoc]
    refine .cons h1 h2 h3 (ih ?_)
    rw [List.isEmpty_cons, Bool.and_false] at h'
    exact h'

theorem stop_tail {tail : List Byte} (h : Blank tail) {c : Byte} (hc : isNumChar c = false) (r : List Byte) :
    Stop (tail ++ c :: r) := by
  cases tail with
  | nil => exact fun b hb => by injection hb with hb; exact hb ▸ hc
  | cons d l =>
    intro b hb
    injection hb with hb
    subst hb
    have := h d List.mem_cons_self
    revert this
    generalize d = d
    revert d
    decide +kernel

theorem MemberText.read {ms : List (List Byte × JVal)} {rest : List Byte} {first : Bool} (h : MemberText first ms rest)
    (h0 : first = false) : ∀ {ws name body : List Byte} {v : JVal} {n : Nat} {tail : List Byte} (r : List Byte), Blank ws →
    PlainText name → Reads body v → (ws ++ (quoted name ++ (ascii ": " ++ body)) ++ rest).length ≤ n → Blank tail →
    members n (ws ++ (quoted name ++ (ascii ": " ++ body)) ++ rest ++ (tail ++ 0x7D :: r)) =
      some ((name, v) :: ms, r) := by
  have step : ∀ {ws name body rest : List Byte} {v : JVal} {n : Nat}, Blank ws → PlainText name → Reads body v → Stop rest →
      body.length ≤ n →
      members (n + 1) (ws ++ (quoted name ++ (ascii ": " ++ body)) ++ rest) =
        (match skipWs rest with
        | [] => none
        | c :: r =>
          if c = 0x2C then (members n r).map fun p => ((name, v) :: p.1, p.2)
          else if c = 0x7D then some ([(name, v)], r) else none) := by
    intro ws name body rest v n h1 h2 h3 h4 h5
    rw [List.append_assoc, members_blank h1]
    have e : quoted name ++ (ascii ": " ++ body) ++ rest = 0x22 :: (name ++ 0x22 :: (0x3A :: 0x20 :: (body ++ rest))) := by
      rw [quoted]; simp only [List.append_assoc]; rfl
    rw [e, members, skipWs_cons rfl]
    dsimp only
    rw [if_pos rfl, string_plain h2]
    have ha : after (ascii ":") (0x3A :: 0x20 :: (body ++ rest)) = some ([0x20] ++ (body ++ rest)) := rfl
    simp only [Option.bind_eq_bind, Option.bind_some]
    rw [skipWs_cons rfl, ha]
    simp only [Option.bind_some]
    rw [value_blank (by show ∀ b ∈ _, _; decide), h3 n rest h5 h4]
    rfl
  induction h with
  | nil first =>
    intro ws name body v n tail r h1 h2 h3 hn ht
    rw [List.append_nil] at hn ⊢
    obtain ⟨n, rfl⟩ : ∃ k, n = k + 1 := ⟨n - 1, by simp [quoted, ascii] at hn; omega⟩
    rw [step h1 h2 h3 (stop_tail ht rfl r) (by simp [quoted, ascii] at hn; omega), skipWs_blank ht, skipWs_cons rfl]
    rfl
  | @cons first ws' name' body' rest' v' ms' g1 g2 g3 g4 ih =>
    intro ws name body v n tail r h1 h2 h3 hn ht
    subst h0
    have hc : comma false = ascii ",\n" := rfl
    rw [hc] at hn ⊢
    have h2c : (ascii ",\n").length = 2 := rfl
    have h2d : (ascii ": ").length = 2 := rfl
    have hq : ∀ s, (quoted s).length = s.length + 2 := fun s => by
      rw [quoted, List.length_append, List.length_append]
      show 1 + s.length + 1 = _
      omega
    simp only [List.length_append, h2c, h2d, hq] at hn
    obtain ⟨n, rfl⟩ : ∃ k, n = k + 1 := ⟨n - 1, by omega⟩
    rw [List.append_assoc]
    rw [step h1 h2 h3 (fun b hb => by
      rw [show b = 0x2C from by injection hb with hb; exact hb.symm]; rfl) (by omega)]
    have e : ascii ",\n" ++ (ws' ++ (quoted name' ++ (ascii ": " ++ body'))) ++ rest' ++ (tail ++ 0x7D :: r) =
        0x2C :: ([0x0A] ++ (ws' ++ (quoted name' ++ (ascii ": " ++ body')) ++ rest' ++ (tail ++ 0x7D :: r))) := by
      simp only [List.append_assoc]; rfl
    rw [e, skipWs_cons rfl]
    dsimp only
    rw [if_pos rfl, members_blank (by show ∀ b ∈ _, _; decide),
      ih rfl r g1 g2 g3 (by simp only [List.length_append, h2d, hq]; omega) ht]
    rfl

theorem ElemText.read {vs : List JVal} {rest : List Byte} {first : Bool} (h : ElemText first vs rest) (h0 : first = false) :
    ∀ {ws body : List Byte} {v : JVal} {n : Nat} {tail : List Byte} (r : List Byte), Blank ws → Reads body v →
    (ws ++ body ++ rest).length < n → Blank tail →
    elements n (ws ++ body ++ rest ++ (tail ++ 0x5D :: r)) = some (v :: vs, r) := by
  have step : ∀ {ws body rest : List Byte} {v : JVal} {n : Nat}, Blank ws → Reads body v → Stop rest → body.length ≤ n →
      elements (n + 1) (ws ++ body ++ rest) =
        (match skipWs rest with
        | [] => none
        | c :: r =>
          if c = 0x2C then (elements n r).map fun p => (v :: p.1, p.2)
          else if c = 0x5D then some ([v], r) else none) := by
    intro ws body rest v n h1 h3 h4 h5
    rw [List.append_assoc, elements_blank h1, elements, h3 n rest h5 h4]
    rfl
  induction h with
  | nil first =>
    intro ws body v n tail r h1 h3 hn ht
    rw [List.append_nil] at hn ⊢
    obtain ⟨n, rfl⟩ : ∃ k, n = k + 1 := ⟨n - 1, by omega⟩
    rw [step h1 h3 (stop_tail ht rfl r) (by simp at hn; omega), skipWs_blank ht, skipWs_cons rfl]
    rfl
  | @cons first ws' body' rest' v' vs' g1 g3 g4 ih =>
    intro ws body v n tail r h1 h3 hn ht
    subst h0
    have hc : comma false = ascii ",\n" := rfl
    rw [hc] at hn ⊢
    have h2c : (ascii ",\n").length = 2 := rfl
    simp only [List.length_append, h2c] at hn
    obtain ⟨n, rfl⟩ : ∃ k, n = k + 1 := ⟨n - 1, by omega⟩
    rw [List.append_assoc]
    rw [step h1 h3 (fun b hb => by
      rw [show b = 0x2C from by injection hb with hb; exact hb.symm]; rfl) (by omega)]
    have e : ascii ",\n" ++ (ws' ++ body') ++ rest' ++ (tail ++ 0x5D :: r) =
        0x2C :: ([0x0A] ++ (ws' ++ body' ++ rest' ++ (tail ++ 0x5D :: r))) := by
      simp only [List.append_assoc]; rfl
    rw [e, skipWs_cons rfl]
    dsimp only
    rw [if_pos rfl, elements_blank (by show ∀ b ∈ _, _; decide),
      ih rfl r g1 g3 (by simp only [List.length_append]; omega) ht]
    rfl

/-- No value begins with a closing bracket or brace. -/
theorem Reads.first {text : List Byte} {v : JVal} (h : Reads text v) {ws : List Byte} (hb : Blank ws) (r : List Byte)
    (hr : Stop r) : ∃ c l, skipWs (ws ++ (text ++ r)) = c :: l ∧ c ≠ 0x5D := by
  have h := h (text.length + 1) r (by omega) hr
  rw [← value_blank hb, value] at h
  cases e : skipWs (ws ++ (text ++ r)) with
  | nil => rw [e] at h; exact nomatch h
  | cons c l =>
    refine ⟨c, l, rfl, ?_⟩
    rintro rfl
    rw [e] at h
    dsimp only at h
    rw [if_neg (by decide), if_neg (by decide), if_neg (by decide)] at h
    rw [show after (ascii "true") (0x5D :: l) = none from rfl, show after (ascii "false") (0x5D :: l) = none from rfl,
      show after (ascii "null") (0x5D :: l) = none from rfl] at h
    dsimp only at h
    rw [List.takeWhile_cons_of_neg (by decide), if_neg (by decide)] at h
    exact nomatch h

theorem Reads.object {text ws tail : List Byte} {ms : List (List Byte × JVal)} (h : MemberText true ms text)
    (hw : Blank ws) (ht : Blank tail) : Reads (ascii "{" ++ ws ++ text ++ tail ++ ascii "}") (.obj ms) := by
  intro n r hn _
  have e : ascii "{" ++ ws ++ text ++ tail ++ ascii "}" ++ r = 0x7B :: (ws ++ (text ++ (tail ++ 0x7D :: r))) := by
    simp only [List.append_assoc]; rfl
  have h1 : (ascii "{").length = 1 := rfl
  have h2 : (ascii "}").length = 1 := rfl
  simp only [List.length_append, h1, h2] at hn
  obtain ⟨n, rfl⟩ : ∃ k, n = k + 1 := ⟨n - 1, by omega⟩
  rw [e, value, skipWs_cons rfl]
  dsimp only
  rw [if_pos rfl, skipWs_blank hw]
  cases h with
  | nil =>
    rw [List.nil_append, skipWs_blank ht, skipWs_cons rfl]
    rfl
  | @cons _ ws' name body rest v ms g1 g2 g3 g4 =>
    have hm := g4.read rfl r g1 g2 g3 (n := n) (tail := tail) (by simp only [List.length_append] at hn ⊢; omega) ht
    rw [List.append_assoc, List.append_assoc, members_blank g1] at hm
    rw [show comma true = [] from rfl, List.nil_append, List.append_assoc, List.append_assoc, skipWs_blank g1]
    have hq : ∀ l, quoted name ++ (ascii ": " ++ body) ++ l = 0x22 :: (name ++ (0x22 :: (ascii ": " ++ body) ++ l)) := by
      intro l
      rw [quoted]; simp only [List.append_assoc]; rfl
    rw [hq] at hm ⊢
    rw [skipWs_cons rfl]
    dsimp only
    rw [if_neg (by decide), hm]
    rfl

theorem Reads.array {text ws tail : List Byte} {vs : List JVal} (h : ElemText true vs text)
    (hw : Blank ws) (ht : Blank tail) : Reads (ascii "[" ++ ws ++ text ++ tail ++ ascii "]") (.arr vs) := by
  intro n r hn _
  have e : ascii "[" ++ ws ++ text ++ tail ++ ascii "]" ++ r = 0x5B :: (ws ++ (text ++ (tail ++ 0x5D :: r))) := by
    simp only [List.append_assoc]; rfl
  have h1 : (ascii "[").length = 1 := rfl
  have h2 : (ascii "]").length = 1 := rfl
  simp only [List.length_append, h1, h2] at hn
  obtain ⟨n, rfl⟩ : ∃ k, n = k + 1 := ⟨n - 1, by omega⟩
  rw [e, value, skipWs_cons rfl]
  dsimp only
  rw [if_neg (by decide), if_pos rfl, skipWs_blank hw]
  cases h with
  | nil =>
    rw [List.nil_append, skipWs_blank ht, skipWs_cons rfl]
    rfl
  | @cons _ ws' body rest v vs g1 g3 g4 =>
    have hm := g4.read rfl r g1 g3 (n := n) (tail := tail) (by simp only [List.length_append] at hn ⊢; omega) ht
    rw [show comma true = [] from rfl, List.nil_append]
    rw [List.append_assoc, List.append_assoc] at hm ⊢
    have hst : Stop (rest ++ (tail ++ 0x5D :: r)) := by
      cases g4 with
      | nil => exact stop_tail ht rfl r
      | cons => exact fun b hb => by rw [show b = 0x2C from by injection hb with hb; exact hb.symm]; rfl
    obtain ⟨c, l, ec, hc⟩ := g3.first g1 _ hst
    have hs : ∀ l, elements n (skipWs l) = elements n l := by
      intro l
      have hb : Blank (l.takeWhile isWs) := fun b hb => List.all_eq_true.mp (List.all_takeWhile (p := isWs) (l := l)) b hb
      have := elements_blank hb n (skipWs l)
      rw [skipWs, List.takeWhile_append_dropWhile] at this
      exact this.symm
    rw [← hs, ec] at hm
    rw [ec]
    dsimp only
    rw [if_neg hc, hm]
    rfl

theorem elemText {V : Type} {f : V → Bool → List Byte} {j : V → JVal} {ws : List Byte} (hw : Blank ws) :
    ∀ (vs : List V), (∀ v ∈ vs, ∀ first, ∃ body, f v first = comma first ++ (ws ++ body) ∧ Reads body (j v)) →
    ∀ first, ElemText first (vs.map j) (textElems f vs first)
  | [], _, first => .nil first
  | v :: vs, h, first => by
    obtain ⟨body, e, hb⟩ := h v (List.mem_cons_self ..) first
    rw [textElems, e]
    exact .cons hw hb (elemText hw vs (fun v hv => h v (List.mem_cons_of_mem _ hv)) false)

/-- A list in brackets. -/
theorem textList_reads {V : Type} {f : Nat → V → Bool → List Byte} {j : V → JVal} (lab : List Byte) (vs : List V)
    (h : ∀ v ∈ vs, ∀ n first, 0 < n → ∃ body, f n v first = comma first ++ (spaces n ++ body) ∧ Reads body (j v)) :
    ∃ body, textList f (lab ++ ascii "[\n") vs = lab ++ body ∧ Reads body (.arr (vs.map j)) := by
  have hl : 0 < (lab ++ ascii "[\n").length := by
    rw [List.length_append]
    exact Nat.lt_of_lt_of_le (by decide : 0 < (ascii "[\n").length) (Nat.le_add_left _ _)
  refine ⟨_, ?_, Reads.array (elemText (f := f (lab ++ ascii "[\n").length) (blank_spaces (lab ++ ascii "[\n").length) vs
    (fun v hv first => h v hv _ first hl) true) blank_nl
    (blank_nl.append (blank_spaces ((lab ++ ascii "[\n").length - 2)))⟩
  rw [textList]
  have e : ascii "[\n" = ascii "[" ++ ascii "\n" := rfl
  simp only [List.append_assoc, e]

theorem scalar_reads (P : Printer) (s : ScalarTy) (v : s.Val) (h : s.Readable P v) : Reads (s.text P v) (s.json P v) := by
  have int : ∀ i : Int, Reads (decimalInt i) (.int i) := fun i => (decimalInt_number i).2 ▸ Reads.number (decimalInt_number i).1
  have nat : ∀ n : Nat, Reads (decimal n) (.int n) := fun n => (decimal_number n).2 ▸ Reads.number (decimal_number n).1
  cases s with
  | boolean => exact Reads.bool v
  | floatfixed => exact Reads.number h
  | doublefixed => exact Reads.number h
  | uint32 => exact nat _
  | uint64 => exact nat _
  | fixed32 => exact nat _
  | fixed64 => exact nat _
  | _ => exact int _

theorem member {indent : Nat} {name body : List Byte} {first : Bool} {v : JVal} {ms : List (List Byte × JVal)}
    {rest : List Byte} (hp : PlainText name) (hb : Reads body v) (hr : MemberText false ms rest) :
    MemberText first ((name, v) :: ms) (comma first ++ (label indent (some name) ++ body) ++ rest) := by
  have e : label indent (some name) ++ body = spaces indent ++ (quoted name ++ (ascii ": " ++ body)) := by
    simp only [label, List.append_assoc]
  rw [e]
  exact .cons (blank_spaces _) hp hb hr

theorem noneSet_json (P : Printer) : ∀ (os : Oneofs) (path : List Nat) (v : os.Val), os.NoneSet v →
    os.json P path v = [] ∧ ∀ indent first, os.text P path v indent first = []
  | .nil, _, _, _ => ⟨rfl, fun _ _ => rfl⟩
  | .cons a rest, path, v, h => by
    obtain ⟨h1, h2⟩ := h
    obtain ⟨i1, i2⟩ := noneSet_json P rest path v.2 h2
    obtain ⟨w, r⟩ := v
    cases w with
    | some w => exact nomatch h1
    | none => exact ⟨i1, fun _ _ => i2 _ _⟩

theorem fields_json_isEmpty (P : Printer) (path : List Nat) : ∀ (fs : Fields) (v : fs.Val),
    (fs.json P path v).isEmpty = decide (fs.numbers = [])
  | .nil, _ => rfl
  | .plain _ _ _, _ => by simp [Fields.json, Fields.numbers]
  | .optional _ _ _, _ => by simp [Fields.json, Fields.numbers]
  | .repeated _ _ _ _, _ => by simp [Fields.json, Fields.numbers]

variable (P : Printer) (hP : ∀ path, PlainText (P.name path))

/-- The braces of a message and what is between them. -/
theorem msg_reads {fs : Fields} {os : Oneofs} {path : List Nat} {v : (ElemTy.msg fs os).Val} {indent : Nat}
    (hf : MemberText true (fs.json P path v.1) (fs.text P path v.1 (indent + 2) true))
    (ho : MemberText (decide (fs.numbers = [])) (os.json P path v.2)
      (os.text P path v.2 (indent + 2) (decide (fs.numbers = [])))) :
    ∃ body, (∀ name first, (ElemTy.msg fs os).text P path v indent name first =
      comma first ++ (openLabel indent name ++ body)) ∧ Reads body ((ElemTy.msg fs os).json P path v) := by
  refine ⟨_, fun name first => ?_, Reads.object (hf.append (ms' := os.json P path v.2) (t' := _) (by
    rw [fields_json_isEmpty, Bool.true_and]; exact ho)) blank_nl
    (tail := ascii "\n" ++ (if indent = 0 then [] else spaces indent)) (blank_nl.append (by
      split
      · exact fun b hb => nomatch hb
      · exact blank_spaces _))⟩
  have e : ascii "{\n" = ascii "{" ++ ascii "\n" := rfl
  simp only [ElemTy.text, List.append_assoc, e]

include hP
set_option linter.unusedSectionVars false
mutual
theorem elem_reads : ∀ (t : ElemTy) (path : List Nat) (v : t.Val), t.Readable P path v →
    ∀ (indent : Nat) (name : Option (List Byte)) (first : Bool), 0 < indent →
    ∃ body, t.text P path v indent name first = comma first ++ (label indent name ++ body) ∧
      Reads body (t.json P path v)
  | .scalar s, path, v, h, indent, name, first, _ =>
    ⟨_, List.append_assoc .., scalar_reads P s v h⟩
  | .str cap, path, v, h, indent, name, first, _ => by
    show ∃ body, (if P.isBytes path then _ else _) = _ ∧ Reads body (if P.isBytes path then _ else _)
    by_cases hb : P.isBytes path = true
    · rw [if_pos hb, if_pos hb]
      obtain ⟨body, e, hr⟩ := textList_reads (f := fun n (b : Byte) fst => textScalar P .uint32 (b.setWidth 32) n none fst)
        (j := fun b : Byte => .int b.toNat) (label indent name) v (fun b _ n first _ =>
          ⟨_, List.append_assoc .., by
            have := scalar_reads P .uint32 (b.setWidth 32) trivial
            rw [show ScalarTy.json P .uint32 (b.setWidth 32) = .int b.toNat from by
              show JVal.int ((b.setWidth 32).toNat : Int) = _
              rw [BitVec.toNat_setWidth, Nat.mod_eq_of_lt (by have := b.isLt; omega)]] at this
            exact this⟩)
      exact ⟨body, by rw [e], hr⟩
    · rw [if_neg hb, if_neg hb]
      exact ⟨_, by rw [List.append_assoc], Reads.string (h.resolve_left hb)⟩
  | .msg fs os, path, v, h, indent, name, first, hi => by
    obtain ⟨h1, h2, h3⟩ := h
    obtain ⟨body, e, hr⟩ := msg_reads P (indent := indent) (fields_reads fs path v.1 h1 (indent + 2) true (by omega))
      (oneofs_reads os path v.2 h2 (indent + 2) (decide (fs.numbers = [])) (by omega)
        (fun he => h3 (of_decide_eq_true he)))
    refine ⟨body, ?_, hr⟩
    rw [e, openLabel.eq_def, if_neg (by omega)]
theorem fields_reads : ∀ (fs : Fields) (path : List Nat) (v : fs.Val), fs.Readable P path v →
    ∀ (indent : Nat) (first : Bool), 0 < indent →
    MemberText first (fs.json P path v) (fs.text P path v indent first)
  | .nil, _, _, _, _, first, _ => .nil first
  | .plain num t rest, path, v, h, indent, first, hi => by
    obtain ⟨body, e, hr⟩ := elem_reads t (num :: path) v.1 h.1 indent (some (P.name (num :: path))) first hi
    rw [Fields.text, e]
    exact member (hP _) hr (fields_reads rest path v.2 h.2 indent false hi)
  | .optional num t rest, path, v, h, indent, first, hi => by
    obtain ⟨body, e, hr⟩ := elem_reads t (num :: path) _ h.1 indent (some (P.name (num :: path))) first hi
    rw [Fields.text, e]
    exact member (hP _) hr (fields_reads rest path v.2 h.2 indent false hi)
  | .repeated num cap t rest, path, v, h, indent, first, hi => by
    obtain ⟨body, e, hr⟩ := textList_reads (f := fun n v fst => t.text P (num :: path) v n none fst)
      (j := t.json P (num :: path)) (label indent (some (P.name (num :: path)))) v.1 (fun x hx n first hn =>
        elem_reads t (num :: path) x (h.1 x hx) n none first hn)
    rw [Fields.text, e]
    exact member (hP _) hr (fields_reads rest path v.2 h.2 indent false hi)
theorem alts_reads : ∀ (a : Alts) (path : List Nat) (v : a.Val), a.Readable P path v →
    ∀ (indent : Nat) (first : Bool), 0 < indent →
    MemberText first (a.json P path v) (a.text P path v indent first) ∧ (a.json P path v).isEmpty = false
  | .cons num t _, path, .inl v, h, indent, first, hi => by
    obtain ⟨body, e, hr⟩ := elem_reads t (num :: path) v h indent (some (P.name (num :: path))) first hi
    rw [Alts.text, e]
    have := member (indent := indent) (first := first) (hP (num :: path)) hr (.nil false)
    rw [List.append_nil] at this
    exact ⟨this, rfl⟩
  | .cons _ _ rest, path, .inr v, h, indent, first, hi => alts_reads rest path v h indent first hi
theorem oneofs_reads : ∀ (os : Oneofs) (path : List Nat) (v : os.Val), os.Readable P path v →
    ∀ (indent : Nat) (first : Bool), 0 < indent → (first = true → os.Leading v) →
    MemberText first (os.json P path v) (os.text P path v indent first)
  | .nil, _, _, _, _, first, _, _ => .nil first
  | .cons a rest, path, (none, r), h, indent, first, hi, hl => by
    show MemberText first ([] ++ rest.json P path r) ([] ++ rest.text P path r indent false)
    rw [List.nil_append, List.nil_append]
    cases first with
    | false => exact oneofs_reads rest path r h.2 indent false hi (fun h => nomatch h)
    | true =>
      have hn : rest.NoneSet r := (hl rfl).resolve_left (fun h => nomatch h)
      rw [(noneSet_json P rest path r hn).1, (noneSet_json P rest path r hn).2]
      exact .nil _
  | .cons a rest, path, (some w, r), h, indent, first, hi, _ => by
    obtain ⟨h1, h2⟩ := alts_reads a path w (h.1 w rfl) indent first hi
    exact h1.append (by
      rw [h2, Bool.and_false]
      exact oneofs_reads rest path r h.2 indent false hi (fun h => nomatch h))
end

/-- The text of a whole message. -/
theorem parse_message {fs : Fields} {os : Oneofs} {v : (ElemTy.msg fs os).Val} (h : (ElemTy.msg fs os).Readable P [] v) :
    parse ((ElemTy.msg fs os).text P [] v 0 none true) = some ((ElemTy.msg fs os).json P [] v) := by
  obtain ⟨h1, h2, h3⟩ := h
  obtain ⟨body, e, hr⟩ := msg_reads P (indent := 0) (fields_reads P hP fs [] v.1 h1 2 true (by omega))
    (oneofs_reads P hP os [] v.2 h2 2 (decide (fs.numbers = [])) (by omega) (fun he => h3 (of_decide_eq_true he)))
  have hb := hr (body.length + 1) [] (by omega) (fun b hb => nomatch hb)
  rw [e, show comma true ++ (openLabel 0 none ++ body) = body from rfl, parse]
  rw [List.append_nil] at hb
  rw [hb]
  rfl

end Json

section
variable (P : Printer)

theorem Oneofs.leading_of_single : ∀ (os : Oneofs) (v : os.Val), os.Single → os.Leading v
  | .nil, _, _ => trivial
  | .cons _ .nil, _, _ => Or.inr trivial

mutual
theorem ElemTy.always_readable : ∀ (t : ElemTy) (path : List Nat), t.AlwaysReadable P path → ∀ v : t.Val,
    t.Readable P path v
  | .scalar s, _, h, v => by
    cases s with
    | floatfixed => exact absurd rfl h.1
    | doublefixed => exact absurd rfl h.2
    | _ => trivial
  | .str _, _, h, _ => Or.inl h
  | .msg fs os, path, h, v => ⟨Fields.always_readable fs path h.1 v.1, Oneofs.always_readable os path h.2.1 v.2,
      fun e => os.leading_of_single v.2 (h.2.2 e)⟩
theorem Fields.always_readable : ∀ (fs : Fields) (path : List Nat), fs.AlwaysReadable P path → ∀ v : fs.Val,
    fs.Readable P path v
  | .nil, _, _, _ => trivial
  | .plain _ t rest, path, h, v => ⟨ElemTy.always_readable t _ h.1 v.1, Fields.always_readable rest path h.2 v.2⟩
  | .optional _ t rest, path, h, v => ⟨ElemTy.always_readable t _ h.1 _, Fields.always_readable rest path h.2 v.2⟩
  | .repeated _ _ t rest, path, h, v =>
    ⟨fun x _ => ElemTy.always_readable t _ h.1 x, Fields.always_readable rest path h.2 v.2⟩
theorem Alts.always_readable : ∀ (a : Alts) (path : List Nat), a.AlwaysReadable P path → ∀ v : a.Val,
    a.Readable P path v
  | .cons _ t _, _, h, .inl v => ElemTy.always_readable t _ h.1 v
  | .cons _ _ rest, path, h, .inr v => Alts.always_readable rest path h.2 v
theorem Oneofs.always_readable : ∀ (os : Oneofs) (path : List Nat), os.AlwaysReadable P path → ∀ v : os.Val,
    os.Readable P path v
  | .nil, _, _, _ => trivial
  | .cons a rest, path, h, v => ⟨fun w _ => Alts.always_readable a path h.1 w, Oneofs.always_readable rest path h.2 v.2⟩
end

theorem ElemTy.text_comma : ∀ (t : ElemTy) {path : List Nat} {v : t.Val} {indent : Nat} {name : Option (List Byte)},
    ∃ l, t.text P path v indent name false = ascii ",\n" ++ l
  | .scalar s, _, _, _, _ => ⟨_, List.append_assoc ..⟩
  | .str _, path, v, indent, name => by
    show ∃ l, (if P.isBytes path then _ else _) = _
    split
    · exact ⟨_, rfl⟩
    · exact ⟨_, List.append_assoc ..⟩
  | .msg _ _, _, _, _, _ => by
    simp only [ElemTy.text, List.append_assoc]
    exact ⟨_, rfl⟩

theorem Alts.text_comma : ∀ (a : Alts) {path : List Nat} {indent : Nat} (w : a.Val),
    ∃ l, a.text P path w indent false = ascii ",\n" ++ l
  | .cons _ t _, _, _, .inl _ => t.text_comma P
  | .cons _ _ rest, _, _, .inr v => rest.text_comma v

/-- The text of oneofs that are not first begins with a comma. -/
theorem Oneofs.text_comma : ∀ (os : Oneofs) (path : List Nat) (v : os.Val) (indent : Nat), ¬ os.NoneSet v →
    ∃ l, os.text P path v indent false = ascii ",\n" ++ l
  | .nil, _, _, _, h => absurd trivial h
  | .cons a rest, path, (none, r), indent, h => by
    obtain ⟨l, e⟩ := Oneofs.text_comma rest path r indent (fun hn => h ⟨rfl, hn⟩)
    exact ⟨l, e⟩
  | .cons a rest, path, (some w, r), indent, h => by
    obtain ⟨l, e⟩ := a.text_comma P (path := path) (indent := indent) w
    refine ⟨l ++ rest.text P path r indent false, ?_⟩
    show a.text P path w indent false ++ _ = _
    rw [e, List.append_assoc]

end
end EP
