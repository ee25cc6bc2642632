import Verif.Spec.CppTypes
import Verif.Model.GenInstance
import Verif.Proof.HeaderRequest

/-!
# Reading the types in a header
-/

namespace EP.Gen.Cpp

open Jinja

theorem scopeToks_cons (x y : Str) (p : List Str) :
    scopeToks (x :: y :: p) = .id x :: .sym ':' :: .sym ':' :: scopeToks (y :: p) := by
  have e : cpp! "::" = [.sym ':', .sym ':'] := by decide +kernel
  unfold scopeToks
  rw [e]
  rfl

/-- What can come after a path. -/
def Stops (r : List Tok) : Prop := (∀ x l, r ≠ .id x :: l) ∧ ∀ l, r ≠ .sym ':' :: l

theorem stops_lt (r : List Tok) : Stops (.sym '<' :: r) :=
  ⟨fun _ _ h => (nomatch h), fun _ h => by injection h with h; injection h with h; exact absurd h (by decide)⟩

theorem stops_gt (r : List Tok) : Stops (.sym '>' :: r) :=
  ⟨fun _ _ h => (nomatch h), fun _ h => by injection h with h; injection h with h; exact absurd h (by decide)⟩

theorem readPath_scope {r : List Tok} (hr : Stops r) : ∀ p, readPath (scopeToks p ++ r) = (p, r)
  | [] => by
    show readPath r = _
    unfold readPath
    split
    · exact absurd rfl (hr.1 _ _)
    · exact absurd rfl (hr.1 _ _)
    · rfl
  | [x] => by
    show readPath (.id x :: r) = _
    unfold readPath
    split
    · rename_i h
      injection h with _ h
      exact absurd h (hr.2 _)
    · rename_i h
      injection h with h1 h2
      injection h1 with h1
      subst h1 h2
      rfl
    · rename_i h
      exact absurd rfl (h _ _)
  | x :: y :: p => by
    rw [scopeToks_cons]
    show readPath (.id x :: .sym ':' :: .sym ':' :: (scopeToks (y :: p) ++ r)) = _
    rw [readPath, readPath_scope hr (y :: p)]

theorem readArgs_sep : ∀ (x : Str) (l : List Str),
    readArgs (sep (cpp! ",") ((x :: l).map fun x => [.id x]) ++ [.sym '>']) = some (x :: l)
  | x, [] => by
    simp only [List.map_cons, List.map_nil, sep, List.append_nil, List.cons_append, List.nil_append, readArgs]
  | x, y :: l => by
    have e : cpp! "," = [.sym ','] := by decide +kernel
    have ih := readArgs_sep y l
    have : sep (cpp! ",") ((x :: y :: l).map fun x => [.id x]) ++ [.sym '>'] =
        .id x :: .sym ',' :: (sep (cpp! ",") ((y :: l).map fun x => [.id x]) ++ [.sym '>']) := by
      rw [e]; rfl
    rw [this, readArgs]
    rw [ih]; rfl

theorem readTemplate_args (l : List Str) : readTemplate (argToks l) = some l := by
  cases l with
  | nil => rfl
  | cons x l =>
    have e1 : cpp! "<" = [.sym '<'] := by decide +kernel
    have e2 : cpp! ">" = [.sym '>'] := by decide +kernel
    unfold argToks
    rw [e1, e2]
    exact readArgs_sep x l

theorem argToks_stops (l : List Str) : Stops (argToks l) := by
  cases l with
  | nil => exact ⟨nofun, nofun⟩
  | cons x l =>
    have e1 : cpp! "<" = [.sym '<'] := by decide +kernel
    unfold argToks
    rw [e1]
    exact stops_lt _

/-! ## Numbers -/

theorem numberOf_repr (N : Names) (n : Nat) : numberOf N (Nat.repr n).toList = some n := by
  unfold numberOf
  rw [Nat.toList_repr, if_pos, Nat.ofDigitChars_ten_toDigits]
  exact ⟨Nat.toDigits_ne_nil, List.all_eq_true.mpr fun c hc => Nat.isDigit_of_mem_toDigits (by decide) (by decide) hc⟩

theorem numberOf_name (N : Names) {x : Str} (h : '_' ∈ x) : numberOf N x = N.number x := by
  unfold numberOf
  rw [if_neg]
  rintro ⟨_, h2⟩
  exact absurd (List.all_eq_true.mp h2 _ h) (by decide)

theorem numberOf_length (N : Names) (n : Nat) {x : Str} (h : '_' ∈ x) :
    numberOf N (if n = 0 then x else (Nat.repr n).toList) = if n = 0 then N.number x else some n := by
  split
  · exact numberOf_name N h
  · exact numberOf_repr N n

theorem mem_lengthParam (own : Str) (f : FieldDesc) : '_' ∈ lengthParam own f :=
  List.mem_append_right _ List.mem_cons_self

theorem mem_countParam (own : Str) (f : FieldDesc) : '_' ∈ countParam own f :=
  List.mem_append_right _ List.mem_cons_self

theorem mem_innerParam (own : Str) (f : FieldDesc) (p : Str) : '_' ∈ innerParam own f p :=
  List.mem_append_right _ List.mem_cons_self

theorem mapM_numberOf (N : Names) (own : Str) (f : FieldDesc) : ∀ l : List Str,
    (l.map (innerParam own f)).mapM (numberOf N) = l.mapM fun p => N.number (innerParam own f p)
  | [] => rfl
  | p :: l => by
    rw [List.map_cons, List.mapM_cons, List.mapM_cons, mapM_numberOf N own f l, numberOf_name N (mem_innerParam own f p)]

/-! ## Types of values -/

/-- A scalar. -/
theorem readElem_scalar (N : Names) (s : ScalarTy) (h : s ≠ .enumeration) : readElem N (toks (cppType s)) = some (.scalar s) := by
  cases s with
  | enumeration => exact absurd rfl h
  | _ => rfl

theorem readElem_enum (N : Names) (scopes : List Str) (h : N.enum scopes = true) :
    readElem N (cpp! "EmbeddedProto::enumeration<" ++ scopeToks scopes ++ cpp! ">") = some (.scalar .enumeration) := by
  have e1 : cpp! "EmbeddedProto::enumeration<" =
      [.id librarySpace, .sym ':', .sym ':', .id (chars! "enumeration"), .sym '<'] := by decide +kernel
  have e2 : cpp! ">" = [.sym '>'] := by decide +kernel
  rw [e1, e2]
  have hp : readPath (scopeToks scopes ++ [.sym '>']) = (scopes, [.sym '>']) :=
    readPath_scope (stops_gt _) scopes
  have hq : readPath ([.id librarySpace, .sym ':', .sym ':', .id (chars! "enumeration"), .sym '<'] ++ scopeToks scopes ++
      [.sym '>']) = ([librarySpace, chars! "enumeration"], .sym '<' :: (scopeToks scopes ++ [.sym '>'])) := by
    have := readPath_scope (r := .sym '<' :: (scopeToks scopes ++ [.sym '>'])) (stops_lt _)
      [librarySpace, chars! "enumeration"]
    rw [scopeToks_cons] at this
    simpa [scopeToks, sep] using this
  unfold readElem
  rw [if_neg (by simp), hq]
  simp [hp, h]

theorem readElem_str (N : Names) (x : Str) (hx : x = chars! "FieldString" ∨ x = chars! "FieldBytes") (n : Str) :
    readElem N [.sym ':', .sym ':', .id librarySpace, .sym ':', .sym ':', .id x, .sym '<', .id n, .sym '>'] =
      (numberOf N n).map .str := by
  unfold readElem
  rw [if_pos (show ([Tok.sym ':', .sym ':', .id librarySpace, .sym ':', .sym ':', .id x, .sym '<', .id n, .sym '>']).head? =
    some (.sym ':') from rfl)]
  exact if_pos ⟨rfl, hx⟩

theorem head_scope {scopes : List Str} {r : List Tok} (hr : Stops r) :
    (scopeToks scopes ++ r).head? ≠ some (.sym ':') := by
  cases scopes with
  | nil =>
    show r.head? ≠ _
    cases r with
    | nil => exact nofun
    | cons t r =>
      intro h
      injection h with h
      subst h
      exact hr.2 _ rfl
  | cons x p =>
    intro h
    exact nomatch h

theorem readElem_message (N : Names) (scopes : List Str) (l : List Str) (h : scopes.head? ≠ some librarySpace) :
    readElem N (scopeToks scopes ++ argToks l) = (l.mapM (numberOf N)).bind (N.message scopes) := by
  unfold readElem
  rw [if_neg (head_scope (argToks_stops l)), readPath_scope (argToks_stops l)]
  dsimp only
  rw [if_neg h, readTemplate_args]
  rfl

/-- What is known of the names. -/
structure NamesFor (N : Names) (P : Str → List Str) (inner : Str → List Nat → Option ElemTy) (own : Str) (args : List Nat)
    (scopes : List Str) (f : FieldDesc) : Prop where
  number : N.number = argument (P own) args
  space : f.type = .message → scopes.head? ≠ some librarySpace
  message : f.type = .message → N.message scopes = inner f.typeName
  enum : f.type = .enum → N.enum scopes = true

theorem readElem_elemToks {N : Names} {P : Str → List Str} {inner : Str → List Nat → Option ElemTy} {own : Str}
    {args : List Nat} {scopes : List Str} {g : GField} (h : NamesFor N P inner own args scopes g.desc)
    (hs : g.shape ≠ .recursive) (hf : g.desc.type ≠ .scalar .enumeration) (hok : memberOK P inner own args g = true) :
    readElem N (elemToks P own scopes g.desc) = some ((instanceTypes P inner own args).elem g.desc) := by
  have e1 : cpp! "::EmbeddedProto::FieldString<" = [.sym ':', .sym ':', .id librarySpace, .sym ':', .sym ':',
    .id (chars! "FieldString"), .sym '<'] := by decide +kernel
  have e2 : cpp! "::EmbeddedProto::FieldBytes<" = [.sym ':', .sym ':', .id librarySpace, .sym ':', .sym ':',
    .id (chars! "FieldBytes"), .sym '<'] := by decide +kernel
  have e3 : cpp! ">" = [.sym '>'] := by decide +kernel
  have hok' : (match g.desc.type with
    | .scalar _ => true
    | .enum => true
    | .string => g.desc.maxLength != 0 || (argument (P own) args (lengthParam own g.desc)).isSome
    | .bytes => g.desc.maxLength != 0 || (argument (P own) args (lengthParam own g.desc)).isSome
    | .message => (fieldInstance P inner own args g.desc).isSome) = true := by
    unfold memberOK at hok
    split at hok
    · contradiction
    · exact (Bool.and_eq_true_iff.mp hok).2
  have hlen : (g.desc.maxLength != 0 || (argument (P own) args (lengthParam own g.desc)).isSome) = true →
      (numberOf N (if g.desc.maxLength = 0 then lengthParam own g.desc else (Nat.repr g.desc.maxLength).toList)).map ElemTy.str =
        some (.str (if g.desc.maxLength = 0 then (instanceTypes P inner own args).length g.desc else g.desc.maxLength)) := by
    intro hl
    rw [numberOf_length N _ (mem_lengthParam _ _), h.number]
    by_cases hz : g.desc.maxLength = 0
    · rw [hz] at hl
      obtain ⟨n, hn⟩ := Option.isSome_iff_exists.mp (by simpa using hl)
      simp [hz, hn, instanceTypes]
    · simp [hz]
  unfold elemToks Types.elem
  cases ht : g.desc.type with
  | scalar s => exact readElem_scalar N s fun hc => hf (hc ▸ ht)
  | enum => exact readElem_enum N scopes (h.enum ht)
  | message =>
    rw [ht] at hok'
    dsimp only at hok' ⊢
    rw [readElem_message N scopes _ (h.space ht), mapM_numberOf, h.number, h.message ht]
    obtain ⟨t, e⟩ := Option.isSome_iff_exists.mp hok'
    show fieldInstance P inner own args g.desc = _
    simp [instanceTypes, e]
  | string =>
    rw [ht] at hok'
    dsimp only at hok' ⊢
    rw [e1, e3]
    exact (readElem_str N _ (.inl rfl) _).trans (hlen hok')
  | bytes =>
    rw [ht] at hok'
    dsimp only at hok' ⊢
    rw [e2, e3]
    exact (readElem_str N _ (.inr rfl) _).trans (hlen hok')

theorem elemToks_take (P : Str → List Str) (own : Str) (scopes : List Str) (f : FieldDesc) :
    (elemToks P own scopes f).take 7 ≠ repeatedHead := by
  have hh : ∀ ts : List Tok, ts.head? ≠ some (.sym ':') → ts.take 7 ≠ repeatedHead := by
    intro ts h e
    cases ts with
    | nil => exact nomatch e
    | cons t ts =>
      injection e with e _
      exact h (congrArg some e)
  unfold elemToks
  cases ht : f.type with
  | scalar s =>
    have : ∀ s : ScalarTy, (toks (cppType s)).head? ≠ some (.sym ':') := by
      intro s; cases s <;> decide +kernel
    exact hh _ (this s)
  | enum =>
    have e : cpp! "EmbeddedProto::enumeration<" =
      [.id librarySpace, .sym ':', .sym ':', .id (chars! "enumeration"), .sym '<'] := by decide +kernel
    dsimp only
    rw [e]
    exact hh _ fun h => nomatch h
  | message => exact hh _ (head_scope (argToks_stops _))
  | string =>
    have e1 : cpp! "::EmbeddedProto::FieldString<" = [.sym ':', .sym ':', .id librarySpace, .sym ':', .sym ':',
      .id (chars! "FieldString"), .sym '<'] := by decide +kernel
    dsimp only
    rw [e1]
    rw [List.append_assoc, List.take_append_of_le_length (by decide)]
    decide
  | bytes =>
    have e1 : cpp! "::EmbeddedProto::FieldBytes<" = [.sym ':', .sym ':', .id librarySpace, .sym ':', .sym ':',
      .id (chars! "FieldBytes"), .sym '<'] := by decide +kernel
    dsimp only
    rw [e1]
    rw [List.append_assoc, List.take_append_of_le_length (by decide)]
    decide

/-- The member that a field gives. -/
def memberOf (E : Types) (g : GField) : MemberTy :=
  match g.shape with
  | .repeated => .many (if g.desc.maxLength = 0 then E.repLength g.desc else g.desc.maxLength) (E.elem g.desc)
  | _ => .one (E.elem g.desc)

theorem readMember_memberToks {N : Names} {P : Str → List Str} {inner : Str → List Nat → Option ElemTy} {own : Str}
    {args : List Nat} {scopes : List Str} {g : GField} (h : NamesFor N P inner own args scopes g.desc)
    (hs : g.shape ≠ .recursive) (hf : g.desc.type ≠ .scalar .enumeration) (hok : memberOK P inner own args g = true) :
    readMember N (memberToks P own scopes g) = some (memberOf (instanceTypes P inner own args) g) := by
  have he := readElem_elemToks h hs hf hok
  unfold memberToks memberOf
  cases hg : g.shape with
  | recursive => exact absurd hg hs
  | single =>
    dsimp only
    unfold readMember
    rw [if_neg (elemToks_take P own scopes g.desc), he]
    rfl
  | repeated =>
    have e1 : cpp! "::EmbeddedProto::RepeatedFieldFixedSize<" = repeatedHead := by decide +kernel
    have e2 : cpp! "," = [.sym ','] := by decide +kernel
    have e3 : cpp! ">" = [.sym '>'] := by decide +kernel
    have el : repeatedHead.length = 7 := rfl
    dsimp only
    rw [e1, e2, e3]
    unfold readMember lengthTok
    have e4 : repeatedHead ++ elemToks P own scopes g.desc ++ [Tok.sym ','] ++
        [Tok.id (if g.desc.maxLength = 0 then countParam own g.desc else (Nat.repr g.desc.maxLength).toList)] ++ [Tok.sym '>'] =
        repeatedHead ++ (elemToks P own scopes g.desc ++ [Tok.sym ',',
          Tok.id (if g.desc.maxLength = 0 then countParam own g.desc else (Nat.repr g.desc.maxLength).toList), Tok.sym '>']) := by
      simp [List.append_assoc]
    have e5 : (elemToks P own scopes g.desc ++ [Tok.sym ',',
        Tok.id (if g.desc.maxLength = 0 then countParam own g.desc else (Nat.repr g.desc.maxLength).toList), Tok.sym '>']).reverse =
        Tok.sym '>' :: .id (if g.desc.maxLength = 0 then countParam own g.desc else (Nat.repr g.desc.maxLength).toList) ::
          .sym ',' :: (elemToks P own scopes g.desc).reverse := by simp
    rw [e4, ← el, List.take_left, if_pos rfl, List.drop_left, e5]
    show (numberOf N (if g.desc.maxLength = 0 then countParam own g.desc else (Nat.repr g.desc.maxLength).toList)).bind
      (fun n => (readElem N (elemToks P own scopes g.desc).reverse.reverse).map (MemberTy.many n)) = _
    rw [List.reverse_reverse, he, numberOf_length N _ (mem_countParam _ _), h.number]
    have hc : (g.desc.maxLength != 0 || (argument (P own) args (countParam own g.desc)).isSome) = true := by
      unfold memberOK at hok
      rw [hg] at hok
      simp only [bne_self_eq_false, Bool.false_or] at hok
      exact (Bool.and_eq_true_iff.mp hok).1
    by_cases hz : g.desc.maxLength = 0
    · rw [hz] at hc
      obtain ⟨n, hn⟩ := Option.isSome_iff_exists.mp (by simpa using hc)
      simp [hz, hn, instanceTypes]
    · simp [hz]

/-! ## The members of a class -/

theorem fieldMembers_classFields (E : Types) : ∀ gs : List GField,
    fieldMembers (classFields E gs) = (gs.filter fun g => g.shape != .recursive).map (memberOf E)
  | [] => rfl
  | g :: gs => by
    have ih := fieldMembers_classFields E gs
    unfold classFields
    cases hg : g.shape with
    | recursive => simp [hg, ih]
    | repeated => simp [hg, ih, fieldMembers, memberOf]
    | single =>
      dsimp only
      split <;> simp [hg, ih, fieldMembers, memberOf]

theorem altMembers_classAlts (E : Types) : ∀ gs : List GField, (∀ g ∈ gs, g.shape = .single) →
    altMembers (classAlts E gs) = gs.map fun g => E.elem g.desc
  | [], _ => rfl
  | g :: gs, h => by
    have ih := altMembers_classAlts E gs fun g hg => h g (List.mem_cons_of_mem _ hg)
    unfold classAlts
    rw [h g List.mem_cons_self]
    dsimp only
    rw [altMembers, ih, List.map_cons]

theorem mapM_some {α β : Type} {f : α → Option β} {g : α → β} : ∀ {l : List α}, (∀ x ∈ l, f x = some (g x)) →
    l.mapM f = some (l.map g)
  | [], _ => rfl
  | x :: l, h => by
    rw [List.mapM_cons, h x List.mem_cons_self, mapM_some fun y hy => h y (List.mem_cons_of_mem _ hy)]
    rfl

theorem oneofMembers_classOneofs (E : Types) : ∀ os : List GOneof, (∀ o ∈ os, ∀ g ∈ o.fields, g.shape = .single) →
    oneofMembers (classOneofs E os) = os.map fun o => o.fields.map fun g => E.elem g.desc
  | [], _ => rfl
  | o :: os, h => by
    unfold classOneofs
    rw [oneofMembers, altMembers_classAlts E o.fields (h o List.mem_cons_self),
      oneofMembers_classOneofs E os fun o ho => h o (List.mem_cons_of_mem _ ho), List.map_cons]

end EP.Gen.Cpp
