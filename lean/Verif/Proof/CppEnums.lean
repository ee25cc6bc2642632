import Verif.Proof.CppTypes

/-!
# Reading the enums in a header
-/

namespace EP.Gen.Cpp

open Jinja

theorem digits_repr (n : Nat) : digits (Nat.repr n).toList = some n := by
  unfold digits
  rw [Nat.toList_repr, if_pos, Nat.ofDigitChars_ten_toDigits]
  exact ⟨Nat.toDigits_ne_nil, List.all_eq_true.mpr fun c hc => Nat.isDigit_of_mem_toDigits (by decide) (by decide) hc⟩

/-- The tokens of the enumerators. -/
def valueToks (l : List (Str × Int)) : List Tok :=
  sep [.sym ','] (l.map fun v => [.id v.1] ++ [.sym '='] ++ intToks v.2) ++ [.sym '}', .sym ';']

theorem valueToks_cons (v w : Str × Int) (l : List (Str × Int)) :
    valueToks (v :: w :: l) = .id v.1 :: .sym '=' :: (intToks v.2 ++ .sym ',' :: valueToks (w :: l)) := by
  simp [valueToks, sep]

theorem readValues_toks : ∀ l : List (Str × Int), readValues (valueToks l) = some l
  | [] => rfl
  | [(v, .ofNat n)] => by
    show (digits (Nat.repr n).toList).map (fun n => [(v, (n : Int))]) = _
    rw [digits_repr]; rfl
  | [(v, .negSucc n)] => by
    show (digits (Nat.repr (n + 1)).toList).map (fun n => [(v, -(n : Int))]) = _
    rw [digits_repr]; rfl
  | (v, .ofNat n) :: w :: l => by
    rw [valueToks_cons]
    show (digits (Nat.repr n).toList).bind (fun n => (readValues (valueToks (w :: l))).map ((v, (n : Int)) :: ·)) = _
    rw [digits_repr, readValues_toks (w :: l)]; rfl
  | (v, .negSucc n) :: w :: l => by
    rw [valueToks_cons]
    show (digits (Nat.repr (n + 1)).toList).bind
      (fun n => (readValues (valueToks (w :: l))).map ((v, -(n : Int)) :: ·)) = _
    rw [digits_repr, readValues_toks (w :: l)]; rfl

theorem flatMap_sep (c : List Tok) : ∀ l : List (List Tok),
    (sep c l).flatMap Tok.expand = sep (c.flatMap Tok.expand) (l.map fun t => t.flatMap Tok.expand)
  | [] => rfl
  | [x] => by simp [sep]
  | x :: y :: l => by
    have ih := flatMap_sep c (y :: l)
    show (x ++ c ++ sep c (y :: l)).flatMap Tok.expand = _
    rw [List.flatMap_append, List.flatMap_append, ih]
    rfl

theorem enumToks_expand (V : Str → List (Str × Int)) (ns name : Str) :
    (enumToks V ns name).flatMap Tok.expand =
      .id (chars! "enum") :: .id (chars! "class") :: .id name :: .sym ':' :: .id (chars! "uint32_t") :: .sym '{' ::
        valueToks (V (dot ns name)) := by
  have e1 : cpp! "enum class" = [.id (chars! "enum"), .id (chars! "class")] := by decide +kernel
  have e2 : cpp! ": uint32_t {" = [.sym ':', .id (chars! "uint32_t"), .sym '{'] := by decide +kernel
  have e3 : cpp! "," = [.sym ','] := by decide +kernel
  have e4 : cpp! "=" = [.sym '='] := by decide +kernel
  have e5 : cpp! "};" = [.sym '}', .sym ';'] := by decide +kernel
  unfold enumToks enumOf
  rw [e1, e2, e3, e4, e5]
  simp only [List.flatMap_append, flatMap_sep]
  unfold valueToks valueTexts
  rw [List.map_map, List.map_map]
  have e6 : ∀ v : Str × Int, ([Tok.id v.1] ++ [Tok.sym '='] ++ [Tok.raw (intText v.2)]).flatMap Tok.expand =
      [Tok.id v.1] ++ [.sym '='] ++ intToks v.2 := by
    intro v
    simp [Tok.expand, (spells_int v.2).toks]
  have e7 : (((fun t => t.flatMap Tok.expand) ∘ fun v : Str × Str => [Tok.id v.1] ++ [Tok.sym '='] ++ [Tok.raw v.2]) ∘
      fun v : Str × Int => (v.1, intText v.2)) = fun v => [Tok.id v.1] ++ [.sym '='] ++ intToks v.2 := by
    funext v; exact e6 v
  rw [e7]
  rfl

/-! ## Where they are in a header -/

theorem classToks_infix {P : Str → List Str} {V : Str → List (Str × Int)} {ns : Str} : ∀ {cs : List OutClass} {c : OutClass},
    c ∈ cs → classToks P V ns c ∈ classesToks P V ns cs
  | [], _, h => nomatch h
  | d :: cs, c, h => by
    rcases List.mem_cons.mp h with rfl | h
    · exact List.mem_cons_self
    · exact List.mem_cons_of_mem _ (classToks_infix h)

theorem enums_piece (C : CClass) : C.enums.flatten <:+: C.print := by
  refine List.infix_of_mem_flatten (L := C.pieces) ?_
  unfold CClass.pieces
  iterate 19 refine List.mem_append_left _ ?_
  refine List.mem_append_left _ ?_
  exact List.mem_append_right _ List.mem_cons_self

theorem classes_piece (C : CClass) : C.classes.flatten <:+: C.print := by
  refine List.infix_of_mem_flatten (L := C.pieces) ?_
  unfold CClass.pieces
  iterate 19 refine List.mem_append_left _ ?_
  exact List.mem_append_right _ List.mem_cons_self

theorem outAt_infix {P : Str → List Str} {V : Str → List (Str × Int)} {ns scope : Str} {cs : List OutClass} {c : OutClass}
    (h : OutAt ns cs scope c) : classToks P V scope c <:+: (classesToks P V ns cs).flatten := by
  induction h with
  | here h => exact List.infix_of_mem_flatten (classToks_infix h)
  | @inside ns cs d scope c hd _ ih =>
    refine ih.trans (List.IsInfix.trans ?_ (List.infix_of_mem_flatten (classToks_infix hd)))
    cases d
    unfold classToks
    exact classes_piece (treeOf P _ _ _ _)

theorem enum_infix {P : Str → List Str} {V : Str → List (Str × Int)} {scope : Str} {c : OutClass} {e : Str} (h : e ∈ c.enums) :
    enumToks V (dot scope c.name) e <:+: classToks P V scope c := by
  cases c
  unfold classToks
  refine List.IsInfix.trans ?_ (enums_piece (treeOf P _ _ _ _))
  exact List.infix_of_mem_flatten (List.mem_map.mpr ⟨e, h, rfl⟩)

theorem expand_infix {a b : List Tok} (h : a <:+: b) : a.flatMap Tok.expand <:+: b.flatMap Tok.expand := by
  obtain ⟨x, y, rfl⟩ := h
  rw [List.flatMap_append, List.flatMap_append]
  exact List.infix_append ..

theorem header_enum {P : Str → List Str} {V : Str → List (Str × Int)} {o : OutFile} {e : Str} (h : e ∈ o.enums) :
    enumToks V o.package e <:+: headerToks P V o := by
  have h1 : enumToks V o.package e <:+: (o.enums.map (enumToks V o.package)).flatten :=
    List.infix_of_mem_flatten (List.mem_map.mpr ⟨e, h, rfl⟩)
  refine h1.trans ?_
  unfold headerToks fileOf
  exact List.infix_append_of_infix_left (List.infix_append_of_infix_left (List.infix_append_of_infix_left
    List.infix_append_right))

theorem header_classes {P : Str → List Str} {V : Str → List (Str × Int)} {o : OutFile} :
    (classesToks P V o.package o.classes).flatten <:+: headerToks P V o := by
  unfold headerToks fileOf
  exact List.infix_append_of_infix_left (List.infix_append_of_infix_left List.infix_append_right)

end EP.Gen.Cpp
