import Verif.Proof.HeaderEnum

/-!
# The text of Header.h
-/

namespace EP.Gen.Jinja

open Cpp Parsed

variable {F : FileText}

/-- Rendering a part of Header.h. -/
abbrev inFile (F : FileText) (n : Nodes) : Text :=
  render noTypedef noSpelling (renderCall noTypedef noSpelling) (fileEnv F) n

/-- The guard, and the headers of the library. -/
def firstTokens (guard : Str) (empty : Bool) : List (List Tok) :=
  [directive (chars! "ifndef " ++ guard ++ chars! "_H"), directive (chars! "define " ++ guard ++ chars! "_H"),
   directive (chars! "include <cstdint>"),
   if empty then [] else libraryHeaders.flatMap fun h => directive (chars! "include <" ++ h ++ chars! ">")]

theorem lexes_first : Lexes (inFile F header_1) (firstTokens F.guard F.msgs.isEmpty).flatten := by
  obtain ⟨nm, gd, ds, sp, es, ms⟩ := F
  cases ms <;> lexes

theorem lexes_includes : Lexes (inFile F header_2)
    (F.dependencies.flatMap fun d => directive (chars! "include \"" ++ d ++ chars! "\"")) := by
  refine Lexes.of_eq (render_ite ..) (Lexes.append_nil ?_)
  show Lexes (inFile F header_2_yes) _
  refine lexes_before (by lexes) (lexes_after ?_ (by lexes))
  exact lexes_for (fun d => .text [.path d]) _ F.dependencies (by kernel_rfl) (fun d _ _ _ => by lexes) rfl

theorem lexes_open : Lexes (inFile F header_3) (F.spaces.flatMap fun x => cpp! "namespace" ++ [.id x] ++ cpp! "{") :=
  lexes_for (fun x => .text [.nm x]) _ F.spaces (by kernel_rfl) (fun d _ _ _ => by lexes) rfl

theorem lexes_fileEnums {enums : List (List Tok)} (k : AllLexes F.enums enums) :
    Lexes (inFile F header_5) enums.flatten := by
  show Lexes (loopText _ true (F.enums.map .nested) ++ []) _
  refine (k.loop (fun t p ht b c => ?_) true).append_nil
  exact lexes_after (Lexes.of_eq (by kernel_rfl) ht.append_nil) (by lexes)

theorem lexes_fileMsgs {classes : List (List Tok)} (k : AllLexes F.msgs classes) :
    Lexes (inFile F header_6) classes.flatten := by
  show Lexes (loopText _ true (F.msgs.map .nested) ++ []) _
  refine (k.loop (fun t p ht b c => ?_) true).append_nil
  exact lexes_after (Lexes.of_eq (by kernel_rfl) ht.append_nil) (by lexes)

theorem flatMap_const {α β : Type} (z : List β) : ∀ l m : List α, l.length = m.length →
    l.flatMap (fun _ => z) = m.flatMap fun _ => z
  | [], [], _ => rfl
  | [], _ :: _, h => nomatch h
  | _ :: _, [], h => nomatch h
  | _ :: l, _ :: m, h => by
    rw [List.flatMap_cons, List.flatMap_cons, flatMap_const z l m (by simpa using h)]

theorem lexes_close : Lexes (inFile F header_7) (F.spaces.flatMap fun _ => cpp! "}") :=
  lexes_for (fun x => .text [.nm x]) (fun _ => cpp! "}") F.spaces.reverse
    (List.map_reverse (f := fun x => Val.text [.nm x]) (l := F.spaces)).symm
    (fun d _ _ _ => by lexes) (flatMap_const _ _ _ (by simp))

theorem AllLexes.isEmpty : ∀ {ts : List Text} {ps : List (List Tok)}, AllLexes ts ps → ps.isEmpty = ts.isEmpty
  | _, _, .nil => rfl
  | _, _, .cons _ _ => rfl

/-- The text of a header.  (If a file does not end with a newline, one is added.) -/
theorem lexes_header {enums classes : List (List Tok)} (he : AllLexes F.enums enums) (hm : AllLexes F.msgs classes) :
    Lexes (headerText F ++ [.c '\n']) (fileOf (F.guard ++ chars! "_H") F.dependencies F.spaces enums classes) := by
  unfold headerText
  rw [load_eq parse_header]
  have hc : classes.isEmpty = F.msgs.isEmpty := hm.isEmpty
  have H :=
    lexes_flatten (env := fileEnv F) (lexes_first (F := F)) <|
    lexes_flatten (lexes_includes (F := F)).one <|
    lexes_flatten (lexes_open (F := F)).one <|
    lexes_flatten (show Lexes (inFile F header_4) [].flatten by lexes) <|
    lexes_flatten (lexes_fileEnums he).one <|
    lexes_flatten (lexes_fileMsgs hm).one <|
    (lexes_close (F := F)).one
  have K := H.flatten (show Lexes (inFile F header_8 ++ [.c '\n'])
    [directive (chars! "endif // " ++ F.guard ++ chars! "_H")].flatten by lexes)
  refine Lexes.of_eq ?e (Lexes.cast ?p K)
  case e =>
    rw [← List.append_assoc]
    refine congrArg (· ++ [Sym.c '\n']) ?_
    rw [← render_append]
    kernel_rfl
  case p =>
    unfold fileOf
    rw [hc]
    simp only [firstTokens, List.flatten_append, List.flatten_cons, List.flatten_nil, List.append_nil, List.append_assoc,
      List.nil_append]

end EP.Gen.Jinja
