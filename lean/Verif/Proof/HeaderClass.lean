import Verif.Proof.HeaderLex

/-!
# The text of TypeOneof.h
-/

namespace EP.Gen.Jinja

open Cpp Parsed

variable (T : Typedef) (S : Spelling)

theorem find_eq (a : Attr) : (load Template.typeOneof).find a = typeOneof.find a := by rw [load_eq parse_typeOneof]

theorem flatMap_map {α β γ : Type} (f : α → β) (g : β → List γ) (l : List α) :
    (l.map f).flatMap g = l.flatMap fun a => g (f a) := List.flatMap_map ..

theorem flatMap_filter {α γ : Type} (c : α → Bool) (g : α → List γ) (l : List α) :
    (l.filter c).flatMap g = l.flatMap fun a => if c a then g a else [] := by
  induction l with
  | nil => rfl
  | cons a l ih =>
    rw [List.filter_cons]
    split <;> simp_all

theorem lexes_assign (o : GOneof) : Lexes (renderMacro T S .assign (.oneof o)) (oneofOf S o).printAssign := by
  unfold renderMacro; rw [find_eq]
  show Lexes (render T S _ _ typeOneof_1_body) _
  refine lexes_append (by lexes) (lexes_append ?_ (by lexes))
  refine lexes_for (.field (some o)) (fun g => caseOf (upper g.desc.name)
    (CAct.callSet (setName g.desc.name) (getName g.desc.name)).print) o.fields rfl (fun g _ b c => ?_) (flatMap_map ..)
  lexes

theorem lexes_init (o : GOneof) (h : ∀ g ∈ o.fields, g.shape = .single) :
    Lexes (renderMacro T S .init (.oneof o)) (oneofOf S o).printInit := by
  unfold renderMacro; rw [find_eq]
  show Lexes (render T S _ _ typeOneof_2_body) _
  refine lexes_append (by lexes) (lexes_append ?_ (by lexes))
  rw [typeOneof_2_body_2, render_ite]
  have hc : (eval T S (fun v a _ => renderMethod T S v a) (macroEnv (.oneof o))
      (.ask (.var ._oneof) .oneof_allocation_required)).truth = o.fields.any allocationRequired := rfl
  rw [hc]
  show Lexes _ (match (if o.fields.any allocationRequired then _ else _ : Option (List (Str × CAct))) with
    | some cs => _
    | none => _)
  cases o.fields.any allocationRequired
  · exact Lexes.nil
  · refine Lexes.append_nil (lexes_append (by lexes) (lexes_append ?_ (by lexes)))
    refine lexes_for (.field (some o)) (fun g => if allocationRequired g then caseOf (upper g.desc.name)
      (CAct.new (placeOf (some o) g) (elemType S g.desc)).print else []) o.fields rfl (fun g hg b c => ?_) ?_
    · have hs := h g hg
      obtain ⟨⟨x, _, _, t, _, _, p, _⟩, sh, _⟩ := g
      cases hs
      cases t <;> lexes
    · exact (flatMap_map ..).trans (flatMap_filter ..)

theorem lexes_clear (o : GOneof) (h : ∀ g ∈ o.fields, g.shape = .single) :
    Lexes (renderMacro T S .clear (.oneof o)) (oneofOf S o).printClear := by
  unfold renderMacro; rw [find_eq]
  show Lexes (render T S _ _ typeOneof_3_body) _
  refine lexes_append (by lexes) (lexes_append ?_ (by lexes))
  refine lexes_for (.field (some o)) (fun g => caseOf (upper g.desc.name) (releaseAct S o g).print) o.fields rfl
    (fun g hg b c => ?_) (flatMap_map ..)
  have hs := h g hg
  obtain ⟨⟨x, _, _, t, _, _, p, _⟩, sh, _⟩ := g
  cases hs
  cases t <;> lexes

theorem lexes_des (o : GOneof) :
    Lexes (renderMacro T S .deserialize (.oneof o)) (oneofOf S o).printDes := by
  unfold renderMacro; rw [find_eq]
  show Lexes (render T S _ _ typeOneof_4_body) _
  refine lexes_append (by lexes) (lexes_append ?_ (by lexes))
  refine lexes_for (.field (some o)) (fun g => caseOf (upper g.desc.name) ((desOf (some o) g).flatMap des)) o.fields rfl
    (fun g hg b c => ?_) (flatMap_map ..)
  refine lexes_append (by lexes) (lexes_append ?_ (by lexes))
  exact (lexes_deserialize T S (some o) g).indent.append_nil

theorem lexes_show (o : GOneof) :
    Lexes (renderMacro T S .to_string (.oneof o)) (oneofOf S o).printShow := by
  unfold renderMacro; rw [find_eq]
  show Lexes (render T S _ _ typeOneof_5_body) _
  refine lexes_append (by lexes) (lexes_append ?_ (by lexes))
  refine lexes_for (.field (some o)) (fun g => caseOf (upper g.desc.name) (cpp! "left_chars =" ++
    place (placeOf (some o) g) ++ cpp! ".to_string(left_chars, indent_level," ++ [.id (constName g.desc.name)] ++
    cpp! ", first_field);")) o.fields rfl (fun g hg b c => ?_) (flatMap_map ..)
  lexes

end EP.Gen.Jinja
