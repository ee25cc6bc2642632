import Verif.Proof.KernelRfl
import Verif.Model.Header
import Verif.Model.TemplateNodes
import Verif.Spec.HeaderOf

/-!
# The text of the templates for fields
-/

namespace EP.Gen.Jinja

open Cpp

theorem load_eq {f : List Str} {n : Nodes} (h : parse f = some n) : load f = n := by
  unfold load; rw [h]; rfl

/-- Closes a statement about given texts. -/
macro "lexes" : tactic => `(tactic| (unfold Lexes; kernel_rfl))

variable (T : Typedef) (S : Spelling)

/-- The parsed template of a file is known. -/
theorem renderField_eq {f : List Str} {n : Nodes} (h : parse f = some n) (o : Option GOneof) (g : GField) :
    renderField T S o g f = render T S noText (fieldEnv (.field o g)) n := by
  unfold renderField; rw [load_eq h]

/-- Field*_GetSet.h.  (A repeated field is not in a oneof.) -/
theorem lexes_get_set (o : Option GOneof) (g : GField) (h : o.isSome = true → g.shape ≠ .repeated) :
    Lexes (renderMethod T S (.field o g) .render_get_set) (fieldOf S o g).print := by
  show Lexes (renderField T S o g (getSetFile g)) _
  obtain ⟨⟨x, _, _, t, _, _, p, _⟩, sh, _⟩ := g
  cases sh with
  | recursive =>
    show Lexes (renderField T S o _ Template.fieldErrorRecursiveGetSet) _
    rw [renderField_eq T S Parsed.parse_fieldErrorRecursiveGetSet]
    lexes
  | repeated =>
    cases o with
    | some o => exact absurd rfl (h rfl)
    | none =>
      show Lexes (renderField T S none _ Template.fieldRepeatedGetSet) _
      rw [renderField_eq T S Parsed.parse_fieldRepeatedGetSet]
      lexes
  | single =>
    cases t with
    | scalar s =>
      show Lexes (renderField T S o _ Template.fieldBasicGetSet) _
      rw [renderField_eq T S Parsed.parse_fieldBasicGetSet]
      cases o <;> cases p <;> lexes
    | enum =>
      show Lexes (renderField T S o _ Template.fieldEnumGetSet) _
      rw [renderField_eq T S Parsed.parse_fieldEnumGetSet]
      cases o <;> cases p <;> lexes
    | message =>
      show Lexes (renderField T S o _ Template.fieldMsgGetSet) _
      rw [renderField_eq T S Parsed.parse_fieldMsgGetSet]
      cases o <;> cases p <;> lexes
    | string =>
      show Lexes (renderField T S o _ Template.fieldStringGetSet) _
      rw [renderField_eq T S Parsed.parse_fieldStringGetSet]
      cases o <;> cases p <;> lexes
    | bytes =>
      show Lexes (renderField T S o _ Template.fieldBytesGetSet) _
      rw [renderField_eq T S Parsed.parse_fieldBytesGetSet]
      cases o <;> cases p <;> lexes

/-- Field*_Serialize.h. -/
theorem lexes_serialize (o : Option GOneof) (g : GField) :
    Lexes (renderMethod T S (.field o g) .render_serialize) (serOpt (serOf S o g)) := by
  obtain ⟨⟨x, _, _, t, _, _, p, _⟩, sh, _⟩ := g
  cases sh with
  | recursive => rfl
  | repeated =>
    show Lexes (renderField T S o _ Template.fieldRepeatedSerialize) _
    rw [renderField_eq T S Parsed.parse_fieldRepeatedSerialize]
    cases o <;> cases p <;> lexes
  | single =>
    cases t with
    | scalar s =>
      show Lexes (renderField T S o _ Template.fieldBasicSerialize) _
      rw [renderField_eq T S Parsed.parse_fieldBasicSerialize]
      cases o <;> cases p <;> lexes
    | enum =>
      show Lexes (renderField T S o _ Template.fieldEnumSerialize) _
      rw [renderField_eq T S Parsed.parse_fieldEnumSerialize]
      cases o <;> cases p <;> lexes
    | message =>
      show Lexes (renderField T S o _ Template.fieldMsgSerialize) _
      rw [renderField_eq T S Parsed.parse_fieldMsgSerialize]
      cases o <;> cases p <;> lexes
    | string =>
      show Lexes (renderField T S o _ Template.fieldStringBytesSerialize) _
      rw [renderField_eq T S Parsed.parse_fieldStringBytesSerialize]
      cases o <;> cases p <;> lexes
    | bytes =>
      show Lexes (renderField T S o _ Template.fieldStringBytesSerialize) _
      rw [renderField_eq T S Parsed.parse_fieldStringBytesSerialize]
      cases o <;> cases p <;> lexes

/-- Field*_Deserialize.h. -/
theorem lexes_deserialize (o : Option GOneof) (g : GField) :
    Lexes (renderMethod T S (.field o g) .render_deserialize) ((desOf o g).flatMap des) := by
  obtain ⟨⟨x, _, _, t, _, _, p, _⟩, sh, _⟩ := g
  cases sh with
  | recursive => rfl
  | repeated =>
    show Lexes (rstrip (renderField T S o _ Template.fieldBasicDeserialize)) _
    rw [renderField_eq T S Parsed.parse_fieldBasicDeserialize]
    cases o <;> cases p <;> lexes
  | single =>
    cases t with
    | enum =>
      show Lexes (renderField T S o _ Template.fieldEnumDeserialize) _
      rw [renderField_eq T S Parsed.parse_fieldEnumDeserialize]
      cases o <;> cases p <;> lexes
    | message =>
      show Lexes (renderField T S o _ Template.fieldMsgDeserialize) _
      rw [renderField_eq T S Parsed.parse_fieldMsgDeserialize]
      cases o <;> cases p <;> lexes
    | _ =>
      show Lexes (rstrip (renderField T S o _ Template.fieldBasicDeserialize)) _
      rw [renderField_eq T S Parsed.parse_fieldBasicDeserialize]
      cases o <;> cases p <;> lexes

end EP.Gen.Jinja
