import Verif.Proof.CppEnums
import Verif.Props.Header

/-!
# C97: the enums in a header
-/

namespace EP
open Gen

/-- The enum is in the file: its tokens follow each other there, and read as C++ they give the declaration. -/
def HasEnum (text : Str) (d : Cpp.EnumDecl) : Prop :=
  ∃ all ts, Jinja.Tokens (text ++ ['\n']) all ∧ ts <:+: all ∧ Cpp.readEnum ts = some d

/-- The declaration for an enum: its name, `uint32_t`, and the names and numbers in the `.proto` file. -/
def declared (V : Str → List (Str × Int)) (ns e : Str) : Cpp.EnumDecl := ⟨e, .unsigned 32, V (dot ns e)⟩

/-- **C97**, the tokens of an enum: read as C++ they are the declaration, for all names and values, negative ones included. -/
theorem C97_read (V : Str → List (Str × Int)) (ns e : Str) :
    Cpp.readEnum ((Cpp.enumToks V ns e).flatMap Jinja.Tok.expand) = some (declared V ns e) := by
  rw [Cpp.enumToks_expand]
  show (some (Cpp.CType.unsigned 32)).bind (fun t => (Cpp.readValues (Cpp.valueToks (V (dot ns e)))).map fun l => Cpp.EnumDecl.mk e t l) = _
  rw [Cpp.readValues_toks]
  rfl

/-- **C97**, the text: every enum of a file, at any depth, is in the header with its names and values. -/
theorem C97_text {V : Str → List (Str × Int)} {request : List ReqFile} (hw : WordRequest V request)
    (hv : PrintableRequest request) {i : Nat} {t : Str × Str} (ht : (Jinja.answer V request).2[i]? = some t) :
    ∃ o, (plugin request).files[i]? = some o ∧ (∀ e ∈ o.enums, HasEnum t.2 (declared V o.package e)) ∧
      ∀ scope c, OutAt o.package o.classes scope c → ∀ e ∈ c.enums, HasEnum t.2 (declared V (dot scope c.name) e) := by
  cases hp : prepare request with
  | error e =>
    unfold Jinja.answer at ht
    rw [hp] at ht
    simp at ht
  | ok r =>
    obtain ⟨files, P⟩ := r
    obtain ⟨o, ho, hk⟩ := (C83_partial V request hw hv).text files P hp i t ht
    refine ⟨o, ho, fun e he => ?_, fun scope c hc e he => ?_⟩
    · exact ⟨_, _, hk, Cpp.expand_infix (Cpp.header_enum he), C97_read V _ e⟩
    · exact ⟨_, _, hk, Cpp.expand_infix ((Cpp.enum_infix he).trans ((Cpp.outAt_infix hc).trans Cpp.header_classes)),
        C97_read V _ e⟩

namespace C97Example
open C80Example C83Example

/-- The hypotheses hold for a request with an enum in a file and one in a message; the first has a negative value. -/
example : ∃ t o, (Jinja.answer values request).2[0]? = some t ∧ (plugin request).files[0]? = some o ∧
    HasEnum t.2 ⟨str "Color", .unsigned 32, [(str "RED", 0), (str "BLUE", -2)]⟩ := by
  have hn : (Jinja.answer values request).2.map (·.1) = [str "a.h", str "b/b.h"] := by
    rw [(C83_partial values request words printable).names]; decide +kernel
  cases ht : (Jinja.answer values request).2 with
  | nil => rw [ht] at hn; exact nomatch hn
  | cons t ts =>
    obtain ⟨o, ho, h1, _⟩ := C97_text words printable (i := 0) (t := t) (by rw [ht]; rfl)
    have ho' : ((plugin request).files[0]?.map fun o => (o.package, o.enums)) = some (str ".a", [str "Color"]) := by
      decide +kernel
    rw [ho] at ho'
    injection ho' with ho'
    injection ho' with e1 e2
    have h := h1 (str "Color") (by rw [e2]; exact List.mem_cons_self)
    rw [e1] at h
    exact ⟨t, o, rfl, ho, h⟩

end C97Example

end EP
