import Verif.Proof.HeaderRequest
import Verif.Props.Request

/-!
# C83: the text of the headers
-/

namespace EP
open Gen

/-- What is known of the files in the response: their texts are those of the headers of `plugin`, and their classes those
the theorems on generated classes are about. -/
structure TextFor (V : Str → List (Str × Int)) (request : List ReqFile) : Prop where
  error : (Jinja.answer V request).1 = (plugin request).error
  names : (Jinja.answer V request).2.map (·.1) = (plugin request).files.map (·.header.name)
  /-- apart from white space and comments, a file is its guard, its includes, its namespaces, its enums and its classes -/
  text : ∀ files P, prepare request = .ok (files, P) → ∀ (i : Nat) (t : Str × Str), (Jinja.answer V request).2[i]? = some t →
    ∃ o, (plugin request).files[i]? = some o ∧ Jinja.Tokens (t.2 ++ ['\n']) ((Cpp.headerToks P V o).flatMap Jinja.Tok.expand)
  /-- a class does what `render` says -/
  classes : ∀ files P, prepare request = .ok (files, P) → ∀ o ∈ (plugin request).files, ∀ scope c,
    OutAt o.package o.classes scope c → ∀ E enums classes,
      (Cpp.treeOf P (dot scope c.name) enums classes c).erase (classFields E c.message.fields) (classOneofs E c.message.oneofs) =
        Gen.render false E c.name c.message ∧
      (Cpp.treeOf P (dot scope c.name) enums classes c).eraseShows = renderShows c.message
  /-- the types of the members are those that were looked up -/
  members : ∀ files P, prepare request = .ok (files, P) → ∀ o ∈ (plugin request).files, ∀ scope c,
    OutAt o.package o.classes scope c → ∀ g ∈ c.message.fields ++ c.message.oneofs.flatMap (·.fields), g.shape ≠ .recursive →
      ∃ scopes, Jinja.toks (Jinja.typeText (Jinja.spellingOf P (dot scope c.name) c.types) g) =
          Cpp.memberToks P (dot scope c.name) scopes g ∧
        (g.desc.type = .message ∨ g.desc.type = .enum →
          Gen.typeText (fun p => P (nameOf p)) (definitions (files.map (·.desc))) (pathOf (dot scope c.name)) g.desc = .ok scopes)

namespace Gen

/-- What `prepare` has computed. -/
theorem prepare_ok {request files : List ReqFile} {P : Str → List Str} (h : prepare request = .ok (files, P)) :
    fileDefs request = .ok files ∧ register (files.map fun f => (f.desc.package, f.desc.messages)) = .ok P := by
  unfold prepare at h
  obtain ⟨files', h1, h⟩ := except_bind_ok h
  obtain ⟨_, _, h⟩ := except_bind_ok h
  obtain ⟨P', h3, h⟩ := except_bind_ok h
  injection h with h
  injection h with e1 e2
  subst e1 e2
  exact ⟨h1, h3⟩

theorem renderFiles_from {P : Str → List Str} {defs : FType → List (List Str)} : ∀ {fs : List ReqFile},
    ∀ o ∈ (renderFiles P defs fs).1, ∃ f ∈ fs, renderFile P defs f = .ok o
  | [], _, h => nomatch h
  | f :: fs, o, h => by
    unfold renderFiles at h
    cases h1 : renderFile P defs f with
    | error e => rw [h1] at h; exact nomatch h
    | ok o' =>
      rw [h1] at h
      rcases List.mem_cons.mp h with rfl | h
      · exact ⟨f, List.mem_cons_self, h1⟩
      · obtain ⟨f', hf', h2⟩ := renderFiles_from o h
        exact ⟨f', List.mem_cons_of_mem _ hf', h2⟩

theorem contents_error (P : Str → List Str) (V : Str → List (Str × Int)) (defs : FType → List (List Str)) :
    ∀ fs : List ReqFile, (Jinja.contents P V defs fs).2 = (renderFiles P defs fs).2
  | [] => rfl
  | f :: fs => by
    unfold Jinja.contents renderFiles
    cases renderFile P defs f with
    | error e => rfl
    | ok o => exact contents_error P V defs fs

theorem contents_names (P : Str → List Str) (V : Str → List (Str × Int)) (defs : FType → List (List Str)) :
    ∀ fs : List ReqFile, (Jinja.contents P V defs fs).1.map (·.1) = (renderFiles P defs fs).1.map (·.header.name)
  | [] => rfl
  | f :: fs => by
    unfold Jinja.contents renderFiles
    cases h : renderFile P defs f with
    | error e => rfl
    | ok o =>
      dsimp only
      rw [List.map_cons, List.map_cons, contents_names P V defs fs, (renderFile_ok h).1]
      rfl

theorem contents_at {P : Str → List Str} {V : Str → List (Str × Int)} {defs : FType → List (List Str)} :
    ∀ {fs : List ReqFile} {i : Nat} {t : Str × Str}, (Jinja.contents P V defs fs).1[i]? = some t →
      ∃ f ∈ fs, ∃ o, renderFile P defs f = .ok o ∧ (renderFiles P defs fs).1[i]? = some o ∧
        t.2 = Jinja.chars (Jinja.headerText (Jinja.fileOfOut P V f.req.name o))
  | [], _, _, h => by simp [Jinja.contents] at h
  | f :: fs, i, t, h => by
    unfold Jinja.contents at h
    unfold renderFiles
    cases h1 : renderFile P defs f with
    | error e => rw [h1] at h; simp at h
    | ok o =>
      rw [h1] at h
      cases i with
      | zero =>
        injection h with h
        subst h
        exact ⟨f, List.mem_cons_self, o, h1, rfl, rfl⟩
      | succ i =>
        obtain ⟨f', hf', o', h2, h3, h4⟩ := contents_at (fs := fs) (i := i) h
        exact ⟨f', List.mem_cons_of_mem _ hf', o', h2, h3, h4⟩

end Gen

/-- **C83**: the texts of the headers have exactly the tokens of the classes that were computed. -/
def C83_Statement (V : Str → List (Str × Int)) (request : List ReqFile) : Prop :=
  WordRequest V request →
  (∀ f ∈ request, ∀ scope m, At f.desc.package f.desc.messages scope m → FieldsValid m.fields m.oneofs) → TextFor V request

/-- **C83**, for requests without a message that has a oneof with a field of its own type. -/
theorem C83_partial (V : Str → List (Str × Int)) (request : List ReqFile) (hw : WordRequest V request)
    (hv : PrintableRequest request) : TextFor V request := by
  have hfiles : ∀ {files P}, prepare request = .ok (files, P) → ∀ o ∈ (plugin request).files, ∃ f ∈ files,
      renderFile P (definitions (files.map (·.desc))) f = .ok o := by
    intro files P hp o ho
    unfold plugin at ho
    rw [hp] at ho
    exact renderFiles_from o ho
  have hready : ∀ {files P}, prepare request = .ok (files, P) → ∀ o ∈ (plugin request).files, ∀ scope c,
      OutAt o.package o.classes scope c → ∃ m, renderClass P (definitions (files.map (·.desc))) scope m = .ok c ∧
        ClassReady P scope c := by
    intro files P hp o ho scope c hc
    obtain ⟨h1, h2⟩ := prepare_ok hp
    obtain ⟨f, hf, hr⟩ := hfiles hp o ho
    obtain ⟨_, e2, _, e4⟩ := renderFile_ok hr
    rw [e2] at hc
    obtain ⟨m, hm, hm'⟩ := hc.at e4
    exact ⟨m, hm', classReady (hw.opened h1) (hv.opened h1) h2 hf hm hm'⟩
  constructor
  · unfold Jinja.answer plugin
    cases prepare request with
    | error e => rfl
    | ok r => exact contents_error ..
  · unfold Jinja.answer plugin
    cases prepare request with
    | error e => rfl
    | ok r => exact contents_names ..
  · intro files P hp i t ht
    obtain ⟨h1, h2⟩ := prepare_ok hp
    unfold Jinja.answer at ht
    unfold plugin
    rw [hp] at ht ⊢
    obtain ⟨f, hf, o, hr, ho, e⟩ := contents_at ht
    refine ⟨o, ho, ?_⟩
    rw [e]
    exact file_text (hw.opened h1) (hv.opened h1) h2 hf hr
  · intro files P hp o ho scope c hc E enums classes
    obtain ⟨m, _, hc⟩ := hready hp o ho scope c hc
    exact ⟨Jinja.erase_class (Jinja.spellingOf P (dot scope c.name) c.types)
      { name := c.name, m := c.message, templates := Jinja.paramTexts c.params, enums := [], msgs := [], values := [] }
      E enums classes hc.regular, Jinja.erase_shows _ _ _ _⟩
  · intro files P hp o ho scope c hc g hg hs
    obtain ⟨m, hm, hc⟩ := hready hp o ho scope c hc
    refine ⟨Jinja.scopesOf c.types g.desc, hc.words.member (hc.fields g hg).1 hs, fun ht => ?_⟩
    obtain ⟨types, en, _, _, ht', e⟩ := renderClass_ok hm
    have et : c.types = types := by rw [e]; rfl
    rw [et, en]
    obtain ⟨text, h1, h2⟩ := memberTypes_mem ht' g hg hs ht
    exact scopesOf_spec (R := fun f p => Gen.typeText _ _ _ f = .ok p)
      (memberTypes_words (fun _ _ h => h) ht') ⟨text, h1⟩

namespace C83Example
open C80Example

theorem fields_of {request : List ReqFile}
    (h : ∀ f ∈ request, ∀ d ∈ listAts f.desc.package f.desc.messages, d.2.oneofs = [] ∧
      (∀ f ∈ d.2.fields, f.oneofIndex = none ∧ f.proto3Optional = false) ∧
      (d.2.fields.map (·.number)).Nodup ∧ ∀ f ∈ d.2.fields, 0 < f.number ∧ f.number < 536870912) :
    PrintableRequest request where
  fields f hf scope m hm := by
    obtain ⟨a, b, c, d⟩ := h f hf _ hm.mem_listAts
    exact C49Example.plain_valid a b c d
  oneofs f hf scope m hm fd hfd _ := .inl ((h f hf _ hm.mem_listAts).2.1 fd hfd).1

/-- `enum Color { RED = 0; BLUE = -2; }`, `enum Kind { NONE = 0; }` -/
def values (t : Str) : List (Str × Int) :=
  if t = str ".a.Color" then [(str "RED", 0), (str "BLUE", -2)] else if t = str ".b.Item.Kind" then [(str "NONE", 0)] else []

/-- Lists of words. -/
def isWord (x : Str) : Bool := !x.isEmpty && x.all Jinja.identChar

theorem word_of {x : Str} (h : isWord x = true) : Jinja.Word x := by
  simp only [isWord, Bool.and_eq_true, Bool.not_eq_true', List.isEmpty_eq_false_iff, List.all_eq_true] at h
  exact h

theorem wordRequest_of {V : Str → List (Str × Int)} {request : List ReqFile}
    (h1 : ∀ f ∈ request, (∀ c ∈ f.req.name, c ≠ '\n' ∧ c ≠ '*') ∧ ∀ d ∈ f.req.dependency, ∀ c ∈ d, c ≠ '\n' ∧ c ≠ '*')
    (h2 : ∀ f ∈ request, (f.desc.package = [] ∨ f.desc.package.head? = some '.') ∧ ∀ x ∈ pathOf f.desc.package, isWord x = true)
    (h3 : ∀ f ∈ request, ∀ e ∈ f.desc.enums, isWord e = true)
    (h4 : ∀ f ∈ request, ∀ d ∈ listAts f.desc.package f.desc.messages, isWord d.2.name = true ∧
      (∀ e ∈ d.2.enums, isWord e = true) ∧
      (∀ f ∈ d.2.fields, isWord f.name = true ∧ ∀ c ∈ f.typeName, c = '.' ∨ Jinja.identChar c = true) ∧
      ∀ o ∈ d.2.oneofs, isWord o = true)
    (h5 : ∀ t, ∀ v ∈ V t, Jinja.Word v.1) : WordRequest V request where
  files := h1
  package f hf := ⟨(h2 f hf).1, fun x hx => word_of ((h2 f hf).2 x hx)⟩
  enums f hf e he := word_of (h3 f hf e he)
  messages f hf scope m hm := by
    obtain ⟨a, b, c, d⟩ := h4 f hf _ hm.mem_listAts
    exact ⟨word_of a, fun e he => word_of (b e he), fun f hf => ⟨word_of (c f hf).1, (c f hf).2⟩, fun o ho => word_of (d o ho)⟩
  values := h5

theorem words : WordRequest values request :=
  wordRequest_of (by decide +kernel) (by decide +kernel) (by decide +kernel) (by decide +kernel) (by
    intro t v hv
    unfold values at hv
    split at hv
    · exact word_of ((by decide +kernel : ∀ v ∈ [(str "RED", (0 : Int)), (str "BLUE", -2)], isWord v.1 = true) v hv)
    · split at hv
      · exact word_of ((by decide +kernel : ∀ v ∈ [(str "NONE", (0 : Int))], isWord v.1 = true) v hv)
      · exact nomatch hv)

theorem printable : PrintableRequest request := fields_of (by decide +kernel)

/-- The hypotheses hold for a request with packages, enums, templates and nested messages, and there are texts. -/
example : TextFor values request ∧ (Jinja.answer values request).2.map (·.1) = [str "a.h", str "b/b.h"] := by
  have h := C83_partial values request words printable
  exact ⟨h, by rw [h.names]; decide +kernel⟩


/-- `message M { oneof o { M next = 1; int32 n = 2; } }` -/
def inOneof : List ReqFile :=
  [file "m.proto" [] ⟨[], [], [.mk (str "M") [{ field "next" 1 .message ".M" with oneofIndex := some 0 },
    { field "n" 2 (.scalar .int32) with oneofIndex := some 0 }] [str "o"] [] []]⟩]

theorem inOneof_valid : ∀ f ∈ inOneof, ∀ scope m, At f.desc.package f.desc.messages scope m → FieldsValid m.fields m.oneofs := by
  intro f hf scope m hm
  have h : ∀ f ∈ inOneof, ∀ d ∈ listAts f.desc.package f.desc.messages,
      (d.2.fields.map (·.number)).Nodup ∧ d.2.oneofs.length = 1 ∧ d.2.fields ≠ [] ∧ ∀ f ∈ d.2.fields,
        (0 < f.number ∧ f.number < 536870912) ∧ f.oneofIndex = some 0 ∧ f.proto3Optional = false ∧ f.repeated = false := by
    decide +kernel
  obtain ⟨h1, h2, h3, h4⟩ := h f hf _ hm.mem_listAts
  refine ⟨h1, fun f hf => (h4 f hf).1, fun f hf i hi => ?_, fun i hi => ?_, fun f hf hp => ?_, fun f hf _ => (h4 f hf).2.2.2⟩
  · rw [(h4 f hf).2.1] at hi
    injection hi with hi
    rw [← hi, h2]; decide
  · obtain ⟨x, hx⟩ := List.exists_mem_of_ne_nil _ h3
    obtain rfl : i = 0 := by rw [h2] at hi; exact Nat.lt_one_iff.mp hi
    exact ⟨x, hx, (h4 x hx).2.1⟩
  · rw [(h4 f hf).2.2.1] at hp; exact nomatch hp

/-- The tokens of the first file. -/
def actual : List Jinja.Tok :=
  (Jinja.lexFrom .start (Jinja.lit ((((Jinja.answer (fun _ => []) inOneof).2.map (·.2)).headD []) ++ ['\n']))).1

/-- What they should be. -/
def wanted : List Jinja.Tok :=
  match prepare inOneof with
  | .ok (_, P) => ((plugin inOneof).files.head?.map fun o => (Cpp.headerToks P (fun _ => []) o).flatMap Jinja.Tok.expand).getD []
  | .error _ => []

/-- In the function that makes a member of the union, the type of `next` is the beginning of a comment: it takes the
semicolon with it, and `break` with it makes no statement. -/
theorem actual_eq : actual.length = 1869 ∧ (actual.drop (actual.findIdx (· = .id (str "new")))).take 9 =
    cpp! "new(&o_.next_) break;" := by decide +kernel

theorem wanted_eq : wanted.length = 1872 := by decide +kernel

end C83Example
open C83Example

/-- **C83** is false: a oneof with a field of the type of its own message gives a text that is not that of a class. -/
theorem C83_false : ∃ V request, (plugin request).error = none ∧ ¬ C83_Statement V request := by
  refine ⟨fun _ => [], inOneof, by decide +kernel, fun h => ?_⟩
  have h := h (wordRequest_of (by decide +kernel) (by decide +kernel) (by decide +kernel) (by decide +kernel)
    fun _ _ h => nomatch h) inOneof_valid
  have ha := actual_eq.1
  have hb := wanted_eq
  unfold actual at ha
  unfold wanted at hb
  cases hp : prepare inOneof with
  | error e => rw [hp] at hb; exact nomatch hb
  | ok r =>
    obtain ⟨files, P⟩ := r
    rw [hp] at hb
    cases ht : (Jinja.answer (fun _ => []) inOneof).2 with
    | nil => rw [ht] at ha; revert ha; decide +kernel
    | cons t ts =>
      rw [ht] at ha
      obtain ⟨o, ho, hk⟩ := h.text files P hp 0 t (by rw [ht]; rfl)
      rw [List.head?_eq_getElem?, ho] at hb
      unfold Jinja.Tokens at hk
      replace ha : (Jinja.lexFrom .start (Jinja.lit (t.2 ++ ['\n']))).1.length = 1869 := ha
      rw [hk] at ha
      exact absurd (ha.symm.trans hb) (by decide)

end EP
