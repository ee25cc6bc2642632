import Verif.Proof.Lookup

/-!
# C72, C73: the types named in the generated headers

`Program.lookup` (Spec/Lookup.lean) are the rules of C++ for names; `programOf` (Model/GenTypes.lean) is what the headers
declare and `typeText` what the generator writes for the type of a field.
-/

namespace EP
open Gen

/-- The text for the type of a field stands for the declared type. -/
def C72_Statement (T : List Str → List Str) (files : List FileDesc) : Prop :=
  FilesNames files → ∀ own m, MessageNamed files own m → ∀ f ∈ m.fields, KnownType files f → ∀ text,
    typeText T (definitions files) (pathOf own) f = .ok text →
    (programOf T files).lookup (pathOf own) text = .type (pathOf f.typeName)

/-- Nothing stands between the class `own` and the type `d`: from the class outwards to the innermost scope around both,
nothing is declared with the name of the outermost scope of `d` that is not around `own`, and none of the scopes that
must be named is a class template. -/
structure InSight (P : Program) (own d : List Str) : Prop where
  nearer : ∀ k, shared own d < k → k ≤ own.length → ¬ P.Hides (own.take k) (d.drop (shared own d)) ∧
    ¬ P.IsScope (own.take k ++ (d.drop (shared own d)).take 1)
  there : ¬ P.Hides (own.take (shared own d)) (d.drop (shared own d))
  templates : ∀ i, shared own d < i → i < d.length → P.template (d.take i) = false

namespace Gen

theorem typeText_ok {T : List Str → List Str} {files : List FileDesc} (hv : FilesNames files) {own : List Str}
    {f : FieldDesc} (hk : KnownType files f) {text : List Str}
    (h : typeText T (definitions files) own f = .ok text) :
    text = (pathOf f.typeName).drop (shared own (pathOf f.typeName)) := by
  unfold typeText at h
  rw [(known_spec hv T hk).2.2.1] at h
  have h : (if f.type = .enum && (reducedScope T own (pathOf f.typeName)).any (fun s => !s.2.isEmpty) then
    Except.error GenError.templateParameters else Except.ok ((reducedScope T own (pathOf f.typeName)).map (·.1))) =
      .ok text := h
  split at h
  · exact nomatch h
  · injection h with h
    rw [← h, reducedScope_names]

theorem InSight.iff {P : Program} {own d : List Str} (hne : d ≠ []) (hd : d ∈ P.types)
    (hs : ∀ k, 0 < k → k ≤ d.length → P.IsScope (d.take k)) :
    P.lookup own (d.drop (shared own d)) = .type d ↔ InSight P own d := by
  have hlt := shared_lt (own := own) hne
  have e := shared_append own d
  have hpre : ∀ i, own.take (shared own d) ++ (d.drop (shared own d)).take i = d.take (shared own d + i) := by
    intro i
    rw [← shared_take, List.take_add]
  have := P.lookup_iff (ctx := own) (text := d.drop (shared own d)) (shared_le own d) (by
    rw [hpre]
    exact hs _ (by omega) (by omega)) (by rw [e]; exact hd)
  rw [e] at this
  rw [this]
  constructor
  · rintro ⟨h1, h2, h3⟩
    refine ⟨h1, h2, fun i hi hl => ?_⟩
    have := h3 (i - shared own d) (by omega) (by rw [List.length_drop]; omega)
    rwa [hpre, show shared own d + (i - shared own d) = i by omega] at this
  · rintro ⟨h1, h2, h3⟩
    refine ⟨h1, h2, fun i hi hl => ?_⟩
    rw [List.length_drop] at hl
    rw [hpre]
    exact h3 _ (by omega) (by omega)

end Gen

/-- **C72**, exactly when: the text for the type of a field stands for the declared type if and only if that is in sight
of the class. -/
theorem C72_exact {T : List Str → List Str} {files : List FileDesc} (hv : FilesNames files) {own : Str}
    {f : FieldDesc} (hk : KnownType files f) {text : List Str}
    (h : typeText T (definitions files) (pathOf own) f = .ok text) :
    (programOf T files).lookup (pathOf own) text = .type (pathOf f.typeName) ↔
      InSight (programOf T files) (pathOf own) (pathOf f.typeName) := by
  have hs := known_spec hv T hk
  rw [typeText_ok hv hk h]
  exact InSight.iff hs.1.ne hs.2.1 hs.2.2.2

/-- **C72**, enums: one nested in a class template is refused where its name would need arguments, so that for enums no
class template ever stands in the way. -/
theorem C72_enum_templates {T : List Str → List Str} {files : List FileDesc} (hv : FilesNames files) {own : Str}
    {f : FieldDesc} (hk : KnownType files f) (he : f.type = .enum) {text : List Str}
    (h : typeText T (definitions files) (pathOf own) f = .ok text) :
    ∀ i, shared (pathOf own) (pathOf f.typeName) < i → i ≤ (pathOf f.typeName).length →
      (programOf T files).template ((pathOf f.typeName).take i) = false := by
  unfold typeText at h
  rw [(known_spec hv T hk).2.2.1] at h
  have h : (if f.type = .enum && (reducedScope T (pathOf own) (pathOf f.typeName)).any (fun s => !s.2.isEmpty) then
    Except.error GenError.templateParameters else Except.ok ((reducedScope T (pathOf own) (pathOf f.typeName)).map (·.1))) =
      .ok text := h
  rw [he] at h
  split at h
  · exact nomatch h
  · rename_i hc
    intro i h0 hi
    have hc : (reducedScope T (pathOf own) (pathOf f.typeName)).any (fun s => !s.2.isEmpty) = false := by simpa using hc
    exact reducedScope_templates T (pathOf own) (pathOf f.typeName) hc i h0 hi

/-- The name of every type, and of every part of a package, is used for nothing else; no type is nested in a class
template. -/
structure OwnNames (P : Program) : Prop where
  scopes : ∀ p q, P.IsScope p → P.IsScope q → p.getLast? = q.getLast? → p = q
  members : ∀ scope x, x ∈ P.names scope ++ P.innerTypes scope → ∀ p, P.IsScope p → p.getLast? ≠ some x
  templates : ∀ p, P.template p = true → ∀ q ∈ P.types, p <+: q → p = q

/-- With names of their own all types are in sight. -/
theorem OwnNames.inSight {P : Program} (ho : OwnNames P) {own d : List Str} (hne : d ≠ []) (hty : d ∈ P.types)
    (hscope : ∀ k, 0 < k → k ≤ d.length → P.IsScope (d.take k)) : InSight P own d := by
  have hlt := shared_lt (own := own) hne
  have hx : (d.drop (shared own d)).take 1 = [d[shared own d]] := by
    rw [List.drop_eq_getElem_cons hlt]; rfl
  have hhead : (d.drop (shared own d)).head? = some d[shared own d] := by
    rw [List.drop_eq_getElem_cons hlt]; rfl
  have hp : P.IsScope (d.take (shared own d + 1)) := hscope _ (by omega) (by omega)
  have hlast : (d.take (shared own d + 1)).getLast? = some d[shared own d] := by
    rw [← List.take_append_getElem hlt, List.getLast?_concat]
  have hhide : ∀ scope, ¬ P.Hides scope (d.drop (shared own d)) := by
    rintro scope ⟨x, hx, hm⟩
    rw [hhead] at hx
    obtain rfl := Option.some.inj hx
    refine ho.members scope _ ?_ _ hp hlast
    split at hm
    · exact List.mem_append_left _ hm
    · exact List.mem_append_right _ hm
  refine ⟨fun k h1 h2 => ⟨hhide _, fun hsc => ?_⟩, hhide _, fun i h1 h2 => ?_⟩
  · rw [hx] at hsc
    have := congrArg List.length (ho.scopes _ _ hsc hp (by rw [hlast]; simp))
    rw [List.length_append, List.length_take, List.length_take, List.length_singleton] at this
    omega
  · cases ht : P.template (d.take i) with
    | false => rfl
    | true =>
      have := congrArg List.length (ho.templates _ ht d hty (List.take_prefix _ _))
      rw [List.length_take] at this
      omega

/-- **C72**, for files in which every type and every part of a package has a name of its own. -/
theorem C72_partial {T : List Str → List Str} {files : List FileDesc} (ho : OwnNames (programOf T files)) :
    C72_Statement T files := by
  intro hv own m _ f _ hk text h
  have hs := known_spec hv T hk
  rw [C72_exact hv hk h]
  exact ho.inSight hs.1.ne hs.2.1 hs.2.2.2

namespace Gen

/-- `FilesNames`, by going through the list of all messages. -/
theorem FilesNames.of_list {files : List FileDesc}
    (h1 : ∀ f ∈ files, (f.package = [] ∨ f.package.head? = some '.') ∧ ∀ x ∈ pathOf f.package, SimpleName x)
    (h2 : ∀ f ∈ files, ∀ e ∈ f.enums, SimpleName e)
    (h3 : ∀ m ∈ filesMsgs files, SimpleName m.2.name ∧ ∀ e ∈ m.2.enums, SimpleName e) : FilesNames files :=
  ⟨h1, h2, fun f hf scope m hat => h3 (_, m) (mem_filesMsgs.mpr ⟨f, hf, scope, hat, rfl⟩)⟩

/-- `OwnNames`, likewise. -/
theorem OwnNames_of_list {T : List Str → List Str} {files : List FileDesc}
    (h1 : ∀ p ∈ (programOf T files).types ++ (programOf T files).spaces,
      ∀ q ∈ (programOf T files).types ++ (programOf T files).spaces, p.getLast? = q.getLast? → p = q)
    (h2 : ∀ m ∈ filesMsgs files, ∀ x ∈ classNames m.1 m.2 ++ classTypes m.1 m.2,
      ∀ p ∈ (programOf T files).types ++ (programOf T files).spaces, p.getLast? ≠ some x)
    (h3 : ∀ q ∈ (programOf T files).types, ∀ k, k < q.length → T (q.take k) = []) : OwnNames (programOf T files) := by
  refine ⟨fun p q hp hq => h1 p (List.mem_append.mpr hp) q (List.mem_append.mpr hq), ?_, ?_⟩
  · intro scope x hx p hp
    have : ∃ m ∈ filesMsgs files, x ∈ classNames m.1 m.2 ++ classTypes m.1 m.2 := by
      rcases List.mem_append.mp hx with hx | hx
      all_goals
        obtain ⟨m, hm, hx⟩ := List.mem_flatMap.mp hx
        refine ⟨m, (List.mem_filter.mp hm).1, ?_⟩
      · exact List.mem_append_left _ hx
      · exact List.mem_append_right _ hx
    obtain ⟨m, hm, hx⟩ := this
    exact h2 m hm x hx p (List.mem_append.mpr hp)
  · intro p ht q hq hpre
    by_cases hl : p.length < q.length
    · obtain ⟨r, rfl⟩ := hpre
      have := h3 _ hq p.length hl
      rw [List.take_left] at this
      have ht : (!(T p).isEmpty) = true := ht
      rw [this] at ht
      exact nomatch ht
    · exact hpre.eq_of_length_le (by omega)

end Gen

namespace C72Example

def str (s : String) : Str := s.toList

/-- A field of a message or enum type. -/
def field (name : String) (type : FType) (typeName : String) : FieldDesc :=
  ⟨str name, 1, false, type, str typeName, none, false, 0⟩

/-- No class is a template. -/
def none : List Str → List Str := fun _ => []

/-- `package a.b; enum Color {…} message Outer { message Inner {} enum Kind {…} Inner x = 1; } message User { Outer.Inner y = 1; }` -/
def good : FileDesc where
  package := str ".a.b"
  enums := [str "Color"]
  messages := [
    .mk (str "Outer") [field "x" .message ".a.b.Outer.Inner"] [] [str "Kind"] [.mk (str "Inner") [] [] [] []],
    .mk (str "User") [field "y" .message ".a.b.Outer.Inner"] [] [] [],
    .mk (str "Other") [field "z" .enum ".a.b.Outer.Kind"] [] [] []]

theorem good_names : FilesNames [good] := .of_list (by decide +kernel) (by decide +kernel) (by decide +kernel)

theorem good_own : OwnNames (programOf none [good]) :=
  OwnNames_of_list (by decide +kernel) (by decide +kernel) (fun _ _ _ _ => rfl)

/-- A message, by its place in the list of all. -/
theorem named {files : List FileDesc} {t : Str} {m : MsgDesc} (i : Nat) (h : (filesMsgs files)[i]? = some (t, m)) :
    MessageNamed files t m := mem_filesMsgs.mp (List.mem_of_getElem? h)

/-- `Outer.Inner` used in `User`: the text is `Outer::Inner`. -/
example : (programOf none [good]).lookup (pathOf (str ".a.b.User")) [str "Outer", str "Inner"] =
    .type [str "a", str "b", str "Outer", str "Inner"] :=
  C72_partial good_own good_names (str ".a.b.User") (.mk (str "User") [field "y" .message ".a.b.Outer.Inner"] [] [] [])
    (named 2 rfl) (field "y" .message ".a.b.Outer.Inner") (by decide +kernel) (.inl ⟨rfl, _, named 0 rfl⟩) _ rfl

/-- `Inner` used in `Outer`: the text is `Inner`. -/
example : (programOf none [good]).lookup (pathOf (str ".a.b.Outer")) [str "Inner"] =
    .type [str "a", str "b", str "Outer", str "Inner"] :=
  C72_partial good_own good_names (str ".a.b.Outer") _ (named 1 rfl) (field "x" .message ".a.b.Outer.Inner")
    (by decide +kernel) (.inl ⟨rfl, _, named 0 rfl⟩) _ rfl

/-- `message Msg {} message P { message Msg {} .Msg f = 1; }` -/
def sameName : FileDesc where
  package := []
  enums := []
  messages := [.mk (str "Msg") [] [] [] [],
    .mk (str "P") [field "f" .message ".Msg"] [] [] [.mk (str "Msg") [] [] [] []]]

/-- `message Field {} message P { Field f = 1; }` -/
def baseName : FileDesc where
  package := []
  enums := []
  messages := [.mk (str "Field") [] [] [] [], .mk (str "P") [field "f" .message ".Field"] [] [] []]

/-- `message A { repeated int32 x = 1; message B {} } message P { A.B f = 1; }` -/
def inTemplate : FileDesc where
  package := []
  enums := []
  messages := [
    .mk (str "A") [⟨str "x", 1, true, .scalar .int32, [], .none, false, 0⟩] [] [] [.mk (str "B") [] [] [] []],
    .mk (str "P") [field "f" .message ".A.B"] [] [] []]

/-- `message A { repeated int32 x = 1; enum E {…} E e = 2; }`: used inside, the enum needs no arguments. -/
def enumInside : FileDesc where
  package := []
  enums := []
  messages := [.mk (str "A") [⟨str "x", 1, true, .scalar .int32, [], .none, false, 0⟩, field "e" .enum ".A.E"] [] [str "E"] []]

/-- The class `A` has the length of `x` as parameter. -/
def xLength : List Str → List Str := fun p => if p = [str "A"] then [str "x_REP_LENGTH"] else []

example : ∃ text, typeText xLength (definitions [enumInside]) [str "A"] (field "e" .enum ".A.E") = .ok text ∧ text = [str "E"] :=
  ⟨_, rfl, rfl⟩

/-- `package a.b; message N {}` -/
def packageAB : FileDesc := ⟨str ".a.b", [], [.mk (str "N") [] [] [] []]⟩

/-- `package c; message M { message a {} .a.b.N f = 1; }` -/
def nestedA : FileDesc where
  package := str ".c"
  enums := []
  messages := [.mk (str "M") [field "f" .message ".a.b.N"] [] [] [.mk (str "a") [] [] [] []]]

/-- `message Count {} message P { Count Count = 1; }` -/
def fieldName : FileDesc where
  package := []
  enums := []
  messages := [.mk (str "Count") [] [] [] [], .mk (str "P") [field "Count" .message ".Count"] [] [] []]

end C72Example
open C72Example

/-- **C72** fails silently: with a nested message that has the simple name of the declared type, the class has a member
of the nested type instead, and compiles. -/
theorem C72_wrong_type_false : FilesNames [sameName] ∧ ∃ m, MessageNamed [sameName] (str ".P") m ∧
    ∃ f ∈ m.fields, KnownType [sameName] f ∧ pathOf f.typeName = [str "Msg"] ∧ ∃ text,
      typeText none (definitions [sameName]) (pathOf (str ".P")) f = .ok text ∧
      (programOf none [sameName]).lookup (pathOf (str ".P")) text = .type [str "P", str "Msg"] :=
  ⟨.of_list (by decide +kernel) (by decide +kernel) (by decide +kernel), _, named 2 rfl, field "f" .message ".Msg",
    List.mem_cons_self, .inl ⟨rfl, _, named 0 rfl⟩, rfl, _, rfl, by decide +kernel⟩

/-- **C72** fails: a name of a base class, a class template, a nested message that has the name of a package, or the
field itself stands in the way, and the class does not compile. -/
theorem C72_no_type_false :
    (∃ text, typeText none (definitions [baseName]) [str "P"] (field "f" .message ".Field") = .ok text ∧
      (programOf none [baseName]).lookup [str "P"] text = .hidden) ∧
    (∃ text, typeText xLength (definitions [inTemplate]) [str "P"] (field "f" .message ".A.B") = .ok text ∧
      (programOf xLength [inTemplate]).lookup [str "P"] text = .noArguments) ∧
    (∃ text, typeText none (definitions [packageAB, nestedA]) [str "c", str "M"] (field "f" .message ".a.b.N") = .ok text ∧
      (programOf none [packageAB, nestedA]).lookup [str "c", str "M"] text = .missing) ∧
    (∃ text, typeText none (definitions [fieldName]) [str "P"] (field "Count" .message ".Count") = .ok text ∧
      (programOf none [fieldName]).lookup [str "P"] text = .hidden) :=
  ⟨⟨_, rfl, by decide +kernel⟩, ⟨_, rfl, by decide +kernel⟩, ⟨_, rfl, by decide +kernel⟩, ⟨_, rfl, by decide +kernel⟩⟩

theorem C72_false : ¬ ∀ T files, C72_Statement T files := by
  intro h
  obtain ⟨hv, m, hm, f, hf, hk, hp, text, e, hl⟩ := C72_wrong_type_false
  have := h none [sameName] hv _ m hm f hf hk text e
  rw [hl, hp] at this
  exact absurd this (by decide)

/-! ## C73: the types of the library -/

/-- The type the generator writes for a scalar (and around an enum) is the one of the library. -/
def C73_Statement (T : List Str → List Str) (files : List FileDesc) : Prop :=
  FilesNames files → T [str "EmbeddedProto"] = [] → ∀ own m, MessageNamed files own m → ∀ s,
    (programOf T files).lookup (pathOf own) (basicText s) = .type (libraryType s)

/-- **C73**, exactly when: no scope around the class, nor the class, declares something named `EmbeddedProto` that can
stand before `::`. -/
theorem C73_exact {T : List Str → List Str} {files : List FileDesc} (hv : FilesNames files)
    (hT : T [str "EmbeddedProto"] = []) {own : List Str} (s : ScalarTy) :
    (programOf T files).lookup own (basicText s) = .type (libraryType s) ↔
      ∀ k, 0 < k → k ≤ own.length → str "EmbeddedProto" ∉ (programOf T files).innerTypes (own.take k) ∧
        ¬ (programOf T files).IsScope (own.take k ++ [str "EmbeddedProto"]) := by
  have e : libraryType s = basicText s := by cases s <;> rfl
  rw [e]
  have h := (programOf T files).lookup_iff (ctx := own) (text := basicText s) (n := 0) (Nat.zero_le _)
    (.inr List.mem_cons_self) (List.mem_append_right _ (List.mem_map.mpr ⟨s, by cases s <;> decide, e⟩))
  have hh : ∀ scope, (programOf T files).Hides scope (basicText s) ↔
      str "EmbeddedProto" ∈ (programOf T files).innerTypes scope := by
    intro scope
    constructor
    · rintro ⟨x, hx, hm⟩
      obtain rfl := Option.some.inj hx
      exact hm
    · intro hm
      exact ⟨_, rfl, hm⟩
  have hnil : (programOf T files).innerTypes [] = [] := by
    show List.flatMap _ (List.filter _ (filesMsgs files)) = []
    rw [List.filter_eq_nil_iff.mpr]
    · rfl
    · rintro ⟨t, m⟩ hm
      obtain ⟨_, _, _, hf⟩ := hv.msg hm
      simpa using hf.ne
  rw [List.take_zero, List.nil_append] at h
  rw [h]
  constructor
  · rintro ⟨h1, _⟩ k hk hl
    exact ⟨mt (hh _).mpr (h1 k hk hl).1, (h1 k hk hl).2⟩
  · intro h1
    refine ⟨fun k hk hl => ⟨mt (hh _).mp (h1 k hk hl).1, (h1 k hk hl).2⟩, mt (hh _).mp (by rw [hnil]; simp), ?_⟩
    intro i h0 hi
    have : i = 1 := by
      have : (basicText s).length = 2 := rfl
      omega
    subst this
    show (!(T [str "EmbeddedProto"]).isEmpty) = false
    rw [hT]
    rfl

/-- Nothing but an outermost package is named `EmbeddedProto`. -/
structure NameFree (x : Str) (files : List FileDesc) : Prop where
  package : ∀ f ∈ files, x ∉ (pathOf f.package).tail
  enums : ∀ f ∈ files, x ∉ f.enums
  messages : ∀ f ∈ files, ∀ scope m, At f.package f.messages scope m → m.name ≠ x ∧ x ∉ m.enums ∧ x ∉ m.oneofs

namespace Gen

theorem mkOneofs_declared {own : Str} {fields : List FieldDesc} : ∀ {oneofs : List Str} {i : Nat} {os : List GOneof},
    mkOneofs own fields oneofs i = .ok os → ∀ o ∈ os, o.name ∈ oneofs
  | [], _, _, h, o, ho => by
    injection h with h
    rw [← h] at ho
    exact nomatch ho
  | n :: ns, i, os, h, o, ho => by
    unfold mkOneofs at h
    dsimp only at h
    split at h
    · exact nomatch h
    · split at h
      · exact List.mem_cons_of_mem _ (mkOneofs_declared h o ho)
      · cases e : mkOneofs own fields ns (i + 1) with
        | error _ => rw [e] at h; exact nomatch h
        | ok r =>
          rw [e] at h
          injection h with h
          subst h
          rcases List.mem_cons.mp ho with rfl | ho
          · exact List.mem_cons_self
          · exact List.mem_cons_of_mem _ (mkOneofs_declared e o ho)

theorem classTypes_free {own : Str} {m : MsgDesc} (h : str "EmbeddedProto" ∉ m.oneofs) :
    str "EmbeddedProto" ∉ classTypes own m := by
  unfold classTypes namedClass
  cases e : mkMessage own m.fields m.oneofs with
  | error _ => simp
  | ok g =>
    unfold mkMessage at e
    cases eo : mkOneofs own m.fields m.oneofs 0 with
    | error _ => rw [eo] at e; exact nomatch e
    | ok os =>
      rw [eo] at e
      injection e with e
      subst e
      intro hm
      rcases List.mem_append.mp hm with hm | hm
      · rcases List.mem_append.mp hm with hm | hm
        · rcases List.mem_cons.mp hm with hm | hm
          · exact absurd hm (by decide)
          · split at hm
            · exact nomatch hm
            · exact absurd hm (by decide)
        · obtain ⟨u, hu, e⟩ := List.mem_map.mp hm
          obtain ⟨o, ho, rfl⟩ := List.mem_map.mp hu
          exact h (e ▸ mkOneofs_declared eo o ho)
      · exact absurd hm (by decide)

theorem libraryType_ne (s : ScalarTy) : (libraryType s).getLast? ≠ some (str "EmbeddedProto") := by
  cases s <;> decide

end Gen

/-- **C73**, for files in which nothing but an outermost package is named `EmbeddedProto`. -/
theorem C73_partial {T : List Str → List Str} {files : List FileDesc} (hf : NameFree (str "EmbeddedProto") files) :
    C73_Statement T files := by
  intro hv hT own m _ s
  rw [C73_exact hv hT]
  intro k hk hl
  refine ⟨?_, ?_⟩
  · intro hm
    obtain ⟨⟨t, m⟩, hm, hx⟩ := List.mem_flatMap.mp hm
    obtain ⟨f, hff, scope, hat, _⟩ := mem_filesMsgs.mp (List.mem_filter.mp hm).1
    exact classTypes_free (hf.messages f hff scope m hat).2.2 hx
  · have hne : (pathOf own).take k ≠ [] := by
      intro e
      have := congrArg List.length e
      rw [List.length_take, List.length_nil] at this
      omega
    generalize (pathOf own).take k = p at hne
    have hlast : ∀ {q : List Str} {n : Str}, q ++ [n] = p ++ [str "EmbeddedProto"] → n = str "EmbeddedProto" :=
      fun e => (List.cons.inj (List.append_inj' e rfl).2).1
    rintro (h | h)
    · rcases List.mem_append.mp h with h | h
      · rcases List.mem_append.mp h with h | h
        · obtain ⟨t, ht, e⟩ := List.mem_map.mp h
          obtain ⟨f, hff, ⟨n, hn, rfl⟩ | ⟨scope, m, hat, n, hn, rfl⟩⟩ := mem_filesEnums.mp ht
          · rw [pathOf_dot (hv.enums f hff n hn).2.1] at e
            exact hf.enums f hff (hlast e ▸ hn)
          · rw [pathOf_dot ((hv.messages f hff scope m hat).2 n hn).2.1] at e
            exact (hf.messages f hff scope m hat).2.1 (hlast e ▸ hn)
        · obtain ⟨⟨t, m⟩, ht, e⟩ := List.mem_map.mp h
          obtain ⟨f, hff, scope, hat, rfl⟩ := mem_filesMsgs.mp ht
          have e : pathOf (dot scope m.name) = _ := e
          rw [pathOf_dot (hv.messages f hff scope m hat).1.2.1] at e
          exact (hf.messages f hff scope m hat).1 (hlast e)
      · obtain ⟨s, _, e⟩ := List.mem_map.mp h
        exact libraryType_ne s (by rw [e, List.getLast?_concat])
    · rcases List.mem_cons.mp h with h | h
      · have := congrArg List.length h
        rw [List.length_append] at this
        have := List.length_pos_iff.mpr hne
        simp only [List.length_singleton] at *
        omega
      · obtain ⟨f, hff, h⟩ := List.mem_flatMap.mp h
        obtain ⟨i, _, e⟩ := List.mem_map.mp h
        refine hf.package f hff ?_
        have hm : str "EmbeddedProto" ∈ ((pathOf f.package).take (i + 1)).tail := by
          rw [e]
          cases p with
          | nil => exact absurd rfl hne
          | cons x xs => exact List.mem_append_right _ List.mem_cons_self
        cases hp : pathOf f.package with
        | nil => rw [hp] at hm; exact nomatch hm
        | cons x xs =>
          rw [hp] at hm
          exact List.mem_of_mem_take hm

namespace C72Example

/-- `NameFree`, by going through the list of all messages. -/
theorem free_of_list {x : Str} {files : List FileDesc} (h1 : ∀ f ∈ files, x ∉ (pathOf f.package).tail)
    (h2 : ∀ f ∈ files, x ∉ f.enums)
    (h3 : ∀ m ∈ filesMsgs files, m.2.name ≠ x ∧ x ∉ m.2.enums ∧ x ∉ m.2.oneofs) : NameFree x files :=
  ⟨h1, h2, fun f hf scope m hat => h3 (_, m) (mem_filesMsgs.mpr ⟨f, hf, scope, hat, rfl⟩)⟩

/-- Also in a package `EmbeddedProto.x`. -/
def inLibrary : FileDesc := ⟨str ".EmbeddedProto.x", [str "E"], [.mk (str "P") [] [] [] []]⟩

example : ∀ s, (programOf none [good, inLibrary]).lookup (pathOf (str ".EmbeddedProto.x.P")) (basicText s) = .type (libraryType s) :=
  C73_partial (free_of_list (by decide +kernel) (by decide +kernel) (by decide +kernel))
    (.of_list (by decide +kernel) (by decide +kernel) (by decide +kernel)) rfl _ _ (named 4 rfl)

/-- `package a.EmbeddedProto; message P { int32 x = 1; }` -/
def innerPackage : FileDesc :=
  ⟨str ".a.EmbeddedProto", [], [.mk (str "P") [⟨str "x", 1, false, .scalar .int32, [], .none, false, 0⟩] [] [] []]⟩

/-- `message P { oneof EmbeddedProto { int32 x = 1; } }` -/
def oneofName : FileDesc :=
  ⟨[], [], [.mk (str "P") [⟨str "x", 1, false, .scalar .int32, [], some 0, false, 0⟩] [str "EmbeddedProto"] [] []]⟩

end C72Example

/-- **C73** fails for a package with an inner part `EmbeddedProto`, and for a oneof of that name. -/
theorem C73_cases_false :
    (programOf none [innerPackage]).lookup (pathOf (str ".a.EmbeddedProto.P")) (basicText .int32) = .missing ∧
    (programOf none [oneofName]).lookup (pathOf (str ".P")) (basicText .int32) = .hidden := by
  decide +kernel

theorem C73_false : ¬ ∀ T files, C73_Statement T files := by
  intro h
  have := h none [innerPackage] (.of_list (by decide +kernel) (by decide +kernel) (by decide +kernel)) rfl
    (str ".a.EmbeddedProto.P") _ (named 0 rfl) .int32
  rw [C73_cases_false.1] at this
  exact nomatch this

end EP
