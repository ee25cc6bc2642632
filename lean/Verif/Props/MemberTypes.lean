import Verif.Proof.CppTypes
import Verif.Props.Header

/-!
# C96: what the types and the initial values in a header mean
-/

namespace EP
open Gen

namespace Gen

theorem class_ready {V : Str → List (Str × Int)} {request : List ReqFile} (hw : WordRequest V request)
    (hv : PrintableRequest request) {files : List ReqFile} {P : Str → List Str} (hp : prepare request = .ok (files, P)) :
    ∀ o ∈ (plugin request).files, ∀ scope c, OutAt o.package o.classes scope c → ClassReady P scope c := by
  intro o ho scope c hc
  obtain ⟨h1, h2⟩ := prepare_ok hp
  unfold plugin at ho
  rw [hp] at ho
  obtain ⟨f, hf, hr⟩ := renderFiles_from o ho
  obtain ⟨_, e2, _, e4⟩ := renderFile_ok hr
  rw [e2] at hc
  obtain ⟨m, hm, hm'⟩ := hc.at e4
  exact classReady (hw.opened h1) (hv.opened h1) h2 hf hm hm'

/-- The names in the types of the members, as in C72 and C73: the path that the generator writes for a type stands for this
type, and does not begin with the namespace of the library; template parameters have the values given by `args`. -/
structure Stands (N : Cpp.Names) (files : List ReqFile) (P : Str → List Str) (inner : Str → List Nat → Option ElemTy)
    (own : Str) (args : List Nat) (f : FieldDesc) : Prop where
  number : N.number = argument (P own) args
  type : ∀ scopes, Gen.typeText (fun p => P (nameOf p)) (definitions (files.map (·.desc))) (pathOf own) f = .ok scopes →
    (f.type = .message → scopes.head? ≠ some (Cpp.librarySpace) ∧ N.message scopes = inner f.typeName) ∧
    (f.type = .enum → N.enum scopes = true)

theorem Stands.names {N : Cpp.Names} {files : List ReqFile} {P : Str → List Str} {inner : Str → List Nat → Option ElemTy}
    {own : Str} {args : List Nat} {f : FieldDesc} (h : Stands N files P inner own args f) {scopes : List Str}
    (hs : f.type = .message ∨ f.type = .enum →
      Gen.typeText (fun p => P (nameOf p)) (definitions (files.map (·.desc))) (pathOf own) f = .ok scopes) :
    Cpp.NamesFor N P inner own args scopes f :=
  ⟨h.number, fun ht => ((h.type _ (hs (.inl ht))).1 ht).1, fun ht => ((h.type _ (hs (.inl ht))).1 ht).2,
    fun ht => (h.type _ (hs (.inr ht))).2 ht⟩

end Gen

/-- **C96**: the types of the data members in the text of a class, read as C++, are those of the class that the theorems are
about, for all values of the template parameters. -/
theorem C96_members {V : Str → List (Str × Int)} {request : List ReqFile} (hw : WordRequest V request)
    (hv : PrintableRequest request) {files : List ReqFile} {P : Str → List Str} (hp : prepare request = .ok (files, P))
    {o : OutFile} (ho : o ∈ (plugin request).files) {scope : Str} {c : OutClass} (hc : OutAt o.package o.classes scope c)
    {inner : Str → List Nat → Option ElemTy} {args : List Nat} {N : Cpp.Names}
    (hN : ∀ g ∈ c.message.fields ++ c.message.oneofs.flatMap (·.fields), g.shape ≠ .recursive →
      g.desc.type ≠ .scalar .enumeration ∧ memberOK P inner (dot scope c.name) args g = true ∧
        Stands N files P inner (dot scope c.name) args g.desc) (enums classes : List (List Jinja.Tok)) :
    let E := instanceTypes P inner (dot scope c.name) args
    let tree := Cpp.treeOf P (dot scope c.name) enums classes c
    tree.vars.mapM (fun v => Cpp.readMember N (Jinja.toks v.type)) =
        some (Cpp.fieldMembers (classFields E c.message.fields)) ∧
      tree.oneofs.mapM (fun o => o.members.mapM fun p => Cpp.readElem N (Jinja.toks p.1)) =
        some (Cpp.oneofMembers (classOneofs E c.message.oneofs)) := by
  intro E tree
  have hm := (C83_partial V request hw hv).members files P hp o ho scope c hc
  have hr := (class_ready hw hv hp o ho scope c hc).regular
  constructor
  · rw [Cpp.fieldMembers_classFields]
    show ((c.message.fields.filter fun g => g.shape != .recursive).map _).mapM _ = _
    rw [List.mapM_map]
    refine Cpp.mapM_some fun g hg => ?_
    obtain ⟨hg, hs⟩ := List.mem_filter.mp hg
    have hs : g.shape ≠ .recursive := by simpa using hs
    have hg := List.mem_append_left (c.message.oneofs.flatMap (·.fields)) hg
    obtain ⟨scopes, e, ht⟩ := hm g hg hs
    obtain ⟨h1, h2, h3⟩ := hN g hg hs
    show Cpp.readMember N (Jinja.toks (Jinja.typeText (Jinja.spellingOf P (dot scope c.name) c.types) g)) = _
    rw [e]
    exact Cpp.readMember_memberToks (h3.names ht) hs h1 h2
  · rw [Cpp.oneofMembers_classOneofs E _ hr.single]
    show (c.message.oneofs.map _).mapM _ = _
    rw [List.mapM_map]
    refine Cpp.mapM_some fun o ho => ?_
    show (o.fields.map _).mapM _ = _
    rw [List.mapM_map]
    refine Cpp.mapM_some fun g hg => ?_
    have hsi := hr.single o ho g hg
    have hs : g.shape ≠ .recursive := by rw [hsi]; exact nofun
    have hg : g ∈ c.message.fields ++ c.message.oneofs.flatMap (·.fields) :=
      List.mem_append_right _ (List.mem_flatMap.mpr ⟨o, ho, hg⟩)
    obtain ⟨scopes, e, ht⟩ := hm g hg hs
    obtain ⟨h1, h2, h3⟩ := hN g hg hs
    have e1 : Jinja.typeText (Jinja.spellingOf P (dot scope c.name) c.types) g =
        Jinja.elemType (Jinja.spellingOf P (dot scope c.name) c.types) g.desc := by
      unfold Jinja.typeText; rw [hsi]
    have e2 : Cpp.memberToks P (dot scope c.name) scopes g = Cpp.elemToks P (dot scope c.name) scopes g.desc := by
      unfold Cpp.memberToks; rw [hsi]
    rw [e1, e2] at e
    show Cpp.readElem N (Jinja.toks (Jinja.elemType (Jinja.spellingOf P (dot scope c.name) c.types) g.desc)) = _
    rw [e]
    exact Cpp.readElem_elemToks (h3.names ht) hs h1 h2

/-- **C96**, scalars: the type in `set_x`, `get_x` and `x()` is that of the value in the member, and the initial value in the
text is a literal of this type with the value zero; it is also what the member is compared with before it is serialized. -/
theorem C96_values (S : Jinja.Spelling) (g : GField) {s : ScalarTy} (hg : g.shape = .single) (ht : g.desc.type = .scalar s)
    (hs : s ≠ .enumeration) :
    Cpp.readType ((Cpp.valueType S g).flatMap Jinja.Tok.expand) = Cpp.variableType s ∧
      ((Cpp.varOf S g).init.bind fun t => (Cpp.readLiteral (Jinja.toks t)).bind (Cpp.Literal.value s)) = some s.zero ∧
      ∀ o, (Cpp.readLiteral (Jinja.toks (Cpp.serOf S o g).1)).bind (Cpp.Literal.value s) = some s.zero := by
  have hl : (Cpp.readLiteral (Jinja.toks (Jinja.defaultValue s))).bind (Cpp.Literal.value s) = some s.zero := by
    cases s with
    | enumeration => exact absurd rfl hs
    | _ => rfl
  refine ⟨?_, ?_, fun o => ?_⟩
  · unfold Cpp.valueType
    rw [ht]
    cases s with
    | enumeration => exact absurd rfl hs
    | _ => rfl
  · unfold Cpp.varOf Cpp.zeroOf
    rw [hg, ht]
    exact hl
  · unfold Cpp.serOf Cpp.zeroOf
    rw [ht]
    exact hl

/-- **C96**, template parameters: they are of type `uint32_t`, and have the names of the parameters of the class. -/
theorem C96_templates (P : Str → List Str) (own : Str) (enums classes : List (List Jinja.Tok)) (c : OutClass) :
    (Cpp.treeOf P own enums classes c).templates.mapM Cpp.readParam = some (c.params.map (Cpp.CType.unsigned 32, ·)) := by
  show (((c.params.map fun p => (_, p)).map _).mapM _) = _
  rw [List.map_map, List.mapM_map]
  exact Cpp.mapM_some fun p _ => rfl

namespace Gen

theorem toks_after {a t : Str} {k e : List Jinja.Tok} (ha : Jinja.lexFrom .start (Jinja.lit a) = (k, .start))
    (ht : Jinja.toks t = e) : Jinja.toks (a ++ t) = k ++ e := by
  rw [Jinja.toks_eq] at ht ⊢
  rw [Jinja.lit_append, List.append_assoc, Jinja.lexFrom_append, ha, ← ht]

theorem class_scopes {V : Str → List (Str × Int)} {request : List ReqFile} (hw : WordRequest V request)
    (hv : PrintableRequest request) {files : List ReqFile} {P : Str → List Str} (hp : prepare request = .ok (files, P))
    {o : OutFile} (ho : o ∈ (plugin request).files) {scope : Str} {c : OutClass} (hc : OutAt o.package o.classes scope c)
    {g : GField} (hg : g ∈ c.message.fields ++ c.message.oneofs.flatMap (·.fields)) (hs : g.shape ≠ .recursive)
    (ht : g.desc.type = .message ∨ g.desc.type = .enum) :
    Gen.typeText (fun p => P (nameOf p)) (definitions (files.map (·.desc))) (pathOf (dot scope c.name)) g.desc =
        .ok (Jinja.scopesOf c.types g.desc) ∧ Jinja.scopesOf c.types g.desc ≠ [] := by
  have hr := class_ready hw hv hp o ho scope c hc
  unfold plugin at ho
  rw [hp] at ho
  obtain ⟨f, hf, hrf⟩ := renderFiles_from o ho
  obtain ⟨_, e2, _, e4⟩ := renderFile_ok hrf
  rw [e2] at hc
  obtain ⟨m, _, hm⟩ := hc.at e4
  obtain ⟨types, en, _, _, ht', e⟩ := renderClass_ok hm
  have et : c.types = types := by rw [e]; rfl
  obtain ⟨text, h1, h2⟩ := memberTypes_mem ht' g hg hs ht
  refine ⟨?_, ?_⟩
  · rw [et, en]
    exact scopesOf_spec (R := fun f p => Gen.typeText _ _ _ f = .ok p) (memberTypes_words (fun _ _ h => h) ht') ⟨text, h1⟩
  · exact scopesOf_spec (R := fun _ p => p ≠ []) (fun p hp => (hr.words.types p hp).1) ⟨text, et ▸ h1⟩

end Gen

/-- **C96**, enums: the type in `set_x`, `get_x` and `x()` is the path of the enum, which is also that in the type of the
member, and the initial value is zero, cast to this type. -/
theorem C96_enums {V : Str → List (Str × Int)} {request : List ReqFile} (hw : WordRequest V request)
    (hv : PrintableRequest request) {files : List ReqFile} {P : Str → List Str} (hp : prepare request = .ok (files, P))
    {o : OutFile} (ho : o ∈ (plugin request).files) {scope : Str} {c : OutClass} (hc : OutAt o.package o.classes scope c)
    {g : GField} (hg : g ∈ c.message.fields ++ c.message.oneofs.flatMap (·.fields)) (hs : g.shape = .single)
    (ht : g.desc.type = .enum) :
    let S := Jinja.spellingOf P (dot scope c.name) c.types
    ∃ scopes, Gen.typeText (fun p => P (nameOf p)) (definitions (files.map (·.desc))) (pathOf (dot scope c.name)) g.desc =
        .ok scopes ∧
      (Cpp.valueType S g).flatMap Jinja.Tok.expand = Cpp.scopeToks scopes ∧
      (Cpp.varOf S g).init.map Jinja.toks = some (cpp! "static_cast<" ++ Cpp.scopeToks scopes ++ cpp! ">(0)") ∧
      ∀ o, Jinja.toks (Cpp.serOf S o g).1 = cpp! "static_cast<" ++ Cpp.scopeToks scopes ++ cpp! ">(0)" := by
  intro S
  have hr := class_ready hw hv hp o ho scope c hc
  obtain ⟨h1, _⟩ := class_scopes hw hv hp ho hc hg (by rw [hs]; exact nofun) (.inr ht)
  have hz : Jinja.toks (Cpp.zeroOf S g) = cpp! "static_cast<" ++ Cpp.scopeToks (Jinja.scopesOf c.types g.desc) ++ cpp! ">(0)" := by
    have hj := ((hr.words.scope g.desc).join Jinja.between_greater
      (Jinja.spells_nil.join (⟨by decide, by decide⟩ : Jinja.Between '(' [Jinja.Tok.sym '(']) ((Jinja.spells_repr 0).join (⟨by decide, by decide⟩ : Jinja.Between ')' [Jinja.Tok.sym ')']) Jinja.spells_nil))).toks
    have ha : Jinja.lexFrom .start (Jinja.lit (chars! "static_cast<")) = (cpp! "static_cast<", .start) := by kernel_rfl
    have et : Cpp.zeroOf S g = chars! "static_cast<" ++ (scopeStr (Jinja.scopesOf c.types g.desc) ++
        '>' :: ([] ++ '(' :: ((Nat.repr 0).toList ++ [')']))) := by
      unfold Cpp.zeroOf
      rw [ht]
      exact List.append_assoc ..
    rw [et, toks_after ha hj, List.append_assoc]
    rfl
  refine ⟨_, h1, ?_, ?_, fun o => hz⟩
  · unfold Cpp.valueType
    rw [ht]
    show Jinja.toks _ ++ [] = _
    rw [List.append_nil]
    exact (hr.words.scope g.desc).toks
  · unfold Cpp.varOf
    rw [hs, ht]
    exact congrArg some hz

/-- **C96**, messages: the type in `set_x`, `get_x`, `x()` and `mutable_x` is that of the member, and the name in the call of
the destructor of a member of a oneof is the last one of the path of this type, with the same template arguments. -/
theorem C96_messages {V : Str → List (Str × Int)} {request : List ReqFile} (hw : WordRequest V request)
    (hv : PrintableRequest request) {files : List ReqFile} {P : Str → List Str} (hp : prepare request = .ok (files, P))
    {o : OutFile} (ho : o ∈ (plugin request).files) {scope : Str} {c : OutClass} (hc : OutAt o.package o.classes scope c)
    {g : GField} (hg : g ∈ c.message.fields ++ c.message.oneofs.flatMap (·.fields)) (hs : g.shape = .single)
    (ht : g.desc.type = .message) :
    let S := Jinja.spellingOf P (dot scope c.name) c.types
    ∃ scopes args, Gen.typeText (fun p => P (nameOf p)) (definitions (files.map (·.desc))) (pathOf (dot scope c.name)) g.desc =
        .ok scopes ∧
      Jinja.toks (Jinja.typeText S g) = Cpp.scopeToks scopes ++ args ∧
      (Cpp.valueType S g).flatMap Jinja.Tok.expand = Cpp.scopeToks scopes ++ args ∧
      ∀ v, ∃ x name, scopes.getLast? = some x ∧ Cpp.destroyAct S v g = .destroy v name ∧
        name.flatMap Jinja.Tok.expand = .id x :: args := by
  intro S
  have hr := class_ready hw hv hp o ho scope c hc
  obtain ⟨h1, h2⟩ := class_scopes hw hv hp ho hc hg (by rw [hs]; exact nofun) (.inl ht)
  have hm := (hr.words.message (hr.fields g hg).1).toks
  obtain ⟨x, _, hx, he⟩ := hr.words.short (hr.fields g hg).1 h2
  refine ⟨_, Cpp.argToks ((P g.desc.typeName).map (innerParam (dot scope c.name) g.desc)), h1, ?_, ?_, fun v => ⟨x, [.raw (S.short g.desc)], hx, ?_, ?_⟩⟩
  · unfold Jinja.typeText Jinja.elemType
    rw [hs, ht]
    exact hm
  · unfold Cpp.valueType Jinja.elemType
    rw [ht]
    show Jinja.toks _ ++ [] = _
    rw [List.append_nil]
    exact hm
  · unfold Cpp.destroyAct
    rw [ht]
  · show Jinja.toks _ ++ [] = _
    rw [List.append_nil]
    exact he.toks

/-! ## Examples -/

namespace C96Example
open C80Example C83Example

def names : Cpp.Names where
  number x := if x = str "N" then some 3 else none
  message p l := if p = [str "b", str "Item"] ∧ l = [3] then some (.str 7) else none
  enum p := p = [str "Color"]

/-- Some types. -/
example : Cpp.readMember names (cpp! "::EmbeddedProto::RepeatedFieldFixedSize<EmbeddedProto::sint64, 12>") =
      some (.many 12 (.scalar .sint64)) ∧
    Cpp.readMember names (cpp! "::EmbeddedProto::RepeatedFieldFixedSize<::EmbeddedProto::FieldBytes<N>, 4>") =
      some (.many 4 (.str 3)) ∧
    Cpp.readMember names (cpp! "b::Item<N>") = some (.one (.str 7)) ∧
    Cpp.readMember names (cpp! "EmbeddedProto::enumeration<Color>") = some (.one (.scalar .enumeration)) ∧
    (Cpp.readMember names (cpp! "EmbeddedProto::uint33")).isNone := ⟨rfl, rfl, rfl, rfl, rfl⟩

def own : Str := str ".b.Person"

/-- What the paths in `Person` stand for. -/
def resolve (p : List Str) : Str :=
  if p = [str "a", str "Name"] then str ".a.Name" else if p = [str "Item"] then str ".b.Item"
  else if p = [str "Item", str "Part"] then str ".b.Item.Part" else []

def inner (files : List ReqFile) (P : Str → List Str) : Str → List Nat → Option ElemTy :=
  instantiate (files.map fun f => (f.desc.package, f.desc.messages)) P 3

/-- The names in `Person<7, 3>`. -/
def personNames (files : List ReqFile) (P : Str → List Str) : Cpp.Names where
  number := argument (P own) [7, 3]
  message p := inner files P (resolve p)
  enum p := p == [str "a", str "Color"] || p == [str "Item", str "Kind"]

def fine (files : List ReqFile) (P : Str → List Str) (g : GField) : Bool :=
  g.desc.type != .scalar .enumeration && memberOK P (inner files P) own [7, 3] g &&
  match Gen.typeText (fun p => P (nameOf p)) (definitions (files.map (·.desc))) (pathOf own) g.desc with
  | .ok scopes =>
    (g.desc.type != .message || (scopes.head? != some Cpp.librarySpace && resolve scopes == g.desc.typeName)) &&
    (g.desc.type != .enum || (personNames files P).enum scopes)
  | .error _ => true

theorem fine_spec {files : List ReqFile} {P : Str → List Str} {g : GField} (h : fine files P g = true) :
    g.desc.type ≠ .scalar .enumeration ∧ memberOK P (inner files P) own [7, 3] g = true ∧
      Stands (personNames files P) files P (inner files P) own [7, 3] g.desc := by
  unfold fine at h
  rw [Bool.and_eq_true, Bool.and_eq_true] at h
  obtain ⟨⟨h1, h2⟩, h3⟩ := h
  refine ⟨by simpa using h1, h2, rfl, fun scopes e => ?_⟩
  rw [e] at h3
  dsimp only at h3
  rw [Bool.and_eq_true] at h3
  refine ⟨fun ht => ?_, fun ht => ?_⟩
  · have := h3.1
    rw [ht] at this
    simp only [bne_self_eq_false, Bool.false_or, Bool.and_eq_true, bne_iff_ne, ne_eq, beq_iff_eq] at this
    exact ⟨this.1, by show inner files P (resolve scopes) = _; rw [this.2]⟩
  · have := h3.2
    rw [ht] at this
    simpa using this

/-- `Person` is the first class of its file. -/
def check : Bool :=
  match prepare request with
  | .ok (files, P) => match (plugin request).files[1]? with
    | some o => match o.classes.find? (·.name = str "Person") with
      | some c => o.package == str ".b" && (P own).length == 2 && c.message.fields.length == 5 &&
          (c.message.fields ++ c.message.oneofs.flatMap (·.fields)).all (fine files P)
      | none => false
    | none => false
  | .error _ => false

theorem check_true : check = true := by decide +kernel

/-- The hypotheses hold for a class with members of other classes, enums, a repeated field and two template parameters. -/
example : ∃ files P o c, prepare request = .ok (files, P) ∧ o ∈ (plugin request).files ∧
    OutAt o.package o.classes (str ".b") c ∧ c.message.fields.length = 5 ∧ (P own).length = 2 ∧
    ((Cpp.treeOf P own [] [] c).vars.mapM fun v => Cpp.readMember (personNames files P) (Jinja.toks v.type)) =
      some (Cpp.fieldMembers (classFields (instanceTypes P (inner files P) own [7, 3]) c.message.fields)) := by
  have h := check_true
  unfold check at h
  split at h
  · rename_i files P hp
    split at h
    · rename_i o ho
      split at h
      · rename_i c hc
        simp only [Bool.and_eq_true, beq_iff_eq, List.all_eq_true] at h
        obtain ⟨⟨⟨h1, h2⟩, h3⟩, h4⟩ := h
        have hn : c.name = str "Person" := by simpa using List.find?_some hc
        have hat : OutAt o.package o.classes (str ".b") c := h1 ▸ .here (List.mem_of_find?_eq_some hc)
        have hd : dot (str ".b") c.name = own := by rw [hn]; rfl
        have ho := List.mem_of_getElem? ho
        refine ⟨files, P, o, c, hp, ho, hat, h3, h2, ?_⟩
        have := (C96_members words printable hp ho hat (inner := inner files P) (args := [7, 3]) (N := personNames files P)
          (fun g hg _ => by rw [hd]; exact fine_spec (h4 g hg)) [] []).1
        rw [hd] at this
        exact this
      · exact nomatch h
    · exact nomatch h
  · exact nomatch h

/-- The fields of `Person` that hold an enum or a message: there is one of `.b.Item.Kind`, and one of `.b.Item.Part`. -/
def named : Bool :=
  match prepare request with
  | .ok (_, _) => match (plugin request).files[1]? with
    | some o => match o.classes.find? (·.name = str "Person") with
      | some c => o.package == str ".b" &&
          match c.message.fields.find? (·.desc.name = str "kind"), c.message.fields.find? (·.desc.name = str "part") with
          | some g, some g' => g.shape == .single && g.desc.type == .enum && g'.shape == .single && g'.desc.type == .message
          | _, _ => false
      | none => false
    | none => false
  | .error _ => false

theorem named_true : named = true := by decide +kernel

/-- The hypotheses of `C96_enums` and `C96_messages` hold for fields of this class. -/
example : ∃ files P o c g g', prepare request = .ok (files, P) ∧ o ∈ (plugin request).files ∧
    OutAt o.package o.classes (str ".b") c ∧ g ∈ c.message.fields ++ c.message.oneofs.flatMap (·.fields) ∧
    g' ∈ c.message.fields ++ c.message.oneofs.flatMap (·.fields) ∧ (g.shape = .single ∧ g.desc.type = .enum) ∧
    g'.shape = .single ∧ g'.desc.type = .message := by
  have h := named_true
  unfold named at h
  split at h
  · rename_i files P hp
    split at h
    · rename_i o ho
      split at h
      · rename_i c hc
        rw [Bool.and_eq_true] at h
        obtain ⟨h0, h⟩ := h
        split at h
        · rename_i g g' hg hg'
          simp only [Bool.and_eq_true, beq_iff_eq] at h h0
          obtain ⟨⟨⟨h1, h2⟩, h3⟩, h4⟩ := h
          exact ⟨files, P, o, c, g, g', hp, List.mem_of_getElem? ho, h0 ▸ .here (List.mem_of_find?_eq_some hc),
            List.mem_append_left _ (List.mem_of_find?_eq_some hg), List.mem_append_left _ (List.mem_of_find?_eq_some hg'),
            ⟨h1, h2⟩, h3, h4⟩
        · exact nomatch h
      · exact nomatch h
    · exact nomatch h
  · exact nomatch h

end C96Example

end EP
