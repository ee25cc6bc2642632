import Verif.Proof.HeaderClass

/-!
# The text of TypeDefMsg.h
-/

namespace EP.Gen.Jinja

open Cpp Parsed

/-- What the text relies on. -/
structure Regular (m : GMessage) : Prop where
  /-- `optional_fields` are the fields marked so — TypeDefinitions.py:137-141 -/
  optional : m.optionalFields = m.fields.filter (·.desc.proto3Optional)
  /-- members of a oneof are not repeated, nor of the type of the message itself -/
  single : ∀ o ∈ m.oneofs, ∀ g ∈ o.fields, g.shape = .single
  /-- a field marked `optional` is not a member of a oneof (which are not synthetic) -/
  plain : ∀ o ∈ m.oneofs, ∀ g ∈ o.fields, g.desc.proto3Optional = false

variable {T : Typedef} {S : Spelling}

/-- `field in typedef.optional_fields` -/
theorem isIn_optional (h : Regular T.m) {g : GField} (hg : g ∈ T.m.fields) :
    (Val.field none g).isIn (.list (T.m.optionalFields.map (.field none))) = g.desc.proto3Optional := by
  rw [h.optional]
  show List.any _ _ = _
  rw [List.any_map]
  cases hp : g.desc.proto3Optional with
  | true => exact List.any_eq_true.mpr ⟨g, by simp [hg, hp], by simp⟩
  | false =>
    rw [List.any_eq_false]
    intro x hx he
    have : g = x := by simpa using he
    subst this
    rw [List.mem_filter, hp] at hx
    exact absurd hx.2 (by decide)

theorem truth_optional (h : Regular T.m) {g : GField} (hg : g ∈ T.m.fields) (b c : Bool) :
    (eval T S (renderCall T S) ((typedefEnv.set .field (.field none g)).set .loop (.loop b c))
      (.and (.isDefined (.attr (.var .typedef) .optional_fields))
        (.mem (.var .field) (.attr (.var .typedef) .optional_fields)))).truth = g.desc.proto3Optional :=
  (show _ = (Val.field none g).isIn (.list (T.m.optionalFields.map (.field none))) by kernel_rfl).trans
    (isIn_optional h hg)

/-- The statements in the copy constructors and in `operator=` for a field. -/
theorem lexes_assignField (h : Regular T.m) {g : GField} (hg : g ∈ T.m.fields) (b c : Bool) :
    Lexes (render T S (renderCall T S) ((typedefEnv.set .field (.field none g)).set .loop (.loop b c)) typeDefMsg_3_body)
      (assignOf g).print ∧
    Lexes (render T S (renderCall T S) ((typedefEnv.set .field (.field none g)).set .loop (.loop b c)) typeDefMsg_17_body)
      (assignOf g).print := by
  have ht := truth_optional (S := S) h hg b c
  rw [typeDefMsg_3_body, render_ite, ht, typeDefMsg_17_body, render_ite, ht]
  obtain ⟨⟨x, _, _, t, _, _, p, _⟩, sh, _⟩ := g
  cases p
  · exact ⟨by lexes, by lexes⟩
  · exact ⟨by lexes, by lexes⟩

/-- The loop over the template parameters. -/
theorem lexes_params {f : Bool → Bool → Val → Text} {α : Type} (h : α → Val) (p : α → List Tok) (a c z : List Tok)
    (ht : ∀ x, Lexes (f true true (h x)) (a ++ (p x ++ z))) (htf : ∀ x, Lexes (f true false (h x)) (a ++ (p x ++ c)))
    (hf : ∀ x, Lexes (f false true (h x)) (p x ++ z)) (hff : ∀ x, Lexes (f false false (h x)) (p x ++ c)) :
    (∀ l : List α, l ≠ [] → Lexes (loopText f false (l.map h)) (sep c (l.map p) ++ z)) ∧
    (∀ l : List α, l ≠ [] → Lexes (loopText f true (l.map h)) (a ++ sep c (l.map p) ++ z)) := by
  have h1 : ∀ l : List α, l ≠ [] → Lexes (loopText f false (l.map h)) (sep c (l.map p) ++ z) := by
    intro l
    induction l with
    | nil => intro h; exact absurd rfl h
    | cons x l ih =>
      intro _
      cases l with
      | nil => simpa [loopText, sep] using hf x
      | cons y l =>
        have := (hff x).append (ih (by simp))
        rw [← List.append_assoc] at this
        exact this
  refine ⟨h1, ?_⟩
  intro l hl
  cases l with
  | nil => exact absurd rfl hl
  | cons x l =>
    cases l with
    | nil => simpa [loopText, sep] using ht x
    | cons y l =>
      have := (htf x).append (h1 (y :: l) (by simp))
      show Lexes (f true false (h x) ++ loopText f false ((y :: l).map h)) _
      simp only [List.append_assoc] at this ⊢
      simpa only [List.map_cons, sep, List.append_assoc] using this

theorem lexes_templates (enums classes : List (List Tok)) :
    Lexes (render T S (renderCall T S) typedefEnv typeDefMsg_1) (classOf S T enums classes).printTemplates := by
  show Lexes (loopText _ true (T.templates.map fun p => Val.param p.1 p.2) ++ []) _
  refine Lexes.append_nil ?_
  show Lexes _ (match T.templates.map fun p => [Tok.raw p.1, .id p.2] with
    | [] => []
    | ts => cpp! "template<" ++ sep (cpp! ",") ts ++ cpp! ">")
  cases T.templates with
  | nil => exact Lexes.nil
  | cons p l =>
    exact (lexes_params (fun p : Str × Str => Val.param p.1 p.2) (fun p => [Tok.raw p.1, .id p.2]) (cpp! "template<")
      (cpp! ",") (cpp! ">") (fun x => by lexes) (fun x => by lexes) (fun x => by lexes) (fun x => by lexes)).2
      (p :: l) (by simp)

section
variable (h : Regular T.m)
include h

theorem lexes_3 : Lexes (render T S (renderCall T S) typedefEnv typeDefMsg_3) (stmts (T.m.fields.map assignOf)) :=
  lexes_for (.field none) (fun g => (assignOf g).print) T.m.fields rfl (fun _ hg b c => (lexes_assignField h hg b c).1)
    (flatMap_map ..)

theorem lexes_6 : Lexes (render T S (renderCall T S) typedefEnv typeDefMsg_6) (stmts (T.m.fields.map assignOf)) :=
  lexes_for (.field none) (fun g => (assignOf g).print) T.m.fields rfl (fun _ hg b c => (lexes_assignField h hg b c).1)
    (flatMap_map ..)

theorem lexes_14 : Lexes (render T S (renderCall T S) typedefEnv typeDefMsg_14) (stmts (T.m.fields.map assignOf)) :=
  lexes_for (.field none) (fun g => (assignOf g).print) T.m.fields rfl (fun _ hg b c => (lexes_assignField h hg b c).1)
    (flatMap_map ..)

theorem lexes_17 : Lexes (render T S (renderCall T S) typedefEnv typeDefMsg_17) (stmts (T.m.fields.map assignOf)) :=
  lexes_for (.field none) (fun g => (assignOf g).print) T.m.fields rfl (fun _ hg b c => (lexes_assignField h hg b c).2)
    (flatMap_map ..)

theorem lexes_21 : Lexes (render T S (renderCall T S) typedefEnv typeDefMsg_21)
    ((T.m.oneofs.map (oneofOf S)).flatMap COneof.printPublic) := by
  refine lexes_for .oneof (fun o => (oneofOf S o).printPublic) T.m.oneofs rfl (fun o ho b c => ?_) (flatMap_map ..)
  refine lexes_append (by lexes) ?_
  refine lexes_for (.field (some o)) (fun g => (fieldOf S (some o) g).print) o.fields rfl (fun g hg b c => ?_)
    (flatMap_map ..)
  refine lexes_before (by lexes) (lexes_after ?_ (by lexes))
  exact (lexes_get_set T S (some o) g fun _ => by rw [h.single o ho g hg]; decide).indent.append_nil

theorem lexes_42 : Lexes (render T S (renderCall T S) typedefEnv typeDefMsg_42)
    ((T.m.oneofs.map (oneofOf S)).flatMap COneof.printPrivate) := by
  refine lexes_for .oneof (fun o => (oneofOf S o).printPrivate) T.m.oneofs rfl (fun o ho b c => ?_) (flatMap_map ..)
  refine lexes_append (by lexes) (lexes_append ?_ (lexes_append (by lexes) ?_))
  · refine lexes_for (.field (some o)) (fun g => [.raw (elemType S g.desc), .id (under g.desc.name)] ++ cpp! ";")
      o.fields rfl (fun g hg b c => ?_) (flatMap_map ..)
    have hs := h.single o ho g hg
    obtain ⟨⟨x, _, _, t, _, _, p, _⟩, sh, _⟩ := g
    cases hs
    lexes
  · refine lexes_append (Lexes.of_eq (by kernel_rfl) (Lexes.indent (lexes_init T S o (h.single o ho)) (n := 6)).append_nil) (lexes_before (by lexes) ?_)
    refine lexes_append (Lexes.of_eq (by kernel_rfl) (Lexes.indent (lexes_clear T S o (h.single o ho)) (n := 6)).append_nil) (lexes_before (by lexes) ?_)
    refine lexes_append (Lexes.of_eq (by kernel_rfl) (Lexes.indent (lexes_des T S o) (n := 6)).append_nil) (lexes_append (by lexes) ?_)
    exact lexes_append (Lexes.of_eq (by kernel_rfl) (Lexes.indent (lexes_show T S o) (n := 6)).append_nil) (by lexes)

end

theorem lexes_4 : Lexes (render T S (renderCall T S) typedefEnv typeDefMsg_4)
    ((T.m.oneofs.map (oneofOf S)).flatMap COneof.printAssign) :=
  lexes_for .oneof (fun o => (oneofOf S o).printAssign) T.m.oneofs rfl
    (fun o _ _ _ => lexes_before (by lexes)
      (lexes_after (Lexes.of_eq (by kernel_rfl) (Lexes.indent (lexes_assign T S o) (n := 6)).append_nil) (by lexes))) (flatMap_map ..)

theorem lexes_7 : Lexes (render T S (renderCall T S) typedefEnv typeDefMsg_7)
    ((T.m.oneofs.map (oneofOf S)).flatMap COneof.printAssign) :=
  lexes_for .oneof (fun o => (oneofOf S o).printAssign) T.m.oneofs rfl
    (fun o _ _ _ => lexes_before (by lexes)
      (lexes_after (Lexes.of_eq (by kernel_rfl) (Lexes.indent (lexes_assign T S o) (n := 6)).append_nil) (by lexes))) (flatMap_map ..)

theorem lexes_15 : Lexes (render T S (renderCall T S) typedefEnv typeDefMsg_15)
    ((T.m.oneofs.map (oneofOf S)).flatMap COneof.printAssign) :=
  lexes_for .oneof (fun o => (oneofOf S o).printAssign) T.m.oneofs rfl
    (fun o _ _ _ => lexes_before (by lexes)
      (lexes_after (Lexes.of_eq (by kernel_rfl) (Lexes.indent (lexes_assign T S o) (n := 6)).append_nil) (by lexes))) (flatMap_map ..)

theorem lexes_18 : Lexes (render T S (renderCall T S) typedefEnv typeDefMsg_18)
    ((T.m.oneofs.map (oneofOf S)).flatMap COneof.printAssign) :=
  lexes_for .oneof (fun o => (oneofOf S o).printAssign) T.m.oneofs rfl
    (fun o _ _ _ => lexes_before (by lexes)
      (lexes_after (Lexes.of_eq (by kernel_rfl) (Lexes.indent (lexes_assign T S o) (n := 6)).append_nil) (by lexes))) (flatMap_map ..)

/-- Texts and their tokens. -/
inductive AllLexes : List Text → List (List Tok) → Prop where
  | nil : AllLexes [] []
  | cons {t : Text} {p : List Tok} {ts : List Text} {ps : List (List Tok)} :
    Lexes t p → AllLexes ts ps → AllLexes (t :: ts) (p :: ps)

theorem AllLexes.loop {f : Bool → Bool → Val → Text}
    (H : ∀ t p, Lexes t p → ∀ b c, Lexes (f b c (.nested t)) p) :
    ∀ {ts : List Text} {ps : List (List Tok)}, AllLexes ts ps → ∀ first,
      Lexes (loopText f first (ts.map .nested)) ps.flatten
  | _, _, .nil, _ => rfl
  | _, _, .cons h k, _ => (H _ _ h _ _).append (k.loop H false)

theorem lexes_9 {enums : List (List Tok)} (k : AllLexes T.enums enums) :
    Lexes (render T S (renderCall T S) typedefEnv typeDefMsg_9) enums.flatten := by
  show Lexes (loopText _ true (T.enums.map .nested) ++ []) _
  refine (k.loop (fun t p ht b c => ?_) true).append_nil
  exact lexes_before (by lexes) (lexes_after (Lexes.of_eq (by kernel_rfl) (ht.indent (n := 4)).append_nil) (by lexes))

theorem lexes_10 {classes : List (List Tok)} (k : AllLexes T.msgs classes) :
    Lexes (render T S (renderCall T S) typedefEnv typeDefMsg_10) classes.flatten := by
  show Lexes (loopText _ true (T.msgs.map .nested) ++ []) _
  refine (k.loop (fun t p ht b c => ?_) true).append_nil
  exact lexes_before (by lexes) (lexes_after (Lexes.of_eq (by kernel_rfl) (ht.indent (n := 4)).append_nil) (by lexes))

theorem lexes_12 : Lexes (render T S (renderCall T S) typedefEnv typeDefMsg_12)
    (sep (cpp! ",") ((T.m.fieldIds.map fun p => (p.2, p.1)).map fun e =>
      [.id e.1] ++ cpp! "=" ++ [.id (Nat.repr e.2).toList])) := by
  refine lexes_for_sep .pair (fun p => [.id p.2] ++ cpp! "=" ++ [.id (Nat.repr p.1).toList]) (cpp! ",") T.m.fieldIds rfl
    (fun p _ b => by lexes) (fun p _ b => by lexes) ?_
  rw [List.map_map]; rfl

theorem lexes_20 : Lexes (render T S (renderCall T S) typedefEnv typeDefMsg_20)
    ((T.m.fields.map (fieldOf S none)).flatMap CField.print) :=
  lexes_for (.field none) (fun g => (fieldOf S none g).print) T.m.fields rfl
    (fun g _ _ _ => lexes_before (by lexes) (lexes_after (lexes_get_set T S none g nofun).indent.append_nil (by lexes)))
    (flatMap_map ..)

theorem lexes_23 : Lexes (render T S (renderCall T S) typedefEnv typeDefMsg_23)
    ((T.m.fields.map (serOf S none)).flatMap serOpt) :=
  lexes_for (.field none) (fun g => serOpt (serOf S none g)) T.m.fields rfl
    (fun g _ _ _ => lexes_before (by lexes) (lexes_after (lexes_serialize T S none g).indent.append_nil (by lexes)))
    (flatMap_map ..)

theorem lexes_24 : Lexes (render T S (renderCall T S) typedefEnv typeDefMsg_24)
    ((T.m.oneofs.map (oneofOf S)).flatMap COneof.printSerialize) := by
  refine lexes_for .oneof (fun o => (oneofOf S o).printSerialize) T.m.oneofs rfl (fun o ho b c => ?_) (flatMap_map ..)
  refine lexes_append (by lexes) (lexes_append ?_ (by lexes))
  refine lexes_for (.field (some o)) (fun g => caseOf (upper g.desc.name) (serOpt (serOf S (some o) g))) o.fields rfl
    (fun g hg b c => ?_) (flatMap_map ..)
  exact lexes_append (by lexes) (lexes_append (lexes_serialize T S (some o) g).indent.append_nil (by lexes))

theorem lexes_26 : Lexes (render T S (renderCall T S) typedefEnv typeDefMsg_26)
    ((T.m.fields.map fun g => (upper g.desc.name, desOf none g)).flatMap fun p => caseOf p.1 (p.2.flatMap des)) :=
  lexes_for (.field none) (fun g => caseOf (upper g.desc.name) ((desOf none g).flatMap des)) T.m.fields rfl
    (fun g _ _ _ => lexes_append (by lexes) (lexes_append (lexes_deserialize T S none g).indent.append_nil (by lexes)))
    (flatMap_map ..)

theorem lexes_27 : Lexes (render T S (renderCall T S) typedefEnv typeDefMsg_27)
    ((T.m.oneofs.map (oneofOf S)).flatMap COneof.printCase) := by
  refine lexes_for .oneof (fun o => (oneofOf S o).printCase) T.m.oneofs rfl (fun o ho b c => ?_) (flatMap_map ..)
  refine lexes_append ?_ (by lexes)
  exact lexes_for (.field (some o)) (fun g => cpp! "case FieldNumber::" ++ [.id (upper g.desc.name)] ++ cpp! ":") o.fields
    rfl (fun g hg b c => by lexes) (flatMap_map ..)

theorem lexes_29 : Lexes (render T S (renderCall T S) typedefEnv typeDefMsg_29)
    (acts (T.m.fields.map fun g => .call (clearName g.desc.name))) :=
  lexes_for (.field none) (fun g => (CAct.call (clearName g.desc.name)).print) T.m.fields rfl
    (fun g _ _ _ => by lexes) (flatMap_map ..)

theorem lexes_30 : Lexes (render T S (renderCall T S) typedefEnv typeDefMsg_30)
    ((T.m.oneofs.map (oneofOf S)).flatMap fun o => (CAct.call o.clearName).print) :=
  lexes_for .oneof (fun o => (CAct.call (clearName o.name)).print) T.m.oneofs rfl
    (fun g _ _ _ => by lexes) (flatMap_map ..)

theorem flatMap_flatMap {α β γ : Type} (f : α → List β) (g : β → List γ) (l : List α) :
    (l.flatMap f).flatMap g = l.flatMap fun a => (f a).flatMap g := List.flatMap_assoc ..

theorem lexes_names : Lexes (render T S (renderCall T S) typedefEnv (typeDefMsg_32 ++ typeDefMsg_33))
    (((T.m.fields ++ T.m.oneofs.flatMap (·.fields)).map fun g => (upper g.desc.name, constName g.desc.name)).flatMap
      nameCase) := by
  rw [flatMap_map, List.flatMap_append, flatMap_flatMap]
  refine lexes_append ?_ ?_
  · exact lexes_for (.field none) (fun g => nameCase (upper g.desc.name, constName g.desc.name)) T.m.fields rfl
      (fun g _ _ _ => by lexes) rfl
  · refine lexes_for .oneof (fun o => o.fields.flatMap fun g => nameCase (upper g.desc.name, constName g.desc.name))
      T.m.oneofs rfl (fun o ho b c => ?_) rfl
    exact lexes_for (.field (some o)) (fun g => nameCase (upper g.desc.name, constName g.desc.name)) o.fields rfl
      (fun g _ _ _ => by lexes) rfl

theorem lexes_showFields : ∀ (first : Bool) (l : List GField),
    Lexes (loopText (fun first last x => render T S (renderCall T S)
      ((typedefEnv.set .field x).set .loop (.loop first last)) typeDefMsg_35_body) first (l.map (.field none)))
      ((showFields first l).flatMap showStmt)
  | _, [] => rfl
  | first, g :: l => by
    rw [showFields, List.flatMap_append]
    refine Lexes.append ?_ (lexes_showFields false l)
    obtain ⟨⟨x, _, _, t, _, _, p, _⟩, sh, _⟩ := g
    cases sh <;> cases first <;> lexes

theorem lexes_showOneofs : ∀ (first : Bool) (l : List GOneof),
    Lexes (loopText (fun first last x => render T S (renderCall T S)
      ((typedefEnv.set .oneof x).set .loop (.loop first last)) typeDefMsg_36_body) first (l.map .oneof))
      ((showOneofs (T.m.fields.length == 0 && first) l).flatMap showStmt)
  | _, [] => rfl
  | first, o :: l => by
    rw [showOneofs]
    have ih := lexes_showOneofs false l
    rw [Bool.and_false] at ih
    refine Lexes.append (p := showStmt _) ?_ ih
    obtain ⟨tn, ⟨fs, os, ns, is⟩, ts, es, ms, vs⟩ := T
    cases fs <;> cases first <;> lexes

theorem lexes_shows : Lexes (render T S (renderCall T S) typedefEnv (typeDefMsg_35 ++ typeDefMsg_36))
    ((showFields true T.m.fields ++ showOneofs (T.m.fields.length == 0) T.m.oneofs).flatMap showStmt) := by
  rw [List.flatMap_append]
  refine lexes_append (lexes_showFields true T.m.fields).append_nil ?_
  have := lexes_showOneofs (T := T) (S := S) true T.m.oneofs
  rw [Bool.and_true] at this
  exact this.append_nil

theorem lexes_presence (enums classes : List (List Tok)) :
    Lexes (render T S (renderCall T S) typedefEnv typeDefMsg_38) (classOf S T enums classes).printPresence := by
  rw [typeDefMsg_38, render_ite]
  refine Lexes.append_nil ?_
  obtain ⟨tn, ⟨fs, os, ns, is⟩, ts, es, ms, vs⟩ := T
  cases os with
  | nil => exact Lexes.nil
  | cons g l =>
    show Lexes (render _ _ _ _ typeDefMsg_38_yes) _
    refine lexes_append (by lexes) (lexes_append ?_ ?_)
    · refine lexes_for_sep (.field none) (fun g => [.id (upper g.desc.name)]) (cpp! ",") (g :: l) rfl
        (fun g _ b => by lexes) (fun g _ b => by lexes) ?_
      exact congrArg (sep _) (List.map_map ..)
    · refine (?_ : ∀ n, n = (((g :: l).map (Val.field none)).length) → Lexes _ (CClass.presenceTail n)) _ ?_
      · intro n hn
        subst hn
        lexes
      · exact (List.length_map ..).trans (List.length_map ..).symm

theorem lexes_vars : Lexes (render T S (renderCall T S) typedefEnv typeDefMsg_40)
    (((T.m.fields.filter fun g => g.shape != .recursive).map (varOf S)).flatMap CVar.print) := by
  rw [flatMap_map, flatMap_filter]
  refine lexes_for (.field none) _ T.m.fields rfl (fun g _ b c => ?_) rfl
  obtain ⟨⟨x, _, _, t, _, _, p, _⟩, sh, _⟩ := g
  cases sh <;> cases t <;> lexes

/-- The text of a message class. -/
theorem lexes_message (h : Regular T.m) {enums classes : List (List Tok)} (he : AllLexes T.enums enums)
    (hm : AllLexes T.msgs classes) : Lexes (messageText T S) (classOf S T enums classes).print := by
  unfold messageText
  rw [load_eq parse_typeDefMsg]
  have H :=
    lexes_flatten (lexes_templates (S := S) enums classes).one <|
    lexes_flatten (show Lexes (render T S (renderCall T S) typedefEnv typeDefMsg_2)
      [cpp! "class" ++ [.id T.name] ++ cpp! "final: public ::EmbeddedProto::MessageInterface { public:" ++
        [.id T.name] ++ cpp! "() = default;",
       [.id T.name] ++ cpp! "(const" ++ [.id T.name] ++ cpp! "& rhs ) {"].flatten by lexes) <|
    lexes_flatten (lexes_3 (S := S) h).one <|
    lexes_flatten (lexes_4 (T := T) (S := S)).one <|
    lexes_flatten (show Lexes (render T S (renderCall T S) typedefEnv typeDefMsg_5)
      [cpp! "}", [.id T.name] ++ cpp! "(const" ++ [.id T.name] ++ cpp! "&& rhs ) noexcept {"].flatten by lexes) <|
    lexes_flatten (lexes_6 (S := S) h).one <|
    lexes_flatten (lexes_7 (T := T) (S := S)).one <|
    lexes_flatten (show Lexes (render T S (renderCall T S) typedefEnv typeDefMsg_8)
      [cpp! "}", cpp! "~" ++ [.id T.name] ++ cpp! "() override = default;"].flatten by lexes) <|
    lexes_flatten (lexes_9 (S := S) he).one <|
    lexes_flatten (lexes_10 (S := S) hm).one <|
    lexes_flatten (show Lexes (render T S (renderCall T S) typedefEnv typeDefMsg_11)
      [cpp! "enum class FieldNumber : uint32_t { NOT_SET = 0,"].flatten by lexes) <|
    lexes_flatten (lexes_12 (T := T) (S := S)).one <|
    lexes_flatten (show Lexes (render T S (renderCall T S) typedefEnv typeDefMsg_13)
      [cpp! "};", [.id T.name] ++ cpp! "& operator=(const" ++ [.id T.name] ++ cpp! "& rhs) {"].flatten by lexes) <|
    lexes_flatten (lexes_14 (S := S) h).one <|
    lexes_flatten (lexes_15 (T := T) (S := S)).one <|
    lexes_flatten (show Lexes (render T S (renderCall T S) typedefEnv typeDefMsg_16)
      [cpp! "return *this; }",
       [.id T.name] ++ cpp! "& operator=(const" ++ [.id T.name] ++ cpp! "&& rhs) noexcept {"].flatten by lexes) <|
    lexes_flatten (lexes_17 (S := S) h).one <|
    lexes_flatten (lexes_18 (T := T) (S := S)).one <|
    lexes_flatten (show Lexes (render T S (renderCall T S) typedefEnv typeDefMsg_19)
      [cpp! "return *this; }"].flatten by lexes) <|
    lexes_flatten (lexes_20 (T := T) (S := S)).one <|
    lexes_flatten (lexes_21 (S := S) h).one <|
    lexes_flatten (show Lexes (render T S (renderCall T S) typedefEnv typeDefMsg_22)
      (List.take 1 (classOf S T enums classes).printSerialize).flatten by lexes) <|
    lexes_flatten (lexes_23 (T := T) (S := S)).one <|
    lexes_flatten (lexes_24 (T := T) (S := S)).one <|
    lexes_flatten (show Lexes (render T S (renderCall T S) typedefEnv typeDefMsg_25)
      (List.drop 3 (classOf S T enums classes).printSerialize ++
       List.take 1 (classOf S T enums classes).printDeserialize).flatten by lexes) <|
    lexes_flatten (lexes_26 (T := T) (S := S)).one <|
    lexes_flatten (lexes_27 (T := T) (S := S)).one <|
    lexes_flatten (show Lexes (render T S (renderCall T S) typedefEnv typeDefMsg_28)
      (List.drop 3 (classOf S T enums classes).printDeserialize ++
       List.take 1 (classOf S T enums classes).printClear).flatten by lexes) <|
    lexes_flatten (lexes_29 (T := T) (S := S)).one <|
    lexes_flatten (lexes_30 (T := T) (S := S)).one <|
    lexes_flatten (show Lexes (render T S (renderCall T S) typedefEnv typeDefMsg_31)
      (List.drop 3 (classOf S T enums classes).printClear ++
       List.take 1 (classOf S T enums classes).printNames).flatten by lexes) <|
    lexes_flatten (lexes_names (T := T) (S := S)).one <|
    lexes_flatten (show Lexes (render T S (renderCall T S) typedefEnv typeDefMsg_34)
      (List.drop 2 (classOf S T enums classes).printNames ++
       List.take 2 (classOf S T enums classes).printShow).flatten by lexes) <|
    lexes_flatten (lexes_shows (T := T) (S := S)).one <|
    lexes_flatten (show Lexes (render T S (renderCall T S) typedefEnv typeDefMsg_37)
      (List.drop 3 (classOf S T enums classes).printShow ++ [cpp! "private:"]).flatten by lexes) <|
    lexes_flatten (lexes_presence (S := S) enums classes).one <|
    lexes_flatten (show Lexes (render T S (renderCall T S) typedefEnv typeDefMsg_39) [].flatten by lexes) <|
    lexes_flatten (lexes_vars (T := T) (S := S)).one <|
    lexes_flatten (show Lexes (render T S (renderCall T S) typedefEnv typeDefMsg_41) [].flatten by lexes) <|
    lexes_flatten (lexes_42 (S := S) h).one <|
    (show Lexes (render T S (renderCall T S) typedefEnv typeDefMsg_43) [cpp! "};"].flatten by lexes)
  refine Lexes.of_eq (congrArg (render T S (renderCall T S) typedefEnv) ?e) (Lexes.cast ?p H)
  case e => kernel_rfl
  case p => kernel_rfl

end EP.Gen.Jinja
