import Verif.Proof.GenShow
import Verif.Proof.JsonMembers
import Verif.Props.TextAll
import Verif.Props.Objects
import Verif.Props.Rendered

/-!
# The text a generated class shows: property C81
-/

namespace EP
open Gen Spec Json

theorem shown_eq (fs : Fields) (os : Oneofs) (P : Printer) (v : (ElemTy.msg fs os).Val) :
    ElemTy.shown fs os P v = ascii "{\n" ++ (fs.text P [] v.1 2 (!false) ++
      (os.text P [] v.2 2 (decide (fs.numbers = [])) ++ ascii "\n}")) := by
  unfold ElemTy.shown
  rw [ElemTy.text]
  simp only [List.append_assoc]
  rfl

section
variable (E : Types) (own name : Str) (nested : List Str) (fields : List FieldDesc) (oneofs : List Str)

/-- Full statement of **C81**: what `to_string` of a generated class shows of an object with readable values is a JSON text,
the value of which has the declared names of the fields and the values of the object. -/
def C81_Statement : Prop :=
  FieldsValid fields oneofs → E.Good fields → MessagesAre E fields → ∀ m, mkMessage own fields oneofs = .ok m →
    (render false E name m).Compiles nested → ∀ (P : Printer) (x : Class.Obj (render false E name m)),
      Describes P fields → (∀ path, PlainText (P.name path)) → Made (render false E name m) fields oneofs x →
      (m.type E).Terminated P [] x → (m.type E).Readable P [] ((m.type E).abs x) →
      ∃ text, parse text = some ((m.type E).json P [] ((m.type E).abs x)) ∧
        Puts (Class.print (render false E name m) (renderShows m) P x) text

section
variable {E own name nested fields oneofs} {m : GMessage} (h : FieldsValid fields oneofs)
  (hE : E.Good fields) (hm : MessagesAre E fields) (e : mkMessage own fields oneofs = .ok m)
  (hC : (render false E name m).Compiles nested)
include h e

/-- The fields of the generated message are those declared. -/
theorem mkMessage_descs : ∀ g ∈ m.fields ++ m.oneofs.flatMap (·.fields), g.desc ∈ fields := by
  obtain ⟨m', e', hfs, _, _, ho, _⟩ := mkMessage_spec (own := own) h
  rw [e] at e'
  injection e' with e'
  subst e'
  intro g hg
  rcases List.mem_append.mp hg with hg | hg
  · rw [hfs] at hg
    obtain ⟨f, hf, rfl⟩ := List.mem_map.mp hg
    exact (List.mem_filter.mp hf).1
  · obtain ⟨o, hoo, hg⟩ := List.mem_flatMap.mp hg
    rw [ho o hoo] at hg
    obtain ⟨f, hf, rfl⟩ := List.mem_map.mp hg
    exact (List.mem_filter.mp hf).1

theorem mkMessage_noEnum (hs : ∀ f ∈ fields, f.oneofIndex ≠ none → f.proto3Optional = false → f.type ≠ .enum) :
    ∀ o ∈ m.oneofs, ∀ g ∈ o.fields, g.desc.type ≠ .enum := by
  obtain ⟨m', e', _, _, hp, ho, _⟩ := mkMessage_spec (own := own) h
  rw [e] at e'
  injection e' with e'
  subst e'
  obtain ⟨os, e1, _, e3, _⟩ := mkOneofs_spec (own := own) h oneofs 0 (by omega)
  have hos : m.oneofs = os := by
    unfold mkMessage at e
    rw [e1] at e
    injection e with e
    subst e
    rfl
  intro o hoo g hg
  have hoo' := hoo
  rw [hos] at hoo'
  rw [ho o hoo] at hg
  obtain ⟨f, hf, rfl⟩ := List.mem_map.mp hg
  obtain ⟨h1, h2⟩ := List.mem_filter.mp hf
  have h2 : f.oneofIndex = some o.index := by simpa using h2
  exact hs f h1 (by rw [h2]; simp) ((e3 o hoo').2.2 f h1 h2)

include hE hm hC

/-- What `to_string` of any class writes, fields of its own type (which are left out) or not: the members are those of
the declaration, but the first is only written without a comma if it is that of the first declared field. -/
theorem C81_text (hr : ∀ f ∈ fields, f.typeName = own → f.oneofIndex = none)
    (hs : ∀ f ∈ fields, f.oneofIndex ≠ none → f.proto3Optional = false → f.type ≠ .enum)
    {P : Printer} (hP : Describes P fields) {x : Class.Obj (render false E name m)} (hx : (m.type E).Reach x)
    (ht : (m.type E).Terminated P [] x) :
    Puts (Class.print (render false E name m) (renderShows m) P x)
      (ascii "{\n" ++ ((classFields E m.fields).text P [] ((m.type E).abs x).1 2 (!leadsRecursive m.fields) ++
        ((classOneofs E m.oneofs).text P [] ((m.type E).abs x).2 2 (m.fields.length == 0) ++ ascii "\n}"))) := by
  obtain ⟨m', e', H, W⟩ := mkMessage_proper (own := own) E h ⟨hr, hm⟩ hE
  rw [e] at e'
  injection e' with e'
  subst e'
  have hi := ElemTy.reach_inv _ W hx
  have hd := mkMessage_descs h e
  have ha := render_alloc (E := E) (name := name) (mkMessage_noEnum h e hs)
  have key : ∀ (K : Class) (x : K.Obj) (x' : Class.Obj (render true E name m)), K = render true E name m → HEq x x' →
      ∀ array, Class.print K (renderShows m) P x array = Class.print (render true E name m) (renderShows m) P x' array := by
    rintro _ x x' rfl hx _
    rw [eq_of_heq hx]
  intro array hl
  rw [key _ x x ha HEq.rfl]
  rw [ha] at hC
  have := runToString_writes H hC.distinct W P [] (fun g hg => hP.name _ (hd g hg)) x hi ht
    ⟨array, 0, array.length⟩ ⟨Nat.zero_add _, hl⟩
  exact Eq.trans this (TextView.put_whole (List.append_ne_nil_of_left_ne_nil (by decide) _) array)

/-- `to_string` of a class of which the first field outside the oneofs is not of the type of the message itself is the one
of the declared types, strings terminated or not: what C46 says of every object holds of the objects of the class. -/
theorem C81_print_partial (hr : ∀ f ∈ fields, f.typeName = own → f.oneofIndex = none)
    (hs : ∀ f ∈ fields, f.oneofIndex ≠ none → f.proto3Optional = false → f.type ≠ .enum)
    (hl : leadsRecursive m.fields = false) {P : Printer} (hP : Describes P fields)
    {x : Class.Obj (render false E name m)} (hx : (m.type E).Reach x) (array : List Byte) :
    Class.print (render false E name m) (renderShows m) P x array =
      ElemTy.print (classFields E m.fields) (classOneofs E m.oneofs) P x array := by
  obtain ⟨m', e', H, W⟩ := mkMessage_proper (own := own) E h ⟨hr, hm⟩ hE
  rw [e] at e'
  injection e' with e'
  subst e'
  have hi := ElemTy.reach_inv _ W hx
  have hd := mkMessage_descs h e
  have ha := render_alloc (E := E) (name := name) (mkMessage_noEnum h e hs)
  have key : ∀ (K : Class) (x : K.Obj) (x' : Class.Obj (render true E name m)), K = render true E name m → HEq x x' →
      ∀ array, Class.print K (renderShows m) P x array = Class.print (render true E name m) (renderShows m) P x' array := by
    rintro _ x x' rfl hx _
    rw [eq_of_heq hx]
  rw [key _ x x ha HEq.rfl]
  rw [ha] at hC
  exact runToString_eq H hC.distinct W P [] 0 (fun g hg => hP.name _ (hd g hg)) hl x hi none true ⟨array, 0, array.length⟩

/-- **C81** for objects of classes of which the first field outside the oneofs is not of the type of the message itself and
no oneof has an enum. -/
theorem C81_json_partial (hr : ∀ f ∈ fields, f.typeName = own → f.oneofIndex = none)
    (hs : ∀ f ∈ fields, f.oneofIndex ≠ none → f.proto3Optional = false → f.type ≠ .enum)
    (hl : leadsRecursive m.fields = false)
    {P : Printer} (hP : Describes P fields) (hp : ∀ path, PlainText (P.name path)) {x : Class.Obj (render false E name m)}
    (hx : (m.type E).Reach x) (ht : (m.type E).Terminated P [] x) (hv : (m.type E).Readable P [] ((m.type E).abs x)) :
    ∃ text, parse text = some ((m.type E).json P [] ((m.type E).abs x)) ∧
      Puts (Class.print (render false E name m) (renderShows m) P x) text := by
  refine ⟨_, ?_, C81_text h hE hm e hC hr hs hP hx ht⟩
  refine Eq.trans (congrArg parse ?_) (C79_readable_partial (fs := classFields E m.fields) (os := classOneofs E m.oneofs) P hp _ hv)
  rw [hl, length_numbers (E := E) hl]
  have hz : ((classFields E m.fields).numbers.length == 0) = decide ((classFields E m.fields).numbers = []) := by
    cases (classFields E m.fields).numbers <;> simp
  rw [hz]
  exact (shown_eq _ _ P _).symm

/-- Exactly when: what is shown is read as the right value if and only if the values are readable. -/
theorem C81_json_iff (hr : ∀ f ∈ fields, f.typeName = own → f.oneofIndex = none)
    (hs : ∀ f ∈ fields, f.oneofIndex ≠ none → f.proto3Optional = false → f.type ≠ .enum)
    (hl : leadsRecursive m.fields = false)
    {P : Printer} (hP : Describes P fields) (hp : ∀ path, PlainText (P.name path)) {x : Class.Obj (render false E name m)}
    (hx : (m.type E).Reach x) (ht : (m.type E).Terminated P [] x) :
    ∃ text, Puts (Class.print (render false E name m) (renderShows m) P x) text ∧
      (parse text = some ((m.type E).json P [] ((m.type E).abs x)) ↔ (m.type E).Readable P [] ((m.type E).abs x)) := by
  refine ⟨_, C81_text h hE hm e hC hr hs hP hx ht, ?_⟩
  refine Iff.trans (Eq.to_iff (congrArg (· = _) (congrArg parse ?_)))
    (C79_iff (fs := classFields E m.fields) (os := classOneofs E m.oneofs) P hp _)
  rw [hl, length_numbers (E := E) hl]
  have hz : ((classFields E m.fields).numbers.length == 0) = decide ((classFields E m.fields).numbers = []) := by
    cases (classFields E m.fields).numbers <;> simp
  rw [hz]
  exact (shown_eq _ _ P _).symm

/-- If the first field outside the oneofs is of the type of the message itself and anything is shown, what is shown is not
JSON: the text begins with a comma inside the braces. -/
theorem C81_comma (hr : ∀ f ∈ fields, f.typeName = own → f.oneofIndex = none)
    (hs : ∀ f ∈ fields, f.oneofIndex ≠ none → f.proto3Optional = false → f.type ≠ .enum)
    (hl : leadsRecursive m.fields = true)
    {P : Printer} (hP : Describes P fields) {x : Class.Obj (render false E name m)}
    (hx : (m.type E).Reach x) (ht : (m.type E).Terminated P [] x) (hn : (m.type E).json P [] ((m.type E).abs x) ≠ .obj []) :
    ∃ text, parse text = none ∧ Puts (Class.print (render false E name m) (renderShows m) P x) text := by
  refine ⟨_, ?_, C81_text h hE hm e hC hr hs hP hx ht⟩
  have h0 : (m.fields.length == 0) = false := by
    match hf : m.fields, hl with
    | [], hl => exact nomatch hl
    | _ :: _, _ => rfl
  rw [hl, h0, Bool.not_true]
  rcases (classFields E m.fields).text_comma P [] ((m.type E).abs x).1 2 with ⟨e1, e2⟩ | ⟨l, e2⟩
  · rw [e2, List.nil_append]
    rcases (classOneofs E m.oneofs).text_comma' P [] ((m.type E).abs x).2 2 with ⟨e3, e4⟩ | ⟨l, e4⟩
    · refine absurd ?_ hn
      show JVal.obj ((classFields E m.fields).json P [] ((m.type E).abs x).1 ++
        (classOneofs E m.oneofs).json P [] ((m.type E).abs x).2) = _
      rw [e1, e3]
      rfl
    · rw [e4, List.append_assoc]
      rfl
  · rw [e2, List.append_assoc]
    rfl

/-- **C81** for messages without a field of their own type or an enum in a oneof. -/
theorem C81_made_partial (hs : Sound own fields)
    {P : Printer} (hP : Describes P fields) (hp : ∀ path, PlainText (P.name path)) {x : Class.Obj (render false E name m)}
    (hx : Made (render false E name m) fields oneofs x) (ht : (m.type E).Terminated P [] x)
    (hv : (m.type E).Readable P [] ((m.type E).abs x)) :
    ∃ text, parse text = some ((m.type E).json P [] ((m.type E).abs x)) ∧
      Puts (Class.print (render false E name m) (renderShows m) P x) text := by
  have hl : leadsRecursive m.fields = false := by
    obtain ⟨m', e', hfs, _⟩ := mkMessage_spec (own := own) h
    rw [e] at e'
    injection e' with e'
    subst e'
    match hf : m.fields with
    | [] => rfl
    | g :: _ =>
      have hg : g ∈ m.fields := by rw [hf]; exact List.mem_cons_self
      rw [hfs] at hg
      obtain ⟨f, hm, rfl⟩ := List.mem_map.mp hg
      have := factory_ne (o := none) (hs.recursive f (List.mem_filter.mp hm).1)
      show ((factory own f none).shape == .recursive) = false
      exact beq_eq_false_iff_ne.mpr this
  exact C81_json_partial h hE hm e hC (fun f hf hc => absurd hc (hs.recursive f hf)) hs.enum hl hP hp
    (C67_objects_partial hs h hE hm e hC hx).2 ht hv

/-- **C81** in terms of the functions of the class: every field outside the oneofs is shown with its name and the value of what
`get_f()` refers to, every member of a oneof for which `has_f()` likewise, and nothing else. -/
theorem C81_members_partial (hs : Sound own fields)
    {P : Printer} (hP : Describes P fields) (hp : ∀ path, PlainText (P.name path)) {x : Class.Obj (render false E name m)}
    (hx : Made (render false E name m) fields oneofs x) (ht : (m.type E).Terminated P [] x)
    (hv : (m.type E).Readable P [] ((m.type E).abs x)) :
    ∃ text members, parse text = some (.obj members) ∧ Puts (Class.print (render false E name m) (renderShows m) P x) text ∧
      (∀ f ∈ fields, f.oneofIndex = none ∨ f.proto3Optional = true →
        ∃ (c : Card) (z : (c.cls (E.elem f)).State), (c = .single ∨ c = .opt ∨ ∃ cap, c = .rep cap) ∧
          (∀ {α : Type} (G : (C : FieldClass) → C.State → Res α),
            Class.runGet (render false E name m) (getName f.name) .const G x = G (c.cls (E.elem f)) z) ∧
          (literal f.name, c.json P [f.number] (E.elem f) ((c.spec (E.elem f)).abs z)) ∈ members) ∧
      (∀ f ∈ fields, f.oneofIndex ≠ none → f.proto3Optional = false →
        Class.callTest (render false E name m) (hasName f.name) x = .ok true →
        ∃ z : (E.elem f).cls.State, (∀ {α : Type} (G : (C : FieldClass) → C.State → Res α),
            Class.runGet (render false E name m) (getName f.name) .const G x = G (E.elem f).cls z) ∧
          (literal f.name, (E.elem f).json P [f.number] ((E.elem f).abs z)) ∈ members) ∧
      ∀ p ∈ members, ∃ f ∈ fields, p.1 = literal f.name ∧
        (f.oneofIndex ≠ none → f.proto3Optional = false →
          Class.callTest (render false E name m) (hasName f.name) x = .ok true) := by
  obtain ⟨text, h1, h2⟩ := C81_made_partial h hE hm e hC hs hP hp hx ht hv
  have hI := C67_implements_partial E own name nested fields oneofs hs h hE hm m e hC
  obtain ⟨W, hr⟩ := C67_objects_partial hs h hE hm e hC hx
  have hi := ElemTy.reach_inv _ W hr
  obtain ⟨w1, w2, w3, w4⟩ := W
  obtain ⟨i1, i2, i3⟩ := hi
  refine ⟨text, _, h1, h2, ?_, ?_, ?_⟩
  · intro f hf hc
    have hS := hI.fields f hf
    have key : ∀ (c : Card) (s : Slot (Class.fs (render false E name m)) f.number c (E.elem f)),
        (literal f.name, c.json P [f.number] (E.elem f) ((c.spec (E.elem f)).abs (s.state 0 x.fields))) ∈
          (classFields E m.fields).json P [] ((m.type E).abs x).1 ++ (classOneofs E m.oneofs).json P [] ((m.type E).abs x).2 := by
      intro c s
      rw [← hP.name f hf]
      exact List.mem_append_left _ (s.json_mem P [] 0 _ x.fields w1 i2)
    unfold Served at hS
    split at hS
    · obtain ⟨s, hS⟩ := hS
      exact ⟨_, _, .inr (.inl rfl), fun G => hS.get G x, key _ s⟩
    · next hn =>
      rw [hc.resolve_right hn] at hS
      dsimp only at hS
      split at hS
      · obtain ⟨s, hS⟩ := hS
        exact ⟨_, _, .inr (.inr ⟨_, rfl⟩), fun G => hS.get G x, key _ s⟩
      · obtain ⟨s, hS⟩ := hS
        exact ⟨_, _, .inl rfl, fun G => hS.get G x, key _ s⟩
  · intro f hf hc hn hh
    have hS := hI.fields f hf
    unfold Served at hS
    rw [if_neg (by rw [hn]; simp)] at hS
    split at hS
    · next hc' => exact absurd hc' hc
    · next i hc' =>
      obtain ⟨a, ha, s, k, o, ho, hS⟩ := hS
      rw [hS.has] at hh
      injection hh with hh
      have hw : (s.state x.oneofs).which = f.number := (k.has_eq s x).mp hh
      have hok := s.wf w2 (List.nodup_append.mp w3).2.1
      have hinv := s.inv_state i3
      obtain ⟨z, hz⟩ : ∃ z, (s.state x.oneofs).live = some (k.injState z) := by
        generalize s.state x.oneofs = v at hw hinv
        obtain ⟨which, live⟩ := v
        cases live with
        | none =>
          have hinv : which = 0 := hinv
          have := w4 _ (List.mem_append_right _ (s.mem k.mem))
          have hw : which = f.number := hw
          omega
        | some u =>
          have hinv : which = a.spec.num u := hinv.1
          obtain ⟨z, hz⟩ := k.of_num hok.1 hok.2 u (hinv.symm.trans hw)
          exact ⟨z, congrArg some hz⟩
      have hg : s.get ((m.type E).abs x).2 = some (k.inj ((E.elem f).abs z)) := by
        have hg : s.get ((m.type E).abs x).2 = (s.state x.oneofs).live.map a.spec.abs := s.get_abs x.oneofs
        rw [hg, hz, Option.map_some, k.abs_injState]
      refine ⟨z, fun G => ?_, ?_⟩
      · rw [hS.get G x]
        unfold Member.get
        rw [hz, k.readUnion_injState, Res.ok_bind]
      · rw [← hP.name f hf]
        refine List.mem_append_right _ (s.json_mem P [] _ hg ?_)
        rw [k.json_mem]
        exact List.mem_singleton_self _
  · intro p hp'
    rcases List.mem_append.mp hp' with hp' | hp'
    · obtain ⟨n, hn, e1⟩ := Fields.json_keys P [] _ _ p hp'
      obtain ⟨f, hf, rfl⟩ := List.mem_map.mp (hI.numbers.mem_iff.mp (List.mem_append_left _ hn))
      refine ⟨f, hf, e1.trans (hP.name f hf), fun hc ho => ?_⟩
      have hS := hI.fields f hf
      unfold Served at hS
      rw [if_neg (by rw [ho]; simp)] at hS
      split at hS
      · next hc' => exact absurd hc' hc
      · obtain ⟨a, ha, s, k, o, _, hS⟩ := hS
        exact absurd rfl ((List.nodup_append.mp w3).2.2 _ hn _ (s.mem k.mem))
    · obtain ⟨n, hn, e1, hu⟩ := Oneofs.json_keys P [] _ w2 (List.nodup_append.mp w3).2.1 x.oneofs i3 p hp'
      obtain ⟨f, hf, rfl⟩ := List.mem_map.mp (hI.numbers.mem_iff.mp (List.mem_append_right _ hn))
      refine ⟨f, hf, e1.trans (hP.name f hf), fun hc ho => ?_⟩
      have hS := hI.fields f hf
      unfold Served at hS
      rw [if_neg (by rw [ho]; simp)] at hS
      split at hS
      · next hc' => exact absurd hc' hc
      · obtain ⟨a, ha, s, k, o, _, hS⟩ := hS
        rw [hS.has]
        exact congrArg Res.ok ((k.has_eq s x).mpr (hu a s k.mem))

end

/-- **C81** for messages without a field of their own type or an enum in a oneof. -/
theorem C81_shown_partial (hs : Sound own fields) : C81_Statement E own name nested fields oneofs :=
  fun h hE hm _ e hC _ _ hP hp hx ht hv => C81_made_partial h hE hm e hC hs hP hp hx ht hv

end

namespace C81Example
open C47Example

/-- `message M { M next = 1; bool a = 2; }` -/
def fields : List FieldDesc := [recursiveField, field "a" 2 (.scalar .boolean)]

def msg : GMessage :=
  match mkMessage ".M".toList fields [] with
  | .ok m => m
  | .error _ => ⟨[], [], [], []⟩

def types : Types := ⟨fun _ => .msg .nil .nil, fun _ => 1, fun _ => 1⟩

abbrev K : Class := render false types "M".toList msg

/-- The names of those fields. -/
def printer : Printer where
  name p := if p = [1] then ascii "next" else if p = [2] then ascii "a" else ascii "x"
  isBytes _ := false
  float _ := ascii "1.500000"
  double _ := ascii "1.500000"
  float_ne _ := by decide
  double_ne _ := by decide

theorem plain : ∀ path, PlainText (printer.name path) := by
  intro path
  show PlainText (if path = [1] then ascii "next" else if path = [2] then ascii "a" else ascii "x")
  split
  · show ∀ b ∈ _, _; decide
  · split
    · show ∀ b ∈ _, _; decide
    · show ∀ b ∈ _, _; decide

theorem describes : Describes printer fields := ⟨by decide, by decide⟩

theorem good : types.Good fields where
  message := fun _ _ _ => by simp [types, ElemTy.WF, Fields.WF, Oneofs.WF, Fields.numbers, Oneofs.numbers]
  length := by decide
  repLength := by decide
  maxLength := by decide

theorem valid : FieldsValid fields [] := by decide
theorem compiles : K.Compiles [] := by decide +kernel

/-- A new object is shown as `{`, `,`, `  "a": false`, `}`. -/
theorem shown : Class.print K (renderShows msg) printer K.new (List.replicate 24 0x41) =
    .ok ⟨ascii "{\n,\n  \"a\": false\n}" ++ 0 :: List.replicate 5 0x41, 18, 6⟩ := by
  decide +kernel

end C81Example

open C81Example in
/-- **C81** is false: a leading comma. -/
theorem C81_false : ¬ ∀ E own name nested fields oneofs, C81_Statement E own name nested fields oneofs := by
  intro h
  obtain ⟨text, h1, h2⟩ := h types ".M".toList "M".toList [] fields [] valid good (by decide) msg rfl compiles printer K.new
    describes plain .new ⟨⟨trivial, trivial⟩, trivial⟩ ⟨⟨trivial, trivial⟩, trivial, fun h => nomatch h⟩
  have h2 := h2 (List.replicate 24 0x41) (by decide)
  rw [shown] at h2
  have e : text = ascii "{\n,\n  \"a\": false\n}" := by
    split at h2
    · injection h2 with h2
      injection h2 with e1 e2
      exact (List.append_inj e1 e2).1.symm
    · split at h2
      · next hl =>
        injection h2 with h2
        injection h2 with e1 e2
        rw [List.length_replicate] at hl
        omega
      · exact nomatch h2
  rw [e] at h1
  exact nomatch h1

open C81Example in
/-- `C81_comma` of that object. -/
example : ∃ text, parse text = none ∧ Puts (Class.print K (renderShows msg) printer K.new) text :=
  C81_comma valid good (by decide) (rfl : mkMessage ".M".toList fields [] = .ok msg) compiles
    (by decide) (by decide) (by decide) describes (x := K.new) .init ⟨⟨trivial, trivial⟩, trivial⟩ (fun h => nomatch h)

namespace C67Example
open C47Example

/-- The names of the fields of `C47Example`. -/
def printer : Printer where
  name p := if p = [7] then ascii "b" else if p = [3] then ascii "a" else if p = [5] then ascii "o" else
    if p = [2] then ascii "r" else ascii "c"
  isBytes p := decide (p = [4])
  float _ := ascii "1.500000"
  double _ := ascii "1.500000"
  float_ne _ := by decide
  double_ne _ := by decide

theorem printer_plain : ∀ path, PlainText (printer.name path) := by
  intro path
  show PlainText (if path = [7] then ascii "b" else if path = [3] then ascii "a" else if path = [5] then ascii "o" else
    if path = [2] then ascii "r" else ascii "c")
  repeat' split
  all_goals show ∀ b ∈ _, _; decide

example : Describes printer fields := ⟨by decide, by decide⟩

/-- `a = 300`, `b = 7` -/
def object : K.Obj := ⟨K.new.presence, ((300#32 : BitVec 32), K.new.fields.2), (⟨7, some (.inl (7#32 : BitVec 32))⟩, ())⟩

def written (r : Res TextView) : List Byte :=
  match r with
  | .ok v => v.mem.take v.pos
  | _ => []

/-- The names, and the member `b` of the oneof. -/
example : written (Class.print K (renderShows msg) printer object (List.replicate 80 0x41)) =
    ascii "{\n  \"a\": 300,\n  \"o\": 0,\n  \"r\": [\n\n       ],\n  \"b\": 7\n}" := by
  decide +kernel

example : ∃ text, parse text = some (.obj [(ascii "a", .int 0), (ascii "o", .int 0), (ascii "r", .arr [])]) ∧
    Puts (Class.print K (renderShows msg) printer K.new) text :=
  C81_made_partial C47Example.valid good (by decide) made compiles sound ⟨by decide, by decide⟩ printer_plain .new
    (And.intro (And.intro trivial (And.intro trivial (And.intro (fun _ h => nomatch h) trivial)))
      (And.intro (fun _ h => nomatch h) trivial))
    (And.intro (And.intro trivial (And.intro trivial (And.intro (fun _ h => nomatch h) trivial)))
      (And.intro (And.intro (fun _ h => nomatch h) trivial) (fun h => nomatch h)))

end C67Example

end EP
