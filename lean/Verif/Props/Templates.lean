import Verif.Proof.GenTemplates
import Verif.Proof.HeaderDec

/-!
# Properties of template parameters

C49: the template parameters of a class are the lengths it needs.
-/

namespace EP

open Gen

/-- C49.  For every set of files whose messages are complete before they are used: the generator accepts them, and
the template parameters of every class are the names of the lengths it needs, each once. -/
def C49_Statement (files : List (Str × List MsgDesc)) : Prop :=
  Ordered files → ∃ P, templates files = .ok P ∧ ∀ own m, Defined files own m →
    (P own).Nodup ∧ ∀ s, s ∈ P own ↔ ∃ p, Needs (Defined files) own p ∧ p.render own = s

/-- The part of it that always holds: the generator does not refuse the files. -/
theorem C49_accepted (files : List (Str × List MsgDesc)) (h : Ordered files) : ∃ P, templates files = .ok P := h.accepted

/-- C49 if no repeated field with a maximum length has a type that needs lengths, and no two lengths of a class have
the same name. -/
theorem C49_partial (files : List (Str × List MsgDesc)) (hc : Counted files) (hd : Distinguished files) : C49_Statement files := by
  intro ho
  obtain ⟨P, hP⟩ := ho.accepted
  refine ⟨P, hP, fun own m hm => ?_⟩
  obtain ⟨ps, h1, h2, h3⟩ := ho.templates hc hP hm
  rw [h1]
  refine ⟨List.pairwise_map.mpr (h2.imp_of_mem fun ha hb hne e => hne (hd own _ _ ((h3 _).mp ha) ((h3 _).mp hb) e)), ?_⟩
  intro s
  rw [List.mem_map]
  exact ⟨fun ⟨p, hp, e⟩ => ⟨p, (h3 p).mp hp, e⟩, fun ⟨p, hp, e⟩ => ⟨p, (h3 p).mpr hp, e⟩⟩

/-- Whatever the names: one parameter for each length. -/
theorem C49_lengths_partial (files : List (Str × List MsgDesc)) (hc : Counted files) (ho : Ordered files) (P : Str → List Str)
    (hP : templates files = .ok P) (own : Str) (m : MsgDesc) (hm : Defined files own m) :
    ∃ ps : List Path, ps.Nodup ∧ (∀ p, p ∈ ps ↔ Needs (Defined files) own p) ∧ P own = ps.map (Path.render own) := by
  obtain ⟨ps, h1, h2, h3⟩ := ho.templates hc hP hm
  exact ⟨ps, h2, h3, h1⟩

/-- What is accepted is in order, as far as fields that are not repeated are concerned: their types come before or
enclose the message. -/
theorem C49_refused (files : List (Str × List MsgDesc)) (own : Str) (m : MsgDesc) (hm : Defined files own m)
    (hv : FieldsValid m.fields m.oneofs) (f : FieldDesc) (hf : f ∈ m.fields) (ht : f.type = .message)
    (hs : f.repeated = false) (hne : f.typeName ≠ own) (hb : ¬ [f.typeName, own].Sublist (allClasses files))
    (ho : ¬ (f.typeName ++ ['.']) <+: own) : templates files = .error .templateParameters := by
  cases h : templates files with
  | ok P => exact ((templates_justified h hm hv hf ht hs hne).elim hb ho).elim
  | error e =>
    unfold templates at h
    dsimp only at h
    split at h
    · exact nomatch h
    · injection h with h
      rw [h]

/-- Files as they come from protoc, after sorting, are ordered if their names do not confuse the generator. -/
theorem C49_ordered_partial (fs : List FileDesc) (hok : FilesOK [] fs)
    (hn : (allClasses (fs.map fun f => (f.package, f.messages))).Nodup) (r : List (Str × List MsgDesc))
    (h : orderAll fs = .ok r) : Ordered r := orderAll_ordered hok hn h

namespace C49Example

def field (name : String) (number : Nat) (type : FType) (typeName : String := "") (repeated : Bool := false)
    (maxLength : Nat := 0) : FieldDesc :=
  { name := name.toList, number, repeated, type, typeName := typeName.toList, oneofIndex := none,
    proto3Optional := false, maxLength }

def msg (name : String) (fields : List FieldDesc) (nested : List MsgDesc := []) : MsgDesc :=
  .mk name.toList fields [] [] nested

/-- The paths of at most `n` steps a class needs. -/
def needs (files : List (Str × List MsgDesc)) : Nat → Str → List Path
  | 0, _ => []
  | n + 1, own => (allDefs files).flatMap fun d => if d.1 = own then
      d.2.fields.flatMap fun f => if f.typeName = own then [] else
        (if (f.type = .string ∨ f.type = .bytes) ∧ f.maxLength = 0 then [.length f] else []) ++
        (if f.repeated = true ∧ f.maxLength = 0 then [.count f] else []) ++
        (if f.type = .message then (needs files n f.typeName).map (.inside f) else [])
    else []

theorem mem_needs {files : List (Str × List MsgDesc)} {own : Str} {p : Path} (h : Needs (Defined files) own p) :
    ∀ n, (allClasses files).Nodup → (∀ d ∈ allDefs files, ∀ f ∈ d.2.fields, f.type = .message → f.typeName ≠ d.1 →
      [f.typeName, d.1].isSublist (allClasses files) = true) → (allClasses files).idxOf own < n → p ∈ needs files n own := by
  induction p generalizing own with
  | length f =>
    intro n hn ho hlt
    obtain ⟨m, h1, h2, h3, h4, h5⟩ := h
    match n with
    | n + 1 =>
    refine List.mem_flatMap.mpr ⟨(own, m), mem_allDefs.mpr h1, ?_⟩
    rw [if_pos rfl]
    refine List.mem_flatMap.mpr ⟨f, h2, ?_⟩
    rw [if_neg h3]
    refine List.mem_append_left _ (List.mem_append_left _ ?_)
    rw [if_pos ⟨h4, h5⟩]
    exact List.mem_singleton.mpr rfl
  | count f =>
    intro n hn ho hlt
    obtain ⟨m, h1, h2, h3, h4, h5⟩ := h
    match n with
    | n + 1 =>
    refine List.mem_flatMap.mpr ⟨(own, m), mem_allDefs.mpr h1, ?_⟩
    rw [if_pos rfl]
    refine List.mem_flatMap.mpr ⟨f, h2, ?_⟩
    rw [if_neg h3]
    refine List.mem_append_left _ (List.mem_append_right _ ?_)
    rw [if_pos ⟨h4, h5⟩]
    exact List.mem_singleton.mpr rfl
  | inside f q ih =>
    intro n hn ho hlt
    obtain ⟨m, h1, h2, h3, h4, h5⟩ := h
    match n with
    | n + 1 =>
    refine List.mem_flatMap.mpr ⟨(own, m), mem_allDefs.mpr h1, ?_⟩
    rw [if_pos rfl]
    refine List.mem_flatMap.mpr ⟨f, h2, ?_⟩
    rw [if_neg h3]
    refine List.mem_append_right _ ?_
    rw [if_pos h4]
    have := idxOf_lt hn (List.isSublist_iff_sublist.mp (ho (own, m) (mem_allDefs.mpr h1) f h2 h4 h3))
    exact List.mem_map.mpr ⟨q, ih h5 n hn ho (by dsimp only at this; omega), rfl⟩

/-- Messages without oneofs. -/
theorem plain_valid {m : MsgDesc} (ho : m.oneofs = []) (hf : ∀ f ∈ m.fields, f.oneofIndex = none ∧ f.proto3Optional = false)
    (hd : (m.fields.map (·.number)).Nodup) (hr : ∀ f ∈ m.fields, 0 < f.number ∧ f.number < 536870912) :
    FieldsValid m.fields m.oneofs where
  distinct := hd
  range := hr
  index f h i e := by rw [(hf f h).1] at e; exact nomatch e
  inhabited i h := by rw [ho] at h; exact nomatch h
  optional f h e := by rw [(hf f h).2] at e; exact nomatch e
  single f h e := absurd (hf f h).1 e

theorem ordered_of {files : List (Str × List MsgDesc)}
    (h1 : ∀ d ∈ allDefs files, d.2.oneofs = [] ∧ (∀ f ∈ d.2.fields, f.oneofIndex = none ∧ f.proto3Optional = false) ∧
      (d.2.fields.map (·.number)).Nodup ∧ ∀ f ∈ d.2.fields, 0 < f.number ∧ f.number < 536870912)
    (h2 : (allClasses files).Nodup)
    (h3 : ∀ d ∈ allDefs files, ∀ f ∈ d.2.fields, f.type = .message → f.typeName ≠ d.1 →
      [f.typeName, d.1].isSublist (allClasses files) = true) : Ordered files where
  fields own m h := by
    obtain ⟨a, b, c, d⟩ := h1 (own, m) (mem_allDefs.mpr h)
    exact plain_valid a b c d
  distinct := h2
  ordered own m f hm hf ht hne := List.isSublist_iff_sublist.mp (h3 (own, m) (mem_allDefs.mpr hm) f hf ht hne)

theorem needs_of {files : List (Str × List MsgDesc)} (ho : Ordered files) {own : Str} {p : Path}
    (h : Needs (Defined files) own p) : own ∈ allClasses files ∧ p ∈ needs files (allClasses files).length own := by
  have hin : own ∈ allClasses files := by
    obtain ⟨_, hm, _⟩ := h.def
    exact hm.mem
  refine ⟨hin, mem_needs h _ ho.distinct ?_ (List.idxOf_lt_length_of_mem hin)⟩
  intro d hd f hf ht hne
  exact List.isSublist_iff_sublist.mpr (ho.ordered d.1 d.2 f (mem_allDefs.mp hd) hf ht hne)

theorem distinguished_of {files : List (Str × List MsgDesc)} (ho : Ordered files)
    (h : ∀ own ∈ allClasses files, ∀ p ∈ needs files (allClasses files).length own,
      ∀ q ∈ needs files (allClasses files).length own, p.render own = q.render own → p = q) : Distinguished files :=
  fun own p q hp hq e => h own (needs_of ho hp).1 p (needs_of ho hp).2 q (needs_of ho hq).2 e

theorem counted_of {files : List (Str × List MsgDesc)} (ho : Ordered files)
    (h : ∀ d ∈ allDefs files, ∀ f ∈ d.2.fields, f.type = .message → f.typeName ≠ d.1 → f.repeated = true → f.maxLength ≠ 0 →
      needs files (allClasses files).length f.typeName = []) : Counted files := by
  intro own m f hm hf ht hne hr h0 p hp
  have := (needs_of ho hp).2
  rw [h (own, m) (mem_allDefs.mpr hm) f hf ht hne hr h0] at this
  exact nomatch this

/-- Two files: `message Name { string first = 1; bytes id = 2 [maxLength 8]; }` and
`message Person { message Pet { repeated int32 age = 1; Name name = 2; } Pet pet = 1; Name name = 2;
repeated Name other = 3; Person self = 4; repeated string nick = 5; }`. -/
def files : List (Str × List MsgDesc) :=
  [(".a".toList, [msg "Name" [field "first" 1 .string, field "id" 2 .bytes (maxLength := 8)]]),
   ([], [msg "Person"
      [field "pet" 1 .message ".Person.Pet", field "name" 2 .message ".a.Name", field "other" 3 .message ".a.Name" true,
       field "self" 4 .message ".Person", field "nick" 5 .string "" true]
      [msg "Pet" [field "age" 1 (.scalar .int32) "" true, field "name" 2 .message ".a.Name"]]])]

theorem ordered : Ordered files := ordered_of (by decide +kernel) (by decide +kernel) (by decide +kernel)
theorem counted : Counted files := counted_of ordered (by decide +kernel)
theorem distinguished : Distinguished files := distinguished_of ordered (by decide +kernel)

example : (templates files).toOption.map (fun P => (P ".Person".toList).map String.ofList) = some
    ["Person_pet_Pet_age_REP_LENGTH", "Person_pet_Pet_name_Name_first_LENGTH", "Person_name_Name_first_LENGTH",
     "Person_other_REP_LENGTH", "Person_other_Name_first_LENGTH", "Person_nick_REP_LENGTH", "Person_nick_LENGTH"] := by
  decide +kernel

/-- The files as they come from protoc; `Q` uses `R` before it is defined. -/
def fileDescs : List FileDesc :=
  [{ package := ".a".toList, enums := [], messages := [msg "Name" [field "first" 1 .string]] },
   { package := [], enums := [],
     messages := [msg "Q" [field "r" 1 .message ".R", field "n" 2 .message ".a.Name"], msg "R" []] }]

theorem fileOK_of {prior : List Str} {f : FileDesc} (h1 : f.Valid) (h2 : f.Clear) (h3 : f.NoOuter)
    (h4 : ∀ d ∈ listAts f.package f.messages, d.2.oneofs = [] ∧
      (∀ f ∈ d.2.fields, f.oneofIndex = none ∧ f.proto3Optional = false) ∧
      (d.2.fields.map (·.number)).Nodup ∧ ∀ f ∈ d.2.fields, 0 < f.number ∧ f.number < 536870912)
    (h5 : ∀ d ∈ listAts f.package f.messages, ∀ fd ∈ d.2.fields, fd.type = .message → fd.typeName ≠ dot d.1 d.2.name →
      fd.typeName ∈ prior ∨ fd.typeName ∈ classes f.package f.messages) : FileOK prior f :=
  ⟨h1, h2, h3, fun scope m h => have ⟨a, b, c, d⟩ := h4 (scope, m) h.mem_listAts; plain_valid a b c d,
    fun scope m fd h => h5 (scope, m) h.mem_listAts fd⟩

example : FilesOK [] fileDescs ∧ (allClasses (fileDescs.map fun f => (f.package, f.messages))).Nodup ∧
    (orderAll fileDescs).toOption.map allClasses =
      some [".a.Name".toList, ".R".toList, ".Q".toList] := by
  refine ⟨⟨?_, ?_, trivial⟩, by decide +kernel, by decide +kernel⟩
  · exact fileOK_of (valid_of (by decide) (by decide)) (clear_of (by decide +kernel) (by decide +kernel))
      (noOuter_of (by decide +kernel)) (by decide +kernel) (by decide +kernel)
  · exact fileOK_of (valid_of (by decide) (by decide)) (clear_of (by decide +kernel) (by decide +kernel))
      (noOuter_of (by decide +kernel)) (by decide +kernel) (by decide +kernel)

/-- `B` is used before it is defined. -/
def unordered : List (Str × List MsgDesc) :=
  [([], [msg "A" [field "b" 1 .message ".B"], msg "B" [field "s" 1 .string]])]

example : templates unordered = .error .templateParameters := by
  refine C49_refused unordered ".A".toList (msg "A" [field "b" 1 .message ".B"])
    (mem_allDefs.mp (by simp [unordered, allDefs, defsList, MsgDesc.defs, msg, dot]))
    (plain_valid rfl (by decide) (by decide) (by decide)) (field "b" 1 .message ".B") (by simp [msg, MsgDesc.fields])
    rfl rfl (by decide) ?_ (by decide)
  rw [← List.isSublist_iff_sublist]
  decide +kernel

/-- `message A { string s = 1; } message B { repeated A a = 1 [maxLength 5]; }` -/
def counts : List (Str × List MsgDesc) :=
  [([], [msg "A" [field "s" 1 .string], msg "B" [field "a" 1 .message ".A" true 5]])]

/-- `message A { repeated int32 x = 1; string x_REP = 2; }` -/
def clash : List (Str × List MsgDesc) :=
  [([], [msg "A" [field "x" 1 (.scalar .int32) "" true, field "x_REP" 2 .string]])]

/-- `message B { string y = 1; } message A { B m = 1; string m_B_y = 2; }` -/
def clash2 : List (Str × List MsgDesc) :=
  [([], [msg "B" [field "y" 1 .string], msg "A" [field "m" 1 .message ".B", field "m_B_y" 2 .string]])]

end C49Example

open C49Example

/-- C49 is false: the lengths needed by the elements of a repeated field with a maximum length are forgotten. -/
theorem C49_repeated_false : ¬ C49_Statement counts := by
  intro h
  obtain ⟨P, hP, h⟩ := h (ordered_of (by decide +kernel) (by decide +kernel) (by decide +kernel))
  have h0 : (templates counts).toOption.map (fun P => P ".B".toList) = some [] := by decide +kernel
  rw [hP] at h0
  have h0 : some (P ".B".toList) = some [] := h0
  injection h0 with h0
  have hB : Defined counts ".B".toList (msg "B" [field "a" 1 .message ".A" true 5]) := mem_allDefs.mp (by simp [counts, allDefs, defsList, MsgDesc.defs, msg, dot])
  have hA : Defined counts ".A".toList (msg "A" [field "s" 1 .string]) := mem_allDefs.mp (by simp [counts, allDefs, defsList, MsgDesc.defs, msg, dot])
  have := ((h _ _ hB).2 _).mpr ⟨.inside (field "a" 1 .message ".A" true 5) (.length (field "s" 1 .string)),
    ⟨_, hB, by simp [msg, MsgDesc.fields], by decide, rfl, _, hA, by simp [msg, MsgDesc.fields], by decide, .inl rfl, rfl⟩, rfl⟩
  rw [h0] at this
  exact nomatch this

/-- C49 is false: two lengths can have the same name. -/
theorem C49_name_false : ¬ C49_Statement clash := by
  intro h
  obtain ⟨P, hP, h⟩ := h (ordered_of (by decide +kernel) (by decide +kernel) (by decide +kernel))
  have h0 : (templates clash).toOption.map (fun P => P ".A".toList) =
    some ["A_x_REP_LENGTH".toList, "A_x_REP_LENGTH".toList] := by decide +kernel
  rw [hP] at h0
  have h0 : some (P ".A".toList) = some _ := h0
  injection h0 with h0
  have hA : Defined clash ".A".toList (msg "A" [field "x" 1 (.scalar .int32) "" true, field "x_REP" 2 .string]) :=
    mem_allDefs.mp (by simp [clash, allDefs, defsList, MsgDesc.defs, msg, dot])
  have := (h _ _ hA).1
  rw [h0] at this
  revert this
  decide

/-- ... also with those of the type of a field. -/
theorem C49_inside_false : ¬ C49_Statement clash2 := by
  intro h
  obtain ⟨P, hP, h⟩ := h (ordered_of (by decide +kernel) (by decide +kernel) (by decide +kernel))
  have h0 : (templates clash2).toOption.map (fun P => P ".A".toList) =
    some ["A_m_B_y_LENGTH".toList, "A_m_B_y_LENGTH".toList] := by decide +kernel
  rw [hP] at h0
  have h0 : some (P ".A".toList) = some _ := h0
  injection h0 with h0
  have hA : Defined clash2 ".A".toList (msg "A" [field "m" 1 .message ".B", field "m_B_y" 2 .string]) :=
    mem_allDefs.mp (by simp [clash2, allDefs, defsList, MsgDesc.defs, msg, dot])
  have := (h _ _ hA).1
  rw [h0] at this
  revert this
  decide

theorem C49_false : ¬ ∀ files, C49_Statement files := fun h => C49_repeated_false (h _)

end EP
