import Verif.Proof.GenInstance
import Verif.Props.Templates
import Verif.Props.Rendered

/-!
# Properties of the instances of generated classes

C77: a value given for a template parameter is the length of the field the parameter is named after.
-/

namespace EP

open Gen

/-- **C77**.  For every set of files whose messages are complete before they are used, every class and any values for its
template parameters: the class compiles with them, and every field at any depth has the length given for the parameter
with its name. -/
def C77_Statement (files : List (Str × List MsgDesc)) : Prop :=
  Ordered files → ∃ P, templates files = .ok P ∧ ∀ own m, Defined files own m → ∀ args : List Nat,
    args.length = (P own).length → ∃ T, instantiate files P (allClasses files).length own args = some T ∧
      ∀ v, Assigned files P own args v → InstanceOf (Defined files) own v T

section
variable {files : List (Str × List MsgDesc)} (hc : Counted files) (hd : Distinguished files)
  (hu : Unshadowed files takenNames) (hn : NoOwn files)

include hc hd hu hn

/-- **C77** if no repeated field with a maximum length has a type that needs lengths, no two lengths have the same name,
none has the name of another thing, and no message has a field of its own type. -/
theorem C77_partial : C77_Statement files := by
  intro ho
  obtain ⟨P, hP⟩ := ho.accepted
  refine ⟨P, hP, fun own m h args hl => ?_⟩
  obtain ⟨fs, os, h1, h2, _⟩ := inst_ok ho hc hd hu hn hP _ own m h (List.idxOf_lt_length_of_mem h.mem) args hl
  exact ⟨_, h1, h2⟩

/-- With lengths from 1 to `2^31 - 1` the type is one the other theorems are about. -/
theorem C77_wf_partial (ho : Ordered files) (hm : ∀ own m f, Defined files own m → f ∈ m.fields → f.maxLength < 2147483648)
    {P : Str → List Str} (hP : templates files = .ok P) {own : Str} {m : MsgDesc} (h : Defined files own m)
    {args : List Nat} (hl : args.length = (P own).length) (ha : ∀ a ∈ args, GoodLength a) :
    ∃ T, instantiate files P (allClasses files).length own args = some T ∧ T.WF := by
  obtain ⟨fs, os, h1, _, h3⟩ := inst_ok ho hc hd hu hn hP _ own m h (List.idxOf_lt_length_of_mem h.mem) args hl
  exact ⟨_, h1, h3 ha hm⟩

/-- C67 for every instance of every class of every set of files: its functions do what the declaration says, with the
types and lengths of the instance. -/
theorem C77_implements_partial (ho : Ordered files)
    (hm : ∀ own m f, Defined files own m → f ∈ m.fields → f.maxLength < 2147483648)
    {P : Str → List Str} (hP : templates files = .ok P) {own : Str} {m : MsgDesc} (h : Defined files own m)
    (he : ∀ f ∈ m.fields, f.oneofIndex ≠ none → f.proto3Optional = false → f.type ≠ .enum)
    {args : List Nat} (hl : args.length = (P own).length) (ha : ∀ a ∈ args, GoodLength a) :
    ∃ g E, mkMessage own m.fields m.oneofs = .ok g ∧
      instantiate files P (allClasses files).length own args = some (g.type E) ∧
      ∀ nested, (render false E m.name g).Compiles nested →
        Implements E (render false E m.name g) m.fields m.oneofs := by
  have hlt := List.idxOf_lt_length_of_mem h.mem
  obtain ⟨n, hn'⟩ : ∃ n, (allClasses files).length = n + 1 := ⟨(allClasses files).length - 1, by omega⟩
  have ih : ∀ f ∈ m.fields, f.type = .message → InstOK files P n f.typeName := by
    intro f hf ht
    have hb := ho.ordered own m f h hf ht (hn own m h f hf)
    obtain ⟨mt, hmt⟩ := inst_defined (hb.subset (List.mem_cons_self (l := [own])))
    have := idxOf_lt ho.distinct hb
    exact inst_ok ho hc hd hu hn hP n f.typeName mt hmt (by omega)
  obtain ⟨g, eg, h1, _, h3, h4⟩ := inst_step ho hc hd hu hn hP h ih hl
  refine ⟨g, _, eg, by rw [hn']; exact h1, fun nested hC => ?_⟩
  exact C67_implements_partial _ own m.name nested m.fields m.oneofs ⟨hn own m h, he⟩ (ho.fields own m h) (h4 ha hm) h3 g eg hC

end

namespace C77Example

open C49Example

theorem unshadowed_of {files : List (Str × List MsgDesc)} (ho : Ordered files)
    (h1 : ∀ outer ∈ allClasses files, ∀ own ∈ allClasses files, Encloses outer own →
      ∀ p ∈ needs files (allClasses files).length outer, ∀ q ∈ needs files (allClasses files).length own,
        p.render outer ≠ q.render own)
    (h2 : ∀ outer ∈ allClasses files, ∀ d ∈ allDefs files, outer = d.1 ∨ Encloses outer d.1 →
      ∀ p ∈ needs files (allClasses files).length outer, p.render outer ∉ takenNames d.1 d.2) :
    Unshadowed files takenNames where
  outer outer own p q he hp hq :=
    h1 outer (needs_of ho hp).1 own (needs_of ho hq).1 he p (needs_of ho hp).2 q (needs_of ho hq).2
  members outer own m p hm he hp :=
    h2 outer (needs_of ho hp).1 (own, m) (mem_allDefs.mpr hm) he p (needs_of ho hp).2

theorem noOwn_of {files : List (Str × List MsgDesc)} (h : ∀ d ∈ allDefs files, ∀ f ∈ d.2.fields, f.typeName ≠ d.1) :
    NoOwn files := fun own m hm f hf => h (own, m) (mem_allDefs.mpr hm) f hf

/-- Two files: `message Name { string first = 1; bytes id = 2 [maxLength 8]; }` and
`message Person { message Pet { repeated int32 age = 1; Name name = 2; } Pet pet = 1; Name name = 2;
repeated Name other = 3; repeated string nick = 5; }`. -/
def people : List (Str × List MsgDesc) :=
  [(".a".toList, [msg "Name" [field "first" 1 .string, field "id" 2 .bytes (maxLength := 8)]]),
   ([], [msg "Person"
      [field "pet" 1 .message ".Person.Pet", field "name" 2 .message ".a.Name", field "other" 3 .message ".a.Name" true,
       field "nick" 5 .string "" true]
      [msg "Pet" [field "age" 1 (.scalar .int32) "" true, field "name" 2 .message ".a.Name"]]])]

theorem peopleOrdered : Ordered people := ordered_of (by decide +kernel) (by decide +kernel) (by decide +kernel)

/-- The conditions of `C77_partial` are met. -/
example : Ordered people ∧ Counted people ∧ Distinguished people ∧ Unshadowed people takenNames ∧ NoOwn people :=
  ⟨peopleOrdered, counted_of peopleOrdered (by decide +kernel), distinguished_of peopleOrdered (by decide +kernel),
    unshadowed_of peopleOrdered (by decide +kernel) (by decide +kernel), noOwn_of (by decide +kernel)⟩

deriving instance DecidableEq for ElemTy, Fields, Alts, Oneofs

/-- `Person<4, 10, 11, 3, 12, 2, 13>`: the two names and those of `other` have lengths of their own. -/
example : (templates people).toOption.bind (fun P => instantiate people P 3 ".Person".toList [4, 10, 11, 3, 12, 2, 13]) =
    some (.msg
      (.plain 1 (.msg (.repeated 1 4 (.scalar .int32)
          (.plain 2 (.msg (.plain 1 (.str 10) (.plain 2 (.str 8) .nil)) .nil) .nil)) .nil)
        (.plain 2 (.msg (.plain 1 (.str 11) (.plain 2 (.str 8) .nil)) .nil)
          (.repeated 3 3 (.msg (.plain 1 (.str 12) (.plain 2 (.str 8) .nil)) .nil)
            (.repeated 5 2 (.str 13) .nil)))) .nil) := by
  decide +kernel

/-- `message Outer { string in_x = 1; message Outer_in { string x = 1; } Outer_in m = 2; }`: both classes have the
parameter `Outer_in_x_LENGTH`. -/
def shadow : List (Str × List MsgDesc) :=
  [([], [msg "Outer" [field "in_x" 1 .string, field "m" 2 .message ".Outer.Outer_in"]
    [msg "Outer_in" [field "x" 1 .string]]])]

/-- `message A { string x = 1; int32 A_x_LENGTH = 2; }` -/
def hidden : List (Str × List MsgDesc) :=
  [([], [msg "A" [field "x" 1 .string, field "A_x_LENGTH" 2 (.scalar .int32)]])]

/-- `message A { A a = 1; int32 b = 2; }` -/
def recursive : List (Str × List MsgDesc) :=
  [([], [msg "A" [field "a" 1 .message ".A", field "b" 2 (.scalar .int32)]])]

/-- A class with no instance. -/
theorem no_instance {files : List (Str × List MsgDesc)} (ho : Ordered files) (own : Str) (m : MsgDesc)
    (h : Defined files own m) (args : List Nat)
    (h1 : (templates files).toOption.map (fun P => ((P own).length,
      (instantiate files P (allClasses files).length own args).isSome)) = some (args.length, false)) :
    ¬ C77_Statement files := by
  intro hs
  obtain ⟨P, hP, hs⟩ := hs ho
  rw [hP] at h1
  have h1 : some _ = some _ := h1
  injection h1 with h1
  obtain ⟨T, hT, _⟩ := hs own m h args (congrArg Prod.fst h1).symm
  have : (instantiate files P (allClasses files).length own args).isSome = false := congrArg Prod.snd h1
  rw [hT] at this
  exact nomatch this

end C77Example

open C49Example C77Example

/-- C77 is false: such classes do not compile, whatever the values.  Repeated field with a maximum length of a type that
needs a length; two parameters of one name, in one class or in one class inside another; a parameter that has the name of
a member. -/
theorem C77_cases_false : ¬ C77_Statement counts ∧ ¬ C77_Statement clash ∧ ¬ C77_Statement shadow ∧
    ¬ C77_Statement C77Example.hidden := by
  have named {files : List (Str × List MsgDesc)} (i : Nat) {d : Str × MsgDesc} (h : (allDefs files)[i]? = some d) :
    Defined files d.1 d.2 := mem_allDefs.mp (List.mem_of_getElem? h)
  refine ⟨?_, ?_, ?_, ?_⟩
  · exact no_instance (ordered_of (by decide +kernel) (by decide +kernel) (by decide +kernel)) _ _ (named 1 rfl) []
      (by decide +kernel)
  · exact no_instance (ordered_of (by decide +kernel) (by decide +kernel) (by decide +kernel)) _ _ (named 0 rfl) [1, 2]
      (by decide +kernel)
  · exact no_instance (ordered_of (by decide +kernel) (by decide +kernel) (by decide +kernel)) _ _ (named 1 rfl) [1, 2]
      (by decide +kernel)
  · exact no_instance (ordered_of (by decide +kernel) (by decide +kernel) (by decide +kernel)) _ _ (named 0 rfl) [1]
      (by decide +kernel)

/-- ... and in this one a field is missing. -/
theorem C77_recursive_false : ¬ C77_Statement recursive := by
  intro hs
  obtain ⟨P, hP, hs⟩ := hs (ordered_of (by decide +kernel) (by decide +kernel) (by decide +kernel))
  have h1 : (templates recursive).toOption.map (fun P => (P ".A".toList,
    instantiate recursive P (allClasses recursive).length ".A".toList [])) =
      some ([], some (.msg (.plain 2 (.scalar .int32) .nil) .nil)) := by decide +kernel
  rw [hP] at h1
  have h1 : some (P ".A".toList, instantiate recursive P (allClasses recursive).length ".A".toList []) = some _ := h1
  injection h1 with h1
  injection h1 with h0 h1
  have hA : Defined recursive ".A".toList _ := mem_allDefs.mp (List.mem_of_getElem? (i := 0) rfl)
  obtain ⟨T, hT, hI⟩ := hs _ _ hA [] (by rw [h0]; rfl)
  rw [h1] at hT
  injection hT with hT
  subst hT
  have hno : ∀ p, ¬ Needs (Defined recursive) ".A".toList p := fun p hp => by
    have := (needs_of (ordered_of (by decide +kernel) (by decide +kernel) (by decide +kernel)) hp).2
    revert this
    rw [show needs recursive (allClasses recursive).length ".A".toList = [] by decide +kernel]
    exact fun h => nomatch h
  cases hI (fun _ => 0) fun p hp => absurd hp (hno p) with
  | mk hm _ _ _ hperm _ =>
    have := hperm.length_eq
    rw [unique_snd (l := allDefs recursive) (by decide +kernel) (mem_allDefs.mpr hm) (mem_allDefs.mpr hA)] at this
    exact absurd this (by decide)

theorem C77_false : ¬ ∀ files, C77_Statement files := fun h => C77_cases_false.1 (h _)

end EP
