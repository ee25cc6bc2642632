import Verif.Proof.GenMessage

/-!
# Properties of the code generator

C47: every field of a descriptor ends up in the generated class once, where it belongs.
-/

namespace EP

open Gen

/-- C47.  For every descriptor that protoc passes on: the generator accepts it; the numbers of the members of
the class are those of the fields, each once; each field is in its place. -/
def C47_Statement (E : Types) (own : Str) (fields : List FieldDesc) (oneofs : List Str) : Prop :=
  FieldsValid fields oneofs → ∃ m, mkMessage own fields oneofs = .ok m ∧ ∃ fs os, m.type E = .msg fs os ∧
    (fs.numbers ++ os.numbers).Perm (fields.map (·.number)) ∧ ∀ f ∈ fields, Placed E fields fs os f

/-- C47 for messages without a field of their own type. -/
theorem C47_placed_partial (E : Types) (own : Str) (fields : List FieldDesc) (oneofs : List Str)
    (hr : ∀ f ∈ fields, f.typeName ≠ own) : C47_Statement E own fields oneofs := fun h =>
  have ⟨m, e, hp, hf⟩ := mkMessage_placed (own := own) E h hr
  ⟨m, e, _, _, rfl, hp, hf⟩

/-- The generated enum of field numbers lists each number once, in order, with the name of the field in
capitals; also if a field is left out. -/
theorem C47_ids (own : Str) (fields : List FieldDesc) (oneofs : List Str) (h : FieldsValid fields oneofs) :
    ∃ m, mkMessage own fields oneofs = .ok m ∧ m.fieldIds.Pairwise (fun a b => a.1 < b.1) ∧
      m.fieldIds.Perm (fields.map fun f => (f.number, upper f.name)) := by
  obtain ⟨m, e, _, _, _, _, _, hs, hp⟩ := mkMessage_spec (own := own) h
  refine ⟨m, e, ?_, hp⟩
  have hn : (m.fieldIds.map (·.1)).Nodup := by
    refine ((hp.map (·.1)).nodup_iff).mpr ?_
    rw [List.map_map]
    exact h.distinct
  rw [List.Nodup, List.pairwise_map] at hn
  exact (hs.and hn).imp fun {a b} h => Nat.lt_of_le_of_ne h.1 h.2

/-- The fields whose presence is tracked are those declared `optional`. -/
theorem C47_optional (own : Str) (fields : List FieldDesc) (oneofs : List Str) (h : FieldsValid fields oneofs) :
    ∃ m, mkMessage own fields oneofs = .ok m ∧
      m.optionalFields.map (·.desc) = fields.filter (·.proto3Optional) := by
  obtain ⟨m, e, _, ho, _⟩ := mkMessage_spec (own := own) h
  exact ⟨m, e, ho⟩

/-- Any valid descriptor yields a declaration the other theorems are about, provided the declarations of the
types of its fields are and the lengths chosen are positive and below `2^31`. -/
theorem C47_wf_partial (E : Types) (own : Str) (fields : List FieldDesc) (oneofs : List Str)
    (hr : ∀ f ∈ fields, f.typeName ≠ own) (h : FieldsValid fields oneofs) (hE : E.Good fields) :
    ∃ m, mkMessage own fields oneofs = .ok m ∧ (m.type E).WF :=
  mkMessage_wf E h hr hE

namespace C47Example

def field (name : String) (number : Nat) (type : FType := .scalar .uint32) : FieldDesc :=
  { name := name.toList, number, repeated := false, type, typeName := [], oneofIndex := none,
    proto3Optional := false, maxLength := 0 }

/-- A message with a plain field, a oneof of two, an optional and a repeated string. -/
def fields : List FieldDesc :=
  [{ field "b" 7 with oneofIndex := some 0 }, field "a" 3,
   { field "o" 5 with oneofIndex := some 1, proto3Optional := true },
   { field "r" 2 .string with repeated := true, maxLength := 9 },
   { field "c" 4 .bytes with oneofIndex := some 0 }]

def types : Types := ⟨fun _ => .scalar .boolean, fun _ => 10, fun _ => 20⟩

theorem valid : FieldsValid fields ["x".toList, "_o".toList] where
  distinct := by decide
  range := by decide
  index := by
    intro f hf i hi
    simp only [fields, field, List.mem_cons, List.not_mem_nil, or_false] at hf
    rcases hf with rfl | rfl | rfl | rfl | rfl <;> simp at hi <;> subst hi <;> decide
  inhabited := by
    intro i hi
    match i, hi with
    | 0, _ => exact ⟨{ field "b" 7 with oneofIndex := some 0 }, by decide, rfl⟩
    | 1, _ => exact ⟨{ field "o" 5 with oneofIndex := some 1, proto3Optional := true }, by decide, rfl⟩
    | (n + 2), h => exact absurd h (by simp)
  optional := by
    intro f hf hi
    simp only [fields, field, List.mem_cons, List.not_mem_nil, or_false] at hf
    rcases hf with rfl | rfl | rfl | rfl | rfl <;> simp at hi
    refine ⟨1, rfl, by decide⟩
  single := by decide

example : ∀ f ∈ fields, f.typeName ≠ ".M".toList := by decide

example : ∃ m, mkMessage ".M".toList fields ["x".toList, "_o".toList] = .ok m ∧
    m.type types = .msg
      (.plain 3 (.scalar .uint32) (.optional 5 (.scalar .uint32) (.repeated 2 9 (.str 9) .nil)))
      (.cons (.cons 7 (.scalar .uint32) (.cons 4 (.str 10) .nil)) .nil) ∧
    m.fieldIds = [(2, "R".toList), (3, "A".toList), (4, "C".toList), (5, "O".toList), (7, "B".toList)] :=
  ⟨_, rfl, rfl, by decide⟩

example : types.Good fields where
  message := fun _ _ _ => trivial
  length := by decide
  repLength := by decide
  maxLength := by decide

end C47Example

/-- `message M { M next = 1; }`: the field is left out. -/
def C47Example.recursiveField : FieldDesc :=
  { name := "next".toList, number := 1, repeated := false, type := .message, typeName := ".M".toList,
    oneofIndex := none, proto3Optional := false, maxLength := 0 }

open C47Example in
/-- C47 is false: a field of the type of the message itself is left out. -/
theorem C47_false : ¬ ∀ E own fields oneofs, C47_Statement E own fields oneofs := by
  intro h
  obtain ⟨m, e, fs, os, ht, hp, _⟩ := h C47Example.types ".M".toList [recursiveField] []
    { distinct := by decide
      range := by decide
      index := by
        intro f hf i hi
        simp only [List.mem_cons, List.not_mem_nil, or_false] at hf
        subst hf
        exact nomatch hi
      inhabited := fun i hi => nomatch hi
      optional := by
        intro f hf ho
        simp only [List.mem_cons, List.not_mem_nil, or_false] at hf
        subst hf
        exact nomatch ho
      single := by decide }
  have e' : mkMessage ".M".toList [recursiveField] [] = .ok ⟨[⟨recursiveField, .recursive, none⟩], [], [], [(1, "NEXT".toList)]⟩ := rfl
  rw [e'] at e
  injection e with e
  subst e
  have ht' : ElemTy.msg .nil .nil = .msg fs os := ht
  injection ht' with h1 h2
  subst h1 h2
  exact absurd hp.length_eq (by decide)

end EP
