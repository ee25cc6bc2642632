import Verif.Model.GenClass

/-!
# Deciding whether a declaration is valid and whether its class compiles
-/

namespace EP.Gen

variable {fields : List FieldDesc} {oneofs : List Str}

instance : Decidable (FieldsValid fields oneofs) :=
  decidable_of_iff ((fields.map (·.number)).Nodup ∧ (∀ f ∈ fields, 0 < f.number ∧ f.number < 536870912) ∧
      (∀ f ∈ fields, ∀ i ∈ f.oneofIndex.toList, i < oneofs.length) ∧
      (∀ i ∈ List.range oneofs.length, ∃ f ∈ fields, f.oneofIndex = some i) ∧
      (∀ f ∈ fields, f.proto3Optional = true →
        ∃ i ∈ f.oneofIndex.toList, ∀ g ∈ fields, g.oneofIndex = some i → g = f) ∧
      (∀ f ∈ fields, f.oneofIndex ≠ none → f.repeated = false))
    ⟨fun ⟨h1, h2, h3, h4, h5, h6⟩ => ⟨h1, h2, fun f hf i hi => h3 f hf i (by rw [hi]; exact List.mem_singleton_self i),
        fun i hi => h4 i (List.mem_range.mpr hi), fun f hf ho => by
          obtain ⟨i, hi, h⟩ := h5 f hf ho
          refine ⟨i, ?_, h⟩
          cases hc : f.oneofIndex with
          | none => rw [hc] at hi; exact nomatch hi
          | some j =>
            rw [hc] at hi
            rw [List.mem_singleton.mp hi], h6⟩,
      fun h => ⟨h.distinct, h.range, fun f hf i hi => by
          cases hc : f.oneofIndex with
          | none => rw [hc] at hi; exact nomatch hi
          | some j =>
            rw [hc] at hi
            rw [List.mem_singleton.mp hi]
            exact h.index f hf j hc,
        fun i hi => h.inhabited i (List.mem_range.mp hi), fun f hf ho => by
          obtain ⟨i, hi, h⟩ := h.optional f hf ho
          exact ⟨i, by rw [hi]; exact List.mem_singleton_self i, h⟩, h.single⟩⟩

instance (K : Class) (nested : List Str) : Decidable (K.Compiles nested) :=
  decidable_of_iff (((K.declared nested).Pairwise fun a b => a.clashes b = false) ∧ (K.enumerators.map (·.1)).Nodup ∧
      K.presence.Nodup ∧ (∀ u ∈ K.unions, u.members.Nodup) ∧ (∀ d ∈ K.declared nested, d.name ∉ keywords) ∧
      (∀ e ∈ K.enumerators, e.1 ∉ keywords) ∧ ∀ d ∈ K.declared nested, d.name ∉ nameInherited)
    ⟨fun ⟨h1, h2, h3, h4, h5, h6, h7⟩ => ⟨⟨h1, h2, h3, h4⟩, h5, h6, h7⟩,
      fun h => ⟨h.distinct.scope, h.distinct.enumerators, h.distinct.presence, h.distinct.members, h.keyword,
        h.enumerators, h.hidden⟩⟩

instance (x : Str) : Decidable (PlainName x) :=
  decidable_of_iff (x ≠ [] ∧ (∀ c ∈ x, c ∈ nameChars) ∧ x.getLast? ≠ some '_' ∧ (∀ p ∈ namePrefixes, ¬ p <+: x) ∧
      x ∉ nameReserved ∧ x ∉ nameInherited ∧ x ∉ keywords)
    ⟨fun ⟨h1, h2, h3, h4, h5, h6, h7⟩ => ⟨h1, h2, h3, h4, h5, h6, h7⟩,
      fun h => ⟨h.nonempty, h.chars, h.last, h.noPrefix, h.reserved, h.inherited, h.keyword⟩⟩

instance (t : Str) : Decidable (TypeName t) :=
  decidable_of_iff ((∃ c ∈ t, c ∉ nameChars) ∧ ¬ "_NAME".toList <:+ t ∧ t ≠ "FieldNumber".toList)
    ⟨fun ⟨h1, h2, h3⟩ => ⟨h1, h2, h3⟩, fun h => ⟨h.capital, h.suffix, h.fieldNumber⟩⟩

instance (name : Str) (nested : List Str) : Decidable (PlainNames name nested fields oneofs) :=
  decidable_of_iff ((∀ t ∈ name :: nested, TypeName t) ∧ (name :: nested).Nodup ∧
      (∀ x ∈ fields.map (·.name) ++ oneofs, PlainName x) ∧ (fields.map (·.name) ++ oneofs).Nodup)
    ⟨fun ⟨h1, h2, h3, h4⟩ => ⟨h1, h2, h3, h4⟩, fun h => ⟨h.types, h.typesDistinct, h.plain, h.distinct⟩⟩

end EP.Gen
