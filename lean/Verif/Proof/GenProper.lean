import Verif.Proof.GenRefine
import Verif.Proof.GenNaming

/-!
# What `mkMessage` makes is fit for the templates
-/

namespace EP.Gen

variable (E : Types)

theorem classFields_sublist : ∀ (gs : List GField), ((classFields E gs).numbers).Sublist (gs.map (·.desc.number))
  | [] => List.Sublist.slnil
  | g :: gs => by
    have ih := classFields_sublist gs
    unfold classFields
    split
    · exact ih.cons _
    · exact ih.cons_cons _
    · split
      · exact ih.cons_cons _
      · exact ih.cons_cons _

theorem classAlts_sublist : ∀ (gs : List GField), ((classAlts E gs).numbers).Sublist (gs.map (·.desc.number))
  | [] => List.Sublist.slnil
  | g :: gs => by
    have ih := classAlts_sublist gs
    unfold classAlts
    split
    · exact ih.cons _
    · exact ih.cons_cons _

theorem classOneofs_sublist : ∀ (os : List GOneof),
    ((classOneofs E os).numbers).Sublist ((os.flatMap fun o => o.fields.map (·.desc)).map (·.number))
  | [] => List.Sublist.slnil
  | o :: os => by
    have ih := classOneofs_sublist os
    have h := classAlts_sublist E o.fields
    unfold classOneofs
    rw [Oneofs.numbers, List.flatMap_cons, List.map_append, List.map_map]
    exact List.Sublist.append h ih

/-- The limits within which the generated class compiles: a field of the type of the message itself is not a
member of a oneof, nor `optional`; and what is called a message is one. -/
structure Regular (E : Types) (own : Str) (fields : List FieldDesc) : Prop where
  recursive : ∀ f ∈ fields, f.typeName = own → f.oneofIndex = none
  messages : ∀ f ∈ fields, f.type = .message → (E.message f).isMsg = true

variable {own : Str} {fields : List FieldDesc} {oneofs : List Str}

theorem mkMessage_proper (h : FieldsValid fields oneofs) (hR : Regular E own fields) (hE : E.Good fields) :
    ∃ m, mkMessage own fields oneofs = .ok m ∧ Proper E m ∧ (m.type E).WF := by
  obtain ⟨m, e, hfs, _, hp, ho, _, _, hids⟩ := mkMessage_spec (own := own) h
  obtain ⟨os, e1, _, e3, _⟩ := mkOneofs_spec (own := own) h oneofs 0 (by omega)
  have em : m.optionalFields = m.fields.filter (·.desc.proto3Optional) ∧ m.oneofs = os := by
    unfold mkMessage at e
    rw [e1] at e
    injection e with e
    subst e
    exact ⟨rfl, rfl⟩
  have hmem : ∀ g ∈ m.fields, ∃ f ∈ fields, g = factory own f none ∧ (f.oneofIndex = none ∨ f.proto3Optional = true) := by
    intro g hg
    rw [hfs] at hg
    obtain ⟨f, hf, rfl⟩ := List.mem_map.mp hg
    obtain ⟨h1, h2⟩ := List.mem_filter.mp hf
    exact ⟨f, h1, rfl, by simpa using h2⟩
  have hmem' : ∀ o ∈ m.oneofs, ∀ g ∈ o.fields,
      ∃ f ∈ fields, g = factory own f (some o.index) ∧ f.oneofIndex = some o.index := by
    intro o hoo g hg
    rw [ho o hoo] at hg
    obtain ⟨f, hf, rfl⟩ := List.mem_map.mp hg
    obtain ⟨h1, h2⟩ := List.mem_filter.mp hf
    exact ⟨f, h1, rfl, by simpa using h2⟩
  refine ⟨m, e, ⟨?_, ?_, ?_, ?_, ?_, ?_⟩, ?_⟩
  · exact em.1
  · intro g hg
    obtain ⟨f, hf, rfl, _⟩ := hmem g hg
    exact hids.mem_iff.mpr (List.mem_map.mpr ⟨f, hf, rfl⟩)
  · intro o hoo g hg
    obtain ⟨f, hf, rfl, _⟩ := hmem' o hoo g hg
    exact hids.mem_iff.mpr (List.mem_map.mpr ⟨f, hf, rfl⟩)
  · intro g hg hopt
    obtain ⟨f, hf, rfl, _⟩ := hmem g hg
    obtain ⟨i, hi, _⟩ := h.optional f hf hopt
    have hn : f.typeName ≠ own := fun hc => by
      rw [hR.recursive f hf hc] at hi
      exact nomatch hi
    rw [factory_shape hn, h.single f hf (by rw [hi]; simp)]
    rfl
  · intro o hoo g hg
    have hoo' := hoo
    rw [em.2] at hoo'
    obtain ⟨f, hf, rfl, hi⟩ := hmem' o hoo g hg
    refine ⟨?_, (e3 o hoo').2.2 f hf hi⟩
    have hn : f.typeName ≠ own := fun hc => by
      rw [hR.recursive f hf hc] at hi
      exact nomatch hi
    rw [factory_shape hn, h.single f hf (by rw [hi]; simp)]
    rfl
  · intro g hg ht
    obtain ⟨f, hf, rfl, _⟩ := hmem g hg
    have ht : f.type = .message := ht
    show (E.elem f).isMsg = true
    unfold Types.elem
    rw [ht]
    exact hR.messages f hf ht
  · have hs : ((classFields E m.fields).numbers ++ (classOneofs E m.oneofs).numbers).Sublist
        ((m.fields.map (·.desc) ++ m.oneofs.flatMap fun o => o.fields.map (·.desc)).map (·.number)) := by
      rw [List.map_append, List.map_map]
      exact List.Sublist.append (classFields_sublist E _) (classOneofs_sublist E _)
    have hp' := hp.map (·.number)
    refine ⟨classFields_wf E hE _ ?_, classOneofs_wf E hE _ ?_, hs.nodup (hp'.nodup_iff.mpr h.distinct), ?_⟩
    · intro g hg
      obtain ⟨f, hf, rfl, _⟩ := hmem g hg
      exact hf
    · intro o hoo g hg
      obtain ⟨f, hf, rfl, _⟩ := hmem' o hoo g hg
      exact hf
    · intro n hn
      obtain ⟨f, hf, rfl⟩ := List.mem_map.mp (hp'.mem_iff.mp (hs.subset hn))
      exact h.range f hf

theorem mkOneofs_names : ∀ (ns : List Str) (i : Nat) {os : List GOneof}, mkOneofs own fields ns i = .ok os →
    (os.map (·.name)).Sublist ns
  | [], i, os, h => by
    unfold mkOneofs at h
    injection h with h
    subst h
    exact List.Sublist.slnil
  | n :: ns, i, os, h => by
    unfold mkOneofs at h
    dsimp only at h
    split at h
    · exact nomatch h
    · split at h
      · exact (mkOneofs_names ns (i + 1) h).cons _
      · cases hr : mkOneofs own fields ns (i + 1) with
        | error e =>
          rw [hr] at h
          exact nomatch h
        | ok os' =>
          rw [hr] at h
          injection h with h
          subst h
          exact (mkOneofs_names ns (i + 1) hr).cons_cons n

variable {name : Str} {nested : List Str}

theorem mkMessage_named (h : FieldsValid fields oneofs) (hN : PlainNames name nested fields oneofs) {m : GMessage}
    (hm : mkMessage own fields oneofs = .ok m) : Named name nested m := by
  obtain ⟨m', e, hfs, _, hp, ho, _, _, hids⟩ := mkMessage_spec (own := own) h
  rw [hm] at e
  injection e with e
  subst e
  have hos : (m.oneofs.map (·.name)).Sublist oneofs ∧ m.optionalFields = m.fields.filter (·.desc.proto3Optional) := by
    unfold mkMessage at hm
    cases hr : mkOneofs own fields oneofs 0 with
    | error e =>
      rw [hr] at hm
      exact nomatch hm
    | ok os =>
      rw [hr] at hm
      injection hm with hm
      subst hm
      exact ⟨mkOneofs_names oneofs 0 hr, rfl⟩
  have hp' : ((m.fields ++ m.oneofs.flatMap (·.fields)).map (·.desc)).Perm fields := by
    rw [List.map_append, List.map_flatMap]
    exact hp
  have hnames : ((m.fields ++ m.oneofs.flatMap (·.fields)).map (·.desc.name)).Perm (fields.map (·.name)) := by
    have := hp'.map (·.name)
    rwa [List.map_map] at this
  refine ⟨hN.types, hN.typesDistinct, ?_, ?_, ?_, ?_, hos.2⟩
  · intro g hg
    have : g.desc.name ∈ fields.map (·.name) := hnames.mem_iff.mp (List.mem_map.mpr ⟨g, hg, rfl⟩)
    exact hN.plain _ (List.mem_append_left _ this)
  · intro o hoo
    exact hN.plain _ (List.mem_append_right _ (hos.1.subset (List.mem_map.mpr ⟨o, hoo, rfl⟩)))
  · exact (hnames.append_right _).nodup_iff.mpr ((List.Sublist.append_left hos.1 _).nodup hN.distinct)
  · have h1 := hids.map (·.2)
    rw [List.map_map] at h1
    have h2 := hp'.map fun f => upper f.name
    rw [List.map_map] at h2
    exact h1.trans h2.symm

end EP.Gen
