import Verif.Proof.GenAccess
import Verif.Proof.GenProper

/-!
# `field_number_to_name`, and fields of the type of the message itself
-/

namespace EP.Gen

theorem inj_of_nodup_map {α β : Type} {f : α → β} : ∀ {l : List α}, (l.map f).Nodup → ∀ a ∈ l, ∀ b ∈ l, f a = f b → a = b
  | [], _, _, ha, _, _, _ => nomatch ha
  | c :: l, hd, a, ha, b, hb, hab => by
    rw [List.map_cons, List.nodup_cons] at hd
    rcases List.mem_cons.mp ha with ea | ha'
    · rcases List.mem_cons.mp hb with eb | hb'
      · exact ea.trans eb.symm
      · exact absurd (List.mem_map.mpr ⟨b, hb', hab.symm.trans (congrArg f ea)⟩) hd.1
    · rcases List.mem_cons.mp hb with eb | hb'
      · exact absurd (List.mem_map.mpr ⟨a, ha', hab.trans (congrArg f eb)⟩) hd.1
      · exact inj_of_nodup_map hd.2 a ha' b hb' hab

variable {E : Types} {alloc : Bool} {name own : Str} {nested : List Str} {fields : List FieldDesc} {oneofs : List Str}
  {m : GMessage}

local notation "K" => render alloc E name m

section
variable (h : FieldsValid fields oneofs) (e : mkMessage own fields oneofs = .ok m) (D : (render alloc E name m).Distinct nested)
include h e

theorem desc_mem {g : GField} (hg : g ∈ allFields m) : g.desc ∈ fields := by
  obtain ⟨m', e', _, _, hp, _⟩ := mkMessage_spec (own := own) h
  rw [e] at e'
  injection e' with e'
  subst e'
  refine hp.mem_iff.mp ?_
  rcases List.mem_append.mp hg with hg | hg
  · exact List.mem_append_left _ (List.mem_map.mpr ⟨g, hg, rfl⟩)
  · obtain ⟨o, ho, hg⟩ := List.mem_flatMap.mp hg
    exact List.mem_append_right _ (List.mem_flatMap.mpr ⟨o, ho, List.mem_map.mpr ⟨g, hg, rfl⟩⟩)

theorem desc_all {f : FieldDesc} (hf : f ∈ fields) : ∃ g ∈ allFields m, g.desc = f := by
  obtain ⟨m', e', _, _, hp, _⟩ := mkMessage_spec (own := own) h
  rw [e] at e'
  injection e' with e'
  subst e'
  rcases List.mem_append.mp (hp.mem_iff.mpr hf) with hg | hg
  · obtain ⟨g, hg', rfl⟩ := List.mem_map.mp hg
    exact ⟨g, List.mem_append_left _ hg', rfl⟩
  · obtain ⟨o, ho, hg⟩ := List.mem_flatMap.mp hg
    obtain ⟨g, hg', rfl⟩ := List.mem_map.mp hg
    exact ⟨g, List.mem_append_right _ (List.mem_flatMap.mpr ⟨o, ho, hg'⟩), rfl⟩

include D

theorem number_declared {f : FieldDesc} (hf : f ∈ fields) : Class.number K (upper f.name) = .ok f.number := by
  obtain ⟨m', e', _, _, _, _, _, _, hids⟩ := mkMessage_spec (own := own) h
  rw [e] at e'
  injection e' with e'
  subst e'
  refine Class.number_eq D (List.mem_cons_of_mem _ (List.mem_map.mpr ⟨(f.number, upper f.name), ?_, rfl⟩))
  exact hids.mem_iff.mpr (List.mem_map.mpr ⟨f, hf, rfl⟩)

theorem select_declared (n : Nat) : ∀ gs : List GField, (∀ g ∈ gs, g ∈ allFields m) →
    Class.select K n (gs.map fun g => (upper g.desc.name, constName g.desc.name)) =
      .ok ((gs.find? (·.desc.number == n)).map fun g => constName g.desc.name)
  | [], _ => rfl
  | g :: gs, hg => by
    show (Class.number K (upper g.desc.name) >>= _ : Res _) = _
    rw [number_declared h e D (desc_mem h e (hg g List.mem_cons_self)), Res.ok_bind]
    by_cases hn : n = g.desc.number
    · rw [if_pos hn, List.find?_cons_of_pos (by rw [hn]; exact beq_self_eq_true _)]
      rfl
    · rw [if_neg hn, List.find?_cons_of_neg (by simpa using Ne.symm hn)]
      exact select_declared n gs fun g h => hg g (List.mem_cons_of_mem _ h)

/-- `field_number_to_name(number)` -/
theorem fieldNumberToName_declared (n : Nat) :
    (∀ f ∈ fields, f.number = n → Class.fieldNumberToName K n = .ok f.name) ∧
    ((∀ f ∈ fields, f.number ≠ n) → Class.fieldNumberToName K n = .ok "Invalid FieldNumber".toList) := by
  have hs := select_declared h e D n (allFields m) fun g h => h
  have hs : Class.select K n (K).names = _ := hs
  unfold Class.fieldNumberToName
  rw [hs, Res.ok_bind]
  constructor
  · intro f hf hn
    obtain ⟨g, hg, rfl⟩ := desc_all h e hf
    cases hc : (allFields m).find? (·.desc.number == n) with
    | none => exact absurd (by simpa using hn) (List.find?_eq_none.mp hc g hg)
    | some g' =>
      have hg' := List.mem_of_find?_eq_some hc
      have hn' : g'.desc.number = n := by simpa using List.find?_some hc
      have he : g'.desc = g.desc := inj_of_nodup_map (f := fun f : FieldDesc => f.number) h.distinct _ (desc_mem h e hg')
        _ hf (hn'.trans hn.symm)
      have hd : ((K).consts.map (·.1)).Nodup := by
        have := D.scope
        unfold Class.declared at this
        have := (List.pairwise_append.mp this).1
        have := (List.pairwise_append.mp this).1
        have := (List.pairwise_append.mp this).2.1
        refine nodup_of_clashes ?_
        rw [List.map_map]
        exact this
      have : (K).consts.lookup (constName g'.desc.name) = some g'.desc.name :=
        lookup_of_nodup hd (List.mem_map.mpr ⟨g', hg', rfl⟩)
      show need ((K).consts.lookup (constName g'.desc.name)) = _
      rw [this, he]
      rfl
  · intro hn
    have : (allFields m).find? (·.desc.number == n) = none := List.find?_eq_none.mpr fun g hg => by
      simpa using hn _ (desc_mem h e hg)
    rw [this]
    rfl

/-- The cases before that of the field are passed over. -/
theorem step_field {β : Type} [ReadBuffer β] (fuel : Nat) (wt : WireType) (b : β) (x : Class.Obj K) (cs : List Case)
    {g : GField} : ∀ gs : List GField, (∀ g ∈ gs, g ∈ allFields m) → g ∈ gs →
    Class.step K fuel g.desc.number wt b x (gs.map (fun g => .field (upper g.desc.name) (desField g)) ++ cs) =
      Class.des K fuel wt (desField g) .noErrors b x ∨ ∃ g' ∈ gs, g'.desc = g.desc ∧ g' ≠ g
  | [], _, hg => nomatch hg
  | g' :: gs, hs, hg => by
    by_cases hn : g.desc.number = g'.desc.number
    · by_cases hgg : g' = g
      · subst hgg
        left
        show (Class.number K (upper g'.desc.name) >>= _ : Res _) = _
        rw [number_declared h e D (desc_mem h e (hs g' List.mem_cons_self)), Res.ok_bind]
        exact if_pos rfl
      · refine .inr ⟨g', List.mem_cons_self, ?_, hgg⟩
        exact inj_of_nodup_map (f := fun f : FieldDesc => f.number) h.distinct _ (desc_mem h e (hs g' List.mem_cons_self))
          _ (desc_mem h e (hs g hg)) hn.symm
    · rcases List.mem_cons.mp hg with rfl | hg'
      · exact absurd rfl hn
      · rcases step_field fuel wt b x cs gs (fun g hg => hs g (List.mem_cons_of_mem _ hg)) hg' with ih | ⟨k, hk, h1, h2⟩
        · left
          show (Class.number K (upper g'.desc.name) >>= _ : Res _) = _
          rw [number_declared h e D (desc_mem h e (hs g' List.mem_cons_self)), Res.ok_bind, if_neg hn]
          exact ih
        · exact .inr ⟨k, List.mem_cons_of_mem _ hk, h1, h2⟩

/-- A field that is left out: nothing is read after its tag. -/
theorem step_left_out {β : Type} [ReadBuffer β] (fuel : Nat) (wt : WireType) (b : β) (x : Class.Obj K) {f : FieldDesc}
    (hf : f ∈ fields) (ht : f.typeName = own) (hi : f.oneofIndex = none) :
    Class.step K fuel f.number wt b x (Class.cases K) = .ok (.noErrors, b, x) := by
  obtain ⟨m', e', hfs, _⟩ := mkMessage_spec (own := own) h
  rw [e] at e'
  injection e' with e'
  subst e'
  have hg : factory own f none ∈ m.fields := by
    rw [hfs]
    exact List.mem_map.mpr ⟨f, List.mem_filter.mpr ⟨hf, by simp [hi]⟩, rfl⟩
  have hrec : (factory own f none).shape = .recursive := if_pos ht
  rcases step_field h e D fuel wt b x (m.oneofs.map fun o => .oneof (o.fields.map fun g => upper g.desc.name)
      (deserializeName o.name)) (g := factory own f none) m.fields (fun g hg => List.mem_append_left _ hg) hg with hs | hs
  · refine Eq.trans hs ?_
    unfold desField
    rw [hrec]
    rfl
  · obtain ⟨g', hg', h1, h2⟩ := hs
    rw [hfs] at hg'
    obtain ⟨f', _, rfl⟩ := List.mem_map.mp hg'
    have h1 : f' = f := h1
    exact absurd (by rw [h1]) h2

end
end EP.Gen
