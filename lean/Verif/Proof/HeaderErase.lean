import Verif.Proof.HeaderMessage

/-!
# The tree and `Gen.render`
-/

namespace EP.Gen.Jinja

open Cpp

variable (S : Spelling)

theorem erase_field (g : GField) : (fieldOf S none g).erase = fieldFuns g := by
  obtain ⟨⟨x, _, _, t, _, _, p, _⟩, sh, _⟩ := g
  cases sh <;> cases t <;> cases p <;> rfl

theorem erase_alt (o : GOneof) (g : GField) (h : g.shape = .single) :
    (fieldOf S (some o) g).erase = altFuns false o.name g := by
  obtain ⟨⟨x, _, _, t, _, _, p, _⟩, sh, _⟩ := g
  cases h
  cases t <;> rfl

theorem const_field (o : Option GOneof) (g : GField) : (fieldOf S o g).const = (constName g.desc.name, g.desc.name) := by
  unfold fieldOf
  cases g.shape <;> rfl

theorem erase_assignOf (g : GField) : (assignOf g).erase = assignField g := by
  unfold assignOf assignField
  cases g.desc.proto3Optional <;> rfl

theorem flatMap_congr' {α β : Type} {f g : α → List β} {l : List α} (h : ∀ x ∈ l, f x = g x) :
    l.flatMap f = l.flatMap g := by
  rw [List.flatMap_def, List.flatMap_def, List.map_congr_left h]

theorem filter_congr' {α : Type} {p q : α → Bool} {l : List α} (h : ∀ x ∈ l, p x = q x) : l.filter p = l.filter q :=
  List.filter_congr h

theorem erase_oneof (o : GOneof) (h : ∀ g ∈ o.fields, g.shape = .single)
    (hp : ∀ g ∈ o.fields, g.desc.proto3Optional = false) :
    (oneofOf S o).eraseFuns = oneofFuns false o ++ o.fields.flatMap (altFuns false o.name) := by
  have hf : (oneofOf S o).fields.flatMap CField.erase = o.fields.flatMap (altFuns false o.name) := by
    show (o.fields.map _).flatMap _ = _
    rw [flatMap_map]
    exact flatMap_congr' fun g hg => erase_alt S o g (h g hg)
  have ha : ∀ g ∈ o.fields, allocationRequired g = (false || g.allocate) := by
    intro g hg
    have := h g hg
    obtain ⟨⟨x, _, _, t, _, _, p, _⟩, sh, _⟩ := g
    cases this
    cases t <;> rfl
  have hi : ((oneofOf S o).init.getD []).map (fun p => (p.1, [p.2.erase])) =
      (o.fields.filter fun g => false || g.allocate).map fun g =>
        (upper g.desc.name, [Act.new (.alt (under o.name) (under g.desc.name))]) := by
    show ((if o.fields.any allocationRequired then _ else _ : Option (List (Str × CAct))).getD []).map _ = _
    rw [← filter_congr' ha]
    cases hx : o.fields.any allocationRequired with
    | true => exact List.map_map ..
    | false =>
      have : o.fields.filter allocationRequired = [] := by
        rw [List.filter_eq_nil_iff]
        exact fun g hg => by simpa using List.any_eq_false.mp hx g hg
      rw [this]; rfl
  have hc : (oneofOf S o).clear.map (fun p => (p.1, [p.2.erase])) = o.fields.map fun g =>
        (upper g.desc.name, [if false || g.allocate then Act.destroy (.alt (under o.name) (under g.desc.name))
          else .clear (.alt (under o.name) (under g.desc.name))]) := by
    refine (List.map_map ..).trans (List.map_congr_left fun g hg => ?_)
    have := h g hg
    obtain ⟨⟨x, _, _, t, _, _, p, _⟩, sh, _⟩ := g
    cases this
    cases t <;> rfl
  have hd : (oneofOf S o).des = o.fields.map fun g =>
      (upper g.desc.name, if g.shape = .recursive then [] else [.field (.alt (under o.name) (under g.desc.name))]) := by
    refine List.map_congr_left fun g hg => ?_
    have := h g hg
    have hq := hp g hg
    obtain ⟨⟨x, _, _, t, _, _, p, _⟩, sh, _⟩ := g
    cases this
    cases hq
    rfl
  unfold COneof.eraseFuns
  rw [hf, hi, hc, hd]
  rfl

/-- The tree is the class of `Gen.render`, and the functions for text that of `renderShows`. -/
theorem erase_class (T : Typedef) (E : Types) (enums classes : List (List Tok)) (h : Regular T.m) :
    (classOf S T enums classes).erase (classFields E T.m.fields) (classOneofs E T.m.oneofs) =
      Gen.render false E T.name T.m := by
  have e1 : (classOf S T enums classes).vars.map (·.name) =
      (T.m.fields.filter fun g => g.shape != .recursive).map fun g => under g.desc.name := List.map_map ..
  have e2 : (classOf S T enums classes).oneofs.map COneof.union = T.m.oneofs.map fun o =>
      { type := o.name
        which := whichName o.name
        var := under o.name
        members := (o.fields.filter fun g => g.shape != .recursive).map fun g => under g.desc.name } := by
    refine (List.map_map ..).trans (List.map_congr_left fun o ho => ?_)
    have : o.fields.filter (fun g => g.shape != .recursive) = o.fields := by
      rw [List.filter_eq_self]
      intro g hg
      rw [h.single o ho g hg]; rfl
    rw [this]
    show Union.mk _ _ _ ((o.fields.map _).map _) = _
    rw [List.map_map]; rfl
  have e3 : ((classOf S T enums classes).fields ++ (classOf S T enums classes).oneofs.flatMap (·.fields)).map (·.const) =
      (T.m.fields ++ T.m.oneofs.flatMap (·.fields)).map fun g => (constName g.desc.name, g.desc.name) := by
    show (T.m.fields.map (fieldOf S none) ++ (T.m.oneofs.map (oneofOf S)).flatMap (·.fields)).map _ = _
    rw [List.map_append, List.map_append, List.map_map, flatMap_map, List.map_flatMap, List.map_flatMap]
    congr 1
    · exact List.map_congr_left fun g _ => const_field S none g
    · refine flatMap_congr' fun o _ => ?_
      exact (List.map_map ..).trans (List.map_congr_left fun g _ => const_field S (some o) g)
  have e4 : (classOf S T enums classes).fields.flatMap CField.erase ++
      (classOf S T enums classes).oneofs.flatMap COneof.eraseFuns =
      T.m.fields.flatMap fieldFuns ++
        T.m.oneofs.flatMap fun o => oneofFuns false o ++ o.fields.flatMap (altFuns false o.name) := by
    show (T.m.fields.map _).flatMap _ ++ (T.m.oneofs.map _).flatMap _ = _
    rw [flatMap_map, flatMap_map]
    congr 1
    · exact flatMap_congr' fun g _ => erase_field S g
    · exact flatMap_congr' fun o ho => erase_oneof S o (h.single o ho) (h.plain o ho)
  have e5 : (classOf S T enums classes).assign.map CStmt.erase ++
      (classOf S T enums classes).oneofs.flatMap COneof.eraseAssign =
      T.m.fields.map assignField ++ T.m.oneofs.flatMap assignOneof := by
    show (T.m.fields.map _).map _ ++ (T.m.oneofs.map _).flatMap _ = _
    rw [List.map_map, flatMap_map]
    congr 1
    · exact List.map_congr_left fun g _ => erase_assignOf g
    · refine flatMap_congr' fun o _ => ?_
      show [_, Stmt.switch _ ((o.fields.map _).map _)] = _
      rw [List.map_map]; rfl
  have e6 : (classOf S T enums classes).clear.map (fun a => Stmt.act a.erase) ++
      (classOf S T enums classes).oneofs.map (fun o => .act (.call o.clearName)) =
      T.m.fields.map (fun g => .act (.call (clearName g.desc.name))) ++
        T.m.oneofs.map fun o => .act (.call (clearName o.name)) := by
    show (T.m.fields.map _).map _ ++ (T.m.oneofs.map _).map _ = _
    rw [List.map_map, List.map_map]; rfl
  have e7 : (classOf S T enums classes).serialize.map (fun p => Ser.field p.2) ++
      (classOf S T enums classes).oneofs.map (fun o => .switch o.which (o.serialize.map fun p => (p.1, p.2.2))) =
      T.m.fields.map (fun g => .field (Gen.serField (.var (under g.desc.name)) false g)) ++
        T.m.oneofs.map fun o => .switch (whichName o.name) (o.fields.map fun g =>
          (upper g.desc.name, Gen.serField (.alt (under o.name) (under g.desc.name)) true g)) := by
    show (T.m.fields.map _).map _ ++ (T.m.oneofs.map _).map _ = _
    rw [List.map_map, List.map_map]
    congr 1
    refine List.map_congr_left fun o _ => ?_
    show Ser.switch _ ((o.fields.map _).map _) = _
    rw [List.map_map]; rfl
  have e8 : (classOf S T enums classes).cases.map (fun p => Case.field p.1 p.2) ++
      (classOf S T enums classes).oneofs.map (fun o => .oneof (o.des.map (·.1)) o.desName) =
      T.m.fields.map (fun g => .field (upper g.desc.name) (desField g)) ++
        T.m.oneofs.map fun o => .oneof (o.fields.map fun g => upper g.desc.name) (deserializeName o.name) := by
    show (T.m.fields.map _).map _ ++ (T.m.oneofs.map _).map _ = _
    rw [List.map_map, List.map_map]
    congr 1
    refine List.map_congr_left fun o _ => ?_
    show Case.oneof ((o.fields.map _).map _) _ = _
    rw [List.map_map]; rfl
  unfold CClass.erase
  rw [e1, e2, e3, e4, e5, e6, e7, e8]
  rfl

theorem erase_shows (T : Typedef) (enums classes : List (List Tok)) :
    (classOf S T enums classes).eraseShows = renderShows T.m := by
  show Shows.mk _ ((T.m.oneofs.map _).map _) = _
  rw [List.map_map]; rfl

end EP.Gen.Jinja
