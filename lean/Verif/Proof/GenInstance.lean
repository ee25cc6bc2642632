import Verif.Model.GenInstance
import Verif.Proof.Lookup
import Verif.Proof.GenTemplates

/-!
# Instances of the generated class templates
-/

namespace EP.Gen

theorem argument_getElem {names : List Str} {args : List Nat} (hn : names.Nodup) {i : Nat} {s : Str}
    (h : names[i]? = some s) : argument names args s = args[i]? := by
  obtain ⟨hi, e⟩ := List.getElem?_eq_some_iff.mp h
  unfold argument
  rw [← e, hn.idxOf_getElem i hi]

theorem argument_mem {names : List Str} {args : List Nat} (hl : args.length = names.length) {s : Str} (h : s ∈ names) :
    ∃ x ∈ args, argument names args s = some x := by
  have hi : names.idxOf s < args.length := hl ▸ List.idxOf_lt_length_of_mem h
  exact ⟨args[names.idxOf s], List.getElem_mem hi, List.getElem?_eq_getElem hi⟩

/-- Looking up names that are all there. -/
theorem mapM_some {α β : Type} {f : α → Option β} {S : β → Prop} : ∀ (l : List α), (∀ a ∈ l, ∃ x, S x ∧ f a = some x) →
    ∃ ys : List β, l.mapM f = some ys ∧ ys.length = l.length ∧ (∀ y ∈ ys, S y) ∧ ∀ (i : Nat) (a : α), l[i]? = some a → ys[i]? = f a
  | [], _ => ⟨[], rfl, rfl, fun _ h => (nomatch h), fun _ _ h => by simp at h⟩
  | a :: l, h => by
    obtain ⟨x, hx, e⟩ := h a List.mem_cons_self
    obtain ⟨ys, h1, h2, h3, h4⟩ := mapM_some l fun b hb => h b (List.mem_cons_of_mem _ hb)
    refine ⟨x :: ys, ?_, by rw [List.length_cons, List.length_cons, h2], ?_, ?_⟩
    · rw [List.mapM_cons, e, h1]
      rfl
    · intro y hy
      rcases List.mem_cons.mp hy with rfl | hy
      · exact hx
      · exact h3 y hy
    · intro i b hb
      cases i with
      | zero =>
        simp only [List.getElem?_cons_zero, Option.some.injEq] at hb ⊢
        rw [← hb, e]
      | succ i =>
        simp only [List.getElem?_cons_succ] at hb ⊢
        exact h4 i b hb

theorem files_defs : ∀ files : List (Str × List MsgDesc), (files.flatMap fun f => allMsgs f.1 f.2) = allDefs files
  | [] => rfl
  | f :: fs => by rw [List.flatMap_cons, allDefs, files_defs fs, allMsgs_eq_defsList]

theorem findMsg_defined {files : List (Str × List MsgDesc)} (hn : (allClasses files).Nodup) {own : Str} {m : MsgDesc}
    (h : Defined files own m) : findMsg files own = some m := by
  unfold findMsg
  rw [files_defs]
  have hm := mem_allDefs.mpr h
  cases e : (allDefs files).find? fun m => m.1 = own with
  | none => exact absurd (List.find?_eq_none.mp e (own, m) hm) (by simp)
  | some x =>
    have h1 := List.mem_of_find?_eq_some e
    have h2 : x.1 = own := by simpa using List.find?_some e
    have h1 : (own, x.2) ∈ allDefs files := h2 ▸ h1
    exact congrArg some (unique_snd (by rw [allDefs_fst]; exact hn) h1 hm)

theorem render_length (own : Str) (f : FieldDesc) : (Path.length f).render own = lengthParam own f := by
  simp [Path.render, lengthParam]

theorem render_count (own : Str) (f : FieldDesc) : (Path.count f).render own = countParam own f := by
  simp [Path.render, countParam]

theorem render_inside (own : Str) (f : FieldDesc) (p : Path) :
    (Path.inside f p).render own = innerParam own f (p.render f.typeName) := by
  simp [Path.render, innerParam]

theorem inst_defined {files : List (Str × List MsgDesc)} {t : Str} (h : t ∈ allClasses files) : ∃ m, Defined files t m := by
  rw [← allDefs_fst] at h
  obtain ⟨q, hq, rfl⟩ := List.mem_map.mp h
  exact ⟨q.2, mem_allDefs.mp hq⟩

section
variable {files : List (Str × List MsgDesc)} {P : Str → List Str}
  (ho : Ordered files) (hc : Counted files) (hd : Distinguished files) (hu : Unshadowed files takenNames)
  (hn : NoOwn files) (hP : templates files = .ok P)

include ho hc hP

theorem inst_mem {own : Str} {m : MsgDesc} (h : Defined files own m) {s : Str} :
    s ∈ P own ↔ ∃ p, Needs (Defined files) own p ∧ p.render own = s := by
  obtain ⟨ps, h1, _, h3⟩ := ho.templates hc hP h
  rw [h1, List.mem_map]
  exact ⟨fun ⟨p, hp, e⟩ => ⟨p, (h3 p).mp hp, e⟩, fun ⟨p, hp, e⟩ => ⟨p, (h3 p).mpr hp, e⟩⟩

include hd in
theorem inst_nodup {own : Str} {m : MsgDesc} (h : Defined files own m) : (P own).Nodup := by
  obtain ⟨ps, h1, h2, h3⟩ := ho.templates hc hP h
  rw [h1]
  exact List.pairwise_map.mpr (h2.imp_of_mem fun ha hb hne e => hne (hd own _ _ ((h3 _).mp ha) ((h3 _).mp hb) e))

include hd hu in
theorem inst_params {own : Str} {m : MsgDesc} (h : Defined files own m) : ParamsOK files P own m := by
  refine ⟨inst_nodup ho hc hd hP h, ?_, ?_⟩
  · intro t ht henc s hs hs'
    obtain ⟨_, htm⟩ := inst_defined ht
    obtain ⟨p, hp, rfl⟩ := (inst_mem ho hc hP htm).mp hs
    obtain ⟨q, hq, e⟩ := (inst_mem ho hc hP h).mp hs'
    exact hu.outer t own p q henc hp hq e.symm
  · intro t ht henc s hs
    obtain ⟨_, htm⟩ := inst_defined ht
    obtain ⟨p, hp, rfl⟩ := (inst_mem ho hc hP htm).mp hs
    exact hu.members t own m p h henc hp

/-- What is shown of the instances of the types of fields. -/
def InstOK (files : List (Str × List MsgDesc)) (P : Str → List Str) (n : Nat) (own : Str) : Prop :=
  ∀ args : List Nat, args.length = (P own).length → ∃ fs os, instantiate files P n own args = some (.msg fs os) ∧
    (∀ v, Assigned files P own args v → InstanceOf (Defined files) own v (.msg fs os)) ∧
    ((∀ a ∈ args, GoodLength a) → (∀ own m f, Defined files own m → f ∈ m.fields → f.maxLength < 2147483648) →
      (ElemTy.msg fs os).WF)

include hn in
/-- The instance of the type of a field. -/
theorem inst_field {n : Nat} {own : Str} {m : MsgDesc} (h : Defined files own m) {f : FieldDesc} (hf : f ∈ m.fields)
    (ht : f.type = .message) (ih : InstOK files P n f.typeName) {args : List Nat} (hl : args.length = (P own).length) :
    ∃ args', (P f.typeName).mapM (fun p => argument (P own) args (innerParam own f p)) = some args' ∧
      args'.length = (P f.typeName).length ∧ (∀ a ∈ args', a ∈ args) ∧
      (∀ (i : Nat) p, (P f.typeName)[i]? = some p → args'[i]? = argument (P own) args (innerParam own f p)) ∧
      ∃ fs os, instantiate files P n f.typeName args' = some (.msg fs os) := by
  have hb := ho.ordered own m f h hf ht (hn own m h f hf)
  obtain ⟨mt, hmt⟩ := inst_defined (hb.subset (List.mem_cons_self (l := [own])))
  obtain ⟨args', h1, h2, h3, h4⟩ := mapM_some (f := fun p => argument (P own) args (innerParam own f p)) (S := (· ∈ args))
    (P f.typeName) fun p hp => by
      obtain ⟨q, hq, rfl⟩ := (inst_mem ho hc hP hmt).mp hp
      refine argument_mem hl ((inst_mem ho hc hP h).mpr ⟨.inside f q, ⟨m, h, hf, hn own m h f hf, ht, hq⟩, ?_⟩)
      exact render_inside own f q
  obtain ⟨fs, os, e, _⟩ := ih args' h2
  exact ⟨args', h1, h2, h3, h4, fs, os, e⟩

include hd hu hn in
/-- One class, given the instances of the types of its fields. -/
theorem inst_step {n : Nat} {own : Str} {m : MsgDesc} (h : Defined files own m)
    (ih : ∀ f ∈ m.fields, f.type = .message → InstOK files P n f.typeName) {args : List Nat}
    (hl : args.length = (P own).length) :
    ∃ g, mkMessage own m.fields m.oneofs = .ok g ∧
      instantiate files P (n + 1) own args = some (g.type (instanceTypes P (instantiate files P n) own args)) ∧
      (∀ v, Assigned files P own args v →
        InstanceOf (Defined files) own v (g.type (instanceTypes P (instantiate files P n) own args))) ∧
      (∀ f ∈ m.fields, f.type = .message → ((instanceTypes P (instantiate files P n) own args).message f).isMsg = true) ∧
      ((∀ a ∈ args, GoodLength a) → (∀ own m f, Defined files own m → f ∈ m.fields → f.maxLength < 2147483648) →
        (instanceTypes P (instantiate files P n) own args).Good m.fields) := by
  have hv := ho.fields own m h
  have hne := hn own m h
  obtain ⟨g, eg, _⟩ := mkMessage_spec (own := own) hv
  obtain ⟨g', eg', hperm, hplaced⟩ := mkMessage_placed (own := own) (instanceTypes P (instantiate files P n) own args) hv hne
  rw [eg] at eg'
  injection eg' with eg'
  subst eg'
  have hin : ∀ p, Needs (Defined files) own p → ∃ x ∈ args, argument (P own) args (p.render own) = some x :=
    fun p hp => argument_mem hl ((inst_mem ho hc hP h).mpr ⟨p, hp, rfl⟩)
  have hmem : g.fields ++ g.oneofs.flatMap (·.fields) = members own m := by unfold members; rw [eg]
  have hfield : ∀ f ∈ m.fields, f.type = .message → ∃ args' fs os,
      fieldInstance P (instantiate files P n) own args f = some (.msg fs os) ∧
      instantiate files P n f.typeName args' = some (.msg fs os) ∧ args'.length = (P f.typeName).length ∧
      (∀ a ∈ args', a ∈ args) ∧
      (∀ (i : Nat) p, (P f.typeName)[i]? = some p → args'[i]? = argument (P own) args (innerParam own f p)) := by
    intro f hf ht
    obtain ⟨args', h1, h2, h3, h4, fs, os, h5⟩ := inst_field ho hc hn hP h hf ht (ih f hf ht) hl
    refine ⟨args', fs, os, ?_, h5, h2, h3, h4⟩
    unfold fieldInstance
    rw [h1]
    exact h5
  refine ⟨g, eg, ?_, ?_, ?_, ?_⟩
  · rw [instantiate, findMsg_defined ho.distinct h]
    show (match mkMessage own m.fields m.oneofs with | .error _ => none | .ok g => _) = _
    rw [eg]
    refine if_pos ⟨inst_params ho hc hd hu hP h, hl, ?_⟩
    rw [hmem, List.all_eq_true]
    intro x hx
    have hxf := ho.member h hx
    have hsr := ho.shape_repeated h hx
    have hxn := hne x.desc hxf
    have hstr : (x.desc.type = .string ∨ x.desc.type = .bytes) →
        (x.desc.maxLength != 0 || (argument (P own) args (lengthParam own x.desc)).isSome) = true := by
      intro ht
      by_cases h0 : x.desc.maxLength = 0
      · obtain ⟨y, _, e⟩ := hin (.length x.desc) ⟨m, h, hxf, hxn, ht, h0⟩
        rw [render_length] at e
        rw [e]
        simp
      · simp [h0]
    have hcount : x.shape = .repeated →
        (x.desc.maxLength != 0 || (argument (P own) args (countParam own x.desc)).isSome) = true := by
      intro hs
      by_cases h0 : x.desc.maxLength = 0
      · obtain ⟨y, _, e⟩ := hin (.count x.desc) ⟨m, h, hxf, hxn, (hsr.mp hs).2, h0⟩
        rw [render_count] at e
        rw [e]
        simp
      · simp [h0]
    have htype : (match x.desc.type with
        | .scalar _ => true
        | .enum => true
        | .string => x.desc.maxLength != 0 || (argument (P own) args (lengthParam own x.desc)).isSome
        | .bytes => x.desc.maxLength != 0 || (argument (P own) args (lengthParam own x.desc)).isSome
        | .message => (fieldInstance P (instantiate files P n) own args x.desc).isSome) = true := by
      cases ht : x.desc.type with
      | scalar _ => rfl
      | enum => rfl
      | string => exact hstr (.inl ht)
      | bytes => exact hstr (.inr ht)
      | message =>
        obtain ⟨_, _, _, e, _⟩ := hfield x.desc hxf ht
        rw [e]
        rfl
    unfold memberOK
    cases hs : x.shape with
    | recursive => rfl
    | repeated =>
      refine Bool.and_eq_true_iff.mpr ⟨?_, htype⟩
      rw [Bool.or_assoc, hcount hs]
      rfl
    | single => exact Bool.and_eq_true_iff.mpr ⟨rfl, htype⟩
  · intro v hva
    have hval : ∀ p, Needs (Defined files) own p → argument (P own) args (p.render own) = some (v p) := by
      intro p hp
      obtain ⟨i, h1, h2⟩ := hva p hp
      rw [argument_getElem (inst_nodup ho hc hd hP h) h1, h2]
    refine .mk (E := instanceTypes P (instantiate files P n) own args) h ?_ ?_ ?_ hperm hplaced
    · intro f hf ht
      obtain ⟨args', fs, os, e1, e2, h3, _, h5⟩ := hfield f hf ht
      obtain ⟨fs', os', e3, h6, _⟩ := ih f hf ht args' h3
      rw [e2] at e3
      show InstanceOf _ _ _ ((fieldInstance P (instantiate files P n) own args f).getD _)
      rw [e1]
      injection e3 with e3
      show InstanceOf _ _ _ (.msg fs os)
      rw [e3]
      refine h6 _ fun q hq => ?_
      have hb := ho.ordered own m f h hf ht (hne f hf)
      obtain ⟨mt, hmt⟩ := inst_defined (hb.subset (List.mem_cons_self (l := [own])))
      obtain ⟨i, hi⟩ := List.mem_iff_getElem?.mp ((inst_mem ho hc hP hmt).mpr ⟨q, hq, rfl⟩)
      refine ⟨i, hi, ?_⟩
      rw [h5 i _ hi, ← render_inside]
      exact hval (.inside f q) ⟨m, h, hf, hne f hf, ht, hq⟩
    · intro f hf ht h0
      have := hval (.length f) ⟨m, h, hf, hne f hf, ht, h0⟩
      rw [render_length] at this
      show (argument (P own) args (lengthParam own f)).getD 1 = _
      rw [this]
      rfl
    · intro f hf hr h0
      have := hval (.count f) ⟨m, h, hf, hne f hf, hr, h0⟩
      rw [render_count] at this
      show (argument (P own) args (countParam own f)).getD 1 = _
      rw [this]
      rfl
  · intro f hf ht
    obtain ⟨_, _, _, e, _⟩ := hfield f hf ht
    show ((fieldInstance P (instantiate files P n) own args f).getD _).isMsg = true
    rw [e]
    rfl
  · intro hg hm
    have hone : ∀ s, GoodLength ((argument (P own) args s).getD 1) := by
      intro s
      cases e : argument (P own) args s with
      | none => exact ⟨by decide, by decide⟩
      | some x => exact hg x (List.mem_of_getElem? e)
    refine ⟨?_, fun f _ => hone _, fun f _ => (hone _).2, fun f hf => hm own m f h hf⟩
    intro f hf ht
    obtain ⟨args', fs, os, e1, e2, h3, h4, _⟩ := hfield f hf ht
    obtain ⟨fs', os', e3, _, h7⟩ := ih f hf ht args' h3
    rw [e2] at e3
    injection e3 with e3
    show ((fieldInstance P (instantiate files P n) own args f).getD _).WF
    rw [e1]
    show (ElemTy.msg fs os).WF
    rw [e3]
    exact h7 (fun a ha => hg a (h4 a ha)) hm

include hd hu hn in
theorem inst_ok : ∀ (n : Nat) (own : Str) (m : MsgDesc), Defined files own m → (allClasses files).idxOf own < n →
    InstOK files P n own
  | 0, _, _, _, h => nomatch h
  | n + 1, own, m, h, hlt => by
    intro args hl
    have ih : ∀ f ∈ m.fields, f.type = .message → InstOK files P n f.typeName := by
      intro f hf ht
      have hb := ho.ordered own m f h hf ht (hn own m h f hf)
      obtain ⟨mt, hmt⟩ := inst_defined (hb.subset (List.mem_cons_self (l := [own])))
      have := idxOf_lt ho.distinct hb
      exact inst_ok n f.typeName mt hmt (by omega)
    obtain ⟨g, eg, h1, h2, _, h4⟩ := inst_step ho hc hd hu hn hP h ih hl
    refine ⟨_, _, h1, h2, fun ha hm => ?_⟩
    obtain ⟨g', eg', hw⟩ := mkMessage_wf (own := own) _ (ho.fields own m h) (hn own m h) (h4 ha hm)
    rw [eg] at eg'
    injection eg' with eg'
    subst eg'
    exact hw

end

end EP.Gen
