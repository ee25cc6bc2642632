import Verif.Proof.GenRequest
import Verif.Props.Lookup
import Verif.Props.Templates
import Verif.Props.Generator
import Verif.Props.Files
import Verif.Props.Order

/-!
# C80: from the request of protoc to the headers
-/

namespace EP
open Gen

/-- What protoc has checked, and that the files are named `….proto`. -/
structure Checked (request : List ReqFile) : Prop where
  imports : RequestValid (request.map (·.req))
  names : ∀ f ∈ request, ProtoName f.req.name
  fields : ∀ f ∈ needed request, ∀ scope m, At f.desc.package f.desc.messages scope m → FieldsValid m.fields m.oneofs
  distinct : ((needed request).flatMap fun f => f.desc.header f.desc.messages).Nodup
  plain : FilesNames ((needed request).map (·.desc))
  known : ∀ f ∈ needed request, ∀ scope m, At f.desc.package f.desc.messages scope m → ∀ fd ∈ m.fields,
    fd.type = .message ∨ fd.type = .enum → KnownType ((needed request).map (·.desc)) fd

/-- **C80**: if the generator reports no error, there is one header for every file of the user, it defines the types of
the file, each once and after those it uses, and the class of every message has a place for every field, the lengths it
needs as template parameters, and the declared types. -/
def C80_Statement (request : List ReqFile) : Prop :=
  Checked request → (plugin request).error = none →
    ((plugin request).files.map (·.header.name)).Nodup ∧
    (∀ o ∈ (plugin request).files, ∃ f ∈ needed request, o.header.name = stem f.req.name ++ ".h".toList) ∧
    ∀ f ∈ request, f.User → ∃ o ∈ (plugin request).files, o.header.name = stem f.req.name ++ ".h".toList ∧
      FileFor ((needed request).map (·.desc))
        (programOf (outParams (plugin request).files) ((needed request).map (·.desc))) f.desc o

/-- Requests for which the headers are right. -/
structure GoodRequest (request : List ReqFile) : Prop where
  plain : PlainRequest request
  files : FilesOK [] ((needed request).map (·.desc))
  counted : Counted (unsorted ((needed request).map (·.desc)))
  noOwn : NoOwn (unsorted ((needed request).map (·.desc)))
  own : OwnNames (programOf (fun _ => []) ((needed request).map (·.desc)))
  /-- no type is nested in a message that needs a length -/
  flat : ∀ own p, Needs (Defined (unsorted ((needed request).map (·.desc)))) own p →
    ∀ q ∈ (programOf (fun _ => []) ((needed request).map (·.desc))).types, pathOf own <+: q → pathOf own = q

namespace Gen

theorem FilesOK.mem {prior : List Str} {l : List FileDesc} (h : FilesOK prior l) : ∀ d ∈ l, ∃ prior, FileOK prior d := by
  induction l generalizing prior with
  | nil => exact fun d hd => nomatch hd
  | cons x l ih =>
    intro d hd
    rcases List.mem_cons.mp hd with rfl | hd
    · exact ⟨prior, h.1⟩
    · exact ih h.2 d hd

theorem ImportsFollow.nodup : ∀ {l : List ProtoReq}, ImportsFollow l → (l.map (·.name)).Nodup
  | [], _ => .nil
  | f :: rest, h => by
    refine List.nodup_cons.mpr ⟨fun hm => ?_, ImportsFollow.nodup h.1⟩
    obtain ⟨g, hg, e⟩ := List.mem_map.mp hm
    exact h.2.1 g hg e

theorem names_nodup {request : List ReqFile} (h : RequestValid (request.map (·.req))) : (request.map (·.req.name)).Nodup := by
  have := ImportsFollow.nodup h
  rw [List.map_reverse, (List.reverse_perm _).nodup_iff, List.map_map] at this
  exact this

theorem needed_sub {request : List ReqFile} : ∀ f ∈ needed request, f ∈ request := by
  intro f hf
  unfold needed at hf
  rcases List.mem_append.mp hf with hf | hf
  · split at hf
    · exact (List.mem_filter.mp hf).1
    · exact nomatch hf
  · exact (List.mem_filter.mp hf).1

theorem needed_nodup {request : List ReqFile} (h : (request.map (·.req.name)).Nodup) : ((needed request).map (·.req.name)).Nodup := by
  unfold needed
  rw [List.map_append]
  refine List.nodup_append.mpr ⟨?_, ?_, ?_⟩
  · split
    · exact h.sublist (List.filter_sublist.map _)
    · exact .nil
  · exact h.sublist (List.filter_sublist.map _)
  · intro a ha b hb e
    subst e
    obtain ⟨g, hg, rfl⟩ := List.mem_map.mp hb
    have hu : g.User := of_decide_eq_true (List.mem_filter.mp hg).2
    split at ha
    · obtain ⟨g', hg', e⟩ := List.mem_map.mp ha
      have : g'.req.name = googleFile := beq_iff_eq.mp (List.mem_filter.mp hg').2
      exact hu.2 (e ▸ this)
    · exact nomatch ha

theorem user_needed {request : List ReqFile} {f : ReqFile} (hf : f ∈ request) (hu : f.User) : f ∈ needed request :=
  List.mem_append_right _ (List.mem_filter.mpr ⟨hf, decide_eq_true hu⟩)

/-- What a response without error comes from. -/
theorem plugin_ok {request : List ReqFile} (h : (plugin request).error = none) : ∃ files P,
    fileDefs request = .ok files ∧ templates (unsorted (files.map (·.desc))) = .ok P ∧
    (renderFiles P (definitions (files.map (·.desc))) files).2 = none ∧
    (plugin request).files = (renderFiles P (definitions (files.map (·.desc))) files).1 := by
  unfold plugin at h ⊢
  cases hp : prepare request with
  | error e => rw [hp] at h; exact nomatch h
  | ok r =>
    obtain ⟨files, P⟩ := r
    rw [hp] at h
    unfold prepare at hp
    obtain ⟨files', h1, hp⟩ := except_bind_ok hp
    obtain ⟨_, _, hp⟩ := except_bind_ok hp
    obtain ⟨P', h3, hp⟩ := except_bind_ok hp
    injection hp with hp
    injection hp with e1 e2
    subst e1 e2
    rw [register_eq] at h3
    refine ⟨files', P', h1, ?_, h, rfl⟩
    rw [← h3, unsorted, List.map_map]
    rfl

theorem allClasses_sublist : ∀ ds : List FileDesc, (allClasses (unsorted ds)).Sublist (ds.flatMap fun f => f.header f.messages)
  | [] => .refl _
  | d :: ds => by
    rw [List.flatMap_cons]
    exact ((classes_sublist _ _).trans (List.sublist_append_right _ _)).append (allClasses_sublist ds)

theorem mem_unsorted {fs : List FileDesc} {own : Str} {m : MsgDesc} : Defined (unsorted fs) own m ↔ MessageNamed fs own m := by
  unfold Defined MessageNamed unsorted
  constructor
  · rintro ⟨p, hp, h⟩
    obtain ⟨f, hf, rfl⟩ := List.mem_map.mp hp
    exact ⟨f, hf, h⟩
  · rintro ⟨f, hf, h⟩
    exact ⟨_, List.mem_map.mpr ⟨f, hf, rfl⟩, h⟩

section
variable {l files : List ReqFile} (ho : openAll l = .ok files)
include ho

theorem opened_of {own : Str} {m' : MsgDesc} (h : Defined (unsorted (files.map (·.desc))) own m') :
    ∃ m, Defined (unsorted (l.map (·.desc))) own m ∧ m'.name = m.name ∧ m'.fields = m.fields ∧ m'.oneofs = m.oneofs ∧
      m'.enums = m.enums := by
  obtain ⟨d', hd', scope, hat, rfl⟩ := mem_unsorted.mp h
  obtain ⟨f', hf', rfl⟩ := List.mem_map.mp hd'
  obtain ⟨f, hf, o⟩ := mem_openAll ho f' hf'
  obtain ⟨m, h1, h2, h3⟩ := o.desc.of_at hat
  exact ⟨m, mem_unsorted.mpr ⟨_, List.mem_map_of_mem hf, scope, h1, by rw [h2]⟩, h2, h3⟩

theorem of_opened {own : Str} {m : MsgDesc} (h : Defined (unsorted (l.map (·.desc))) own m) :
    ∃ m', Defined (unsorted (files.map (·.desc))) own m' ∧ m'.name = m.name ∧ m'.fields = m.fields ∧ m'.oneofs = m.oneofs ∧
      m'.enums = m.enums := by
  obtain ⟨d, hd, scope, hat, rfl⟩ := mem_unsorted.mp h
  obtain ⟨f, hf, rfl⟩ := List.mem_map.mp hd
  obtain ⟨f', hf', o⟩ := openAll_mem ho f hf
  obtain ⟨m', h1, h2, h3⟩ := o.desc.at_of hat
  exact ⟨m', mem_unsorted.mpr ⟨_, List.mem_map_of_mem hf', scope, h1, by rw [h2]⟩, h2, h3⟩

theorem opened_needs {own : Str} {p : Path} : Needs (Defined (unsorted (files.map (·.desc)))) own p ↔
    Needs (Defined (unsorted (l.map (·.desc)))) own p := by
  constructor
  · refine needs_congr fun own f ⟨m, h1, h2⟩ => ?_
    obtain ⟨m', h1', _, e, _⟩ := opened_of ho h1
    exact ⟨m', h1', e ▸ h2⟩
  · refine needs_congr fun own f ⟨m, h1, h2⟩ => ?_
    obtain ⟨m', h1', _, e, _⟩ := of_opened ho h1
    exact ⟨m', h1', e ▸ h2⟩

theorem opened_counted (h : Counted (unsorted (l.map (·.desc)))) : Counted (unsorted (files.map (·.desc))) := by
  intro own m f hm hf ht hne hr hl p hp
  obtain ⟨m', hm', _, e, _⟩ := opened_of ho hm
  exact h own m' f hm' (e ▸ hf) ht hne hr hl p ((opened_needs ho).mp hp)

theorem opened_names (h : FilesNames (l.map (·.desc))) : FilesNames (files.map (·.desc)) where
  package d' hd' := by
    obtain ⟨f', hf', rfl⟩ := List.mem_map.mp hd'
    obtain ⟨f, hf, o⟩ := mem_openAll ho f' hf'
    rw [o.desc.package]
    exact h.package _ (List.mem_map_of_mem hf)
  enums d' hd' := by
    obtain ⟨f', hf', rfl⟩ := List.mem_map.mp hd'
    obtain ⟨f, hf, o⟩ := mem_openAll ho f' hf'
    rw [o.desc.enums]
    exact h.enums _ (List.mem_map_of_mem hf)
  messages d' hd' scope m' hat := by
    obtain ⟨f', hf', rfl⟩ := List.mem_map.mp hd'
    obtain ⟨f, hf, o⟩ := mem_openAll ho f' hf'
    obtain ⟨m, h1, h2, _, _, h3⟩ := o.desc.of_at hat
    rw [h2, h3]
    exact h.messages _ (List.mem_map_of_mem hf) scope m h1

theorem opened_known {fd : FieldDesc} (h : KnownType (l.map (·.desc)) fd) : KnownType (files.map (·.desc)) fd := by
  rcases h with ⟨ht, m, hm⟩ | ⟨ht, d, hd, h⟩
  · obtain ⟨m', hm', _⟩ := of_opened ho (mem_unsorted.mpr hm)
    exact .inl ⟨ht, m', mem_unsorted.mp hm'⟩
  · obtain ⟨f, hf, rfl⟩ := List.mem_map.mp hd
    obtain ⟨f', hf', o⟩ := openAll_mem ho f hf
    refine .inr ⟨ht, _, List.mem_map_of_mem hf', ?_⟩
    rcases h with ⟨e, he, h⟩ | ⟨scope, m, hat, e, he, h⟩
    · exact .inl ⟨e, o.desc.enums ▸ he, by rw [o.desc.package, h]⟩
    · obtain ⟨m', h1, h2, _, _, h3⟩ := o.desc.at_of hat
      exact .inr ⟨scope, m', h1, e, h3 ▸ he, by rw [h2, h]⟩

end

end Gen

/-- The headers are those of C74, so that including them works as it says. -/
theorem C80_headers (request : List ReqFile) (h : (plugin request).error = none) :
    headersOf (request.map (·.req)) = .ok ((plugin request).files.map (·.header)) := by
  obtain ⟨files, P, h1, _, h3, h4⟩ := plugin_ok h
  unfold headersOf
  rw [fileDefs_definitions h1, h4, (renderFiles_ok h3).1]
  show Except.ok ((files.map (·.req)).map headerOf) = Except.ok _
  rw [List.map_map]
  rfl

/-- **C80** for requests without what confuses the generator. -/
theorem C80_partial (request : List ReqFile) (hg : GoodRequest request) : C80_Statement request := by
  intro hc he
  obtain ⟨files, P, h1, h2, h3, h4⟩ := plugin_ok he
  have hnodup := names_nodup hc.imports
  have ho := fileDefs_needed hg.plain hnodup h1
  have hren := renderFiles_ok h3
  rw [← h4] at hren
  obtain ⟨r1, r2, r3⟩ := hren
  have hname : ∀ f ∈ needed request, ProtoName f.req.name := fun f hf => hc.names f (needed_sub f hf)
  have hord : Ordered (unsorted (files.map (·.desc))) := orderAll_ordered hg.files
    (hc.distinct.sublist (by
      have := allClasses_sublist ((needed request).map (·.desc))
      rw [List.flatMap_map] at this
      exact this)) (openAll_order ho)
  have hfn := opened_names ho hc.plain
  have hparams : ∀ own m, Defined (unsorted (files.map (·.desc))) own m → ∃ ps : List Path, ps.Nodup ∧
      (∀ p, p ∈ ps ↔ Needs (Defined (unsorted ((needed request).map (·.desc)))) own p) ∧ P own = ps.map (Path.render own) := by
    intro own m hm
    obtain ⟨ps, e1, e2, e3⟩ := C49_lengths_partial _ (opened_counted ho hg.counted) hord P h2 own m hm
    exact ⟨ps, e1, fun p => (e2 p).trans (opened_needs ho), e3⟩
  have hown : OwnNames (programOf (outParams (plugin request).files) ((needed request).map (·.desc))) := by
    refine ⟨hg.own.scopes, hg.own.members, fun p ht q hq hpre => ?_⟩
    have ht : (!(outParams (plugin request).files p).isEmpty) = true := ht
    unfold outParams at ht
    split at ht
    · rename_i c hfind
      have hp : pathOf c.1 = p := by
        have := List.find?_some hfind
        exact of_decide_eq_true this
      obtain ⟨o, ho', hc'⟩ := List.mem_flatMap.mp (List.mem_of_find?_eq_some hfind)
      obtain ⟨scope, hat, hcn⟩ := outAt_of_outAll _ _ c hc'
      obtain ⟨f', hf', er⟩ := r3 o ho'
      obtain ⟨_, ep, _, ecs⟩ := renderFile_ok er
      rw [ep] at hat
      obtain ⟨m', hm', erc⟩ := hat.at ecs
      obtain ⟨types, en, _, _, _, ec⟩ := renderClass_ok erc
      have hd : Defined (unsorted (files.map (·.desc))) (dot scope m'.name) m' :=
        mem_unsorted.mpr ⟨_, List.mem_map_of_mem hf', scope, hm', rfl⟩
      obtain ⟨ps, _, e2, e3⟩ := hparams _ _ hd
      have hne : ps ≠ [] := by
        rintro rfl
        rw [ec] at ht
        have ht : (!(P (dot scope m'.name)).isEmpty) = true := ht
        rw [e3] at ht
        exact nomatch ht
      obtain ⟨x, xs, rfl⟩ := List.exists_cons_of_ne_nil hne
      have := hg.flat _ x ((e2 x).mp List.mem_cons_self) q hq
      rw [← hp, hcn, en] at hpre ⊢
      exact this hpre
    · exact nomatch ht
  refine ⟨?_, ?_, ?_⟩
  · have e : (plugin request).files.map (·.header.name) = (needed request).map fun f => headerName f.req.name := by
      have : (plugin request).files.map (·.header.name) = ((plugin request).files.map (·.header)).map (·.name) := by
        rw [List.map_map]; rfl
      rw [this, r1, List.map_map]
      have h5 : (files.map fun f => headerName f.req.name) = (files.map (·.req)).map fun r => headerName r.name := by
        rw [List.map_map]; rfl
      show (files.map fun f => headerName f.req.name) = _
      rw [h5, openAll_req ho, List.map_map]
      rfl
    rw [e, List.Nodup, List.pairwise_map]
    have hn := needed_nodup hnodup
    rw [List.Nodup, List.pairwise_map] at hn
    refine hn.imp_of_mem fun ha hb hne e => hne (headerName_inj (hname _ ha) (hname _ hb) e)
  · intro o ho'
    obtain ⟨f', hf', er⟩ := r3 o ho'
    obtain ⟨f, hf, op⟩ := mem_openAll ho f' hf'
    refine ⟨f, hf, ?_⟩
    rw [(renderFile_ok er).1, ← headerName_eq (hname f hf), ← op.req]
    rfl
  · intro f hf hu
    have hfn' := user_needed hf hu
    obtain ⟨f', hf', op⟩ := openAll_mem ho f hfn'
    obtain ⟨o, ho', er⟩ := r2 f' hf'
    obtain ⟨e1, e2, e3, e4⟩ := renderFile_ok er
    have hdef : o.defines = f.desc.header f'.desc.messages := by
      unfold OutFile.defines FileDesc.header
      rw [e2, e3, op.desc.package, op.desc.enums, ← op.desc.package, renderClasses_defines e4]
    obtain ⟨prior, hfok⟩ := hg.files.mem f.desc (List.mem_map_of_mem hfn')
    refine ⟨o, ho', ?_, ?_, ?_, ?_, ?_⟩
    · rw [e1, ← headerName_eq (hname f hfn'), ← op.req]
      rfl
    · rw [e2, op.desc.package]
    · rw [hdef]
      exact order_perm op.desc.order
    · intro scope m t hm hu ht
      rw [hdef]
      exact order_before hfok.valid hfok.clear hfok.noOuter op.desc.order hm hu ht
    · intro scope m hm
      obtain ⟨m', hm', n1, n2, n3, _⟩ := op.desc.at_of hm
      obtain ⟨c, hc', erc⟩ := hm'.out e4
      obtain ⟨types, c1, _, c3, c4, c5⟩ := renderClass_ok erc
      have hD : Defined (unsorted ((needed request).map (·.desc))) (dot scope m.name) m :=
        mem_unsorted.mpr ⟨_, List.mem_map_of_mem hfn', scope, hm, rfl⟩
      have hD' : Defined (unsorted (files.map (·.desc))) (dot scope m'.name) m' :=
        mem_unsorted.mpr ⟨_, List.mem_map_of_mem hf', scope, hm', rfl⟩
      have hno := hg.noOwn _ m hD
      have hfv := hc.fields f hfn' scope m hm
      rw [n1, n2, n3] at c3
      rw [n1] at c4
      refine ⟨c, e2 ▸ hc', ?_, ?_, ?_, ?_⟩
      · rw [c1, n1]
      · intro E
        obtain ⟨g, g1, g2⟩ := C47_placed_partial E (dot scope m.name) m.fields m.oneofs hno hfv
        rw [c3] at g1
        injection g1 with g1
        subst g1
        exact g2
      · obtain ⟨ps, p1, p2, p3⟩ := hparams _ _ hD'
        rw [n1] at p2 p3
        refine ⟨ps, p1, p2, ?_⟩
        rw [c5, ← p3, n1]
        rfl
      · intro fd hfd ht
        have hmem : ∃ g ∈ members (dot scope m.name) m, g.desc = fd := by
          have := (members_perm (own := dot scope m.name) hfv).mem_iff.mpr hfd
          obtain ⟨g, h1, h2⟩ := List.mem_map.mp this
          exact ⟨g, h1, h2⟩
        obtain ⟨g, hgm, rfl⟩ := hmem
        have hshape : g.shape ≠ .recursive := by
          rw [members_shape hfv hgm, if_neg (hno _ hfd)]
          split <;> simp
        unfold members at hgm
        rw [c3] at hgm
        obtain ⟨text, t1, t2⟩ := memberTypes_mem c4 g hgm hshape ht
        refine ⟨text, by rw [c5]; exact t1, ?_⟩
        have hk := hc.known f hfn' scope m hm _ hfd ht
        rw [typeText_ok hfn (opened_known ho hk) t2]
        have hs := known_spec hc.plain (outParams (plugin request).files) hk
        exact (InSight.iff hs.1.ne hs.2.1 hs.2.2.2).mpr (hown.inSight hs.1.ne hs.2.1 hs.2.2.2)

/-- The generator accepts what protoc has checked and can be put in order. -/
def C80_accepted_Statement (request : List ReqFile) : Prop :=
  Checked request → (∀ f ∈ needed request, f.req.syntaxName ≠ "proto2".toList) →
    (∀ f ∈ needed request, f.desc.Orderable) → (plugin request).error = none

/-- ... if the generator itself finds the order. -/
theorem C80_order_partial (request : List ReqFile) (hg : GoodRequest request) (hc : Checked request)
    (hs : ∀ f ∈ needed request, f.req.syntaxName ≠ "proto2".toList)
    (ho : ∀ f ∈ needed request, ∃ ms, f.desc.order = .ok ms) : (plugin request).error = none := by
  have hopen : ∀ f ∈ needed request, ∃ f', openReq f = .ok f' := fun f hf => openReq_total (hs f hf) (hc.fields f hf) (ho f hf)
  obtain ⟨files, h1⟩ := fileDefs_total hg.plain hopen
  have ho := fileDefs_needed hg.plain (names_nodup hc.imports) h1
  have hsub := allClasses_sublist ((needed request).map (·.desc))
  rw [List.flatMap_map] at hsub
  have hord : Ordered (unsorted (files.map (·.desc))) := orderAll_ordered hg.files (hc.distinct.sublist hsub) (openAll_order ho)
  have hfn := opened_names ho hc.plain
  obtain ⟨P, hP⟩ := hord.accepted
  -- where a field of an opened file comes from
  have hknown : ∀ f' ∈ files, ∀ scope x, At f'.desc.package f'.desc.messages scope x → FieldsValid x.fields x.oneofs ∧
      ∀ g ∈ members (dot scope x.name) x, g.desc.type = .message ∨ g.desc.type = .enum →
        KnownType ((needed request).map (·.desc)) g.desc := by
    intro f' hf' scope x hx
    obtain ⟨f, hf, op⟩ := mem_openAll ho f' hf'
    obtain ⟨m, hm, _, n2, n3, _⟩ := op.desc.of_at hx
    have hfv : FieldsValid x.fields x.oneofs := by
      rw [n2, n3]
      exact hc.fields f hf scope m hm
    refine ⟨hfv, fun g hgm ht => ?_⟩
    exact hc.known f hf scope m hm g.desc (n2 ▸ (members_perm hfv).mem_iff.mp (List.mem_map_of_mem hgm)) ht
  have hmatch : matchFiles (definitions (files.map (·.desc))) (files.map (·.desc)) = .ok () := by
    refine matchFiles_total fun d hd scope x hx g hgm ht => ?_
    obtain ⟨f', hf', rfl⟩ := List.mem_map.mp hd
    have hk := opened_known ho ((hknown f' hf' scope x hx).2 g hgm ht)
    exact ⟨_, (known_spec hfn (fun _ => []) hk).2.2.1⟩
  have hren : (renderFiles P (definitions (files.map (·.desc))) files).2 = none := by
    refine renderFiles_total fun f' hf' scope x hx => ⟨(hknown f' hf' scope x hx).1, fun g hgm ht => ?_⟩
    have hk0 := (hknown f' hf' scope x hx).2 g hgm ht
    have hk := opened_known ho hk0
    refine typeText_total (known_spec hfn (fun _ => []) hk).2.2.1 fun he i hi hle => ?_
    show P (nameOf ((pathOf g.desc.typeName).take i)) = []
    have hs0 := known_spec hc.plain (fun _ => []) hk0
    have hpath : pathOf (nameOf ((pathOf g.desc.typeName).take i)) = (pathOf g.desc.typeName).take i :=
      pathOf_nameOf fun y hy => (hs0.1.plain y (List.mem_of_mem_take hy)).2.1
    by_cases hin : nameOf ((pathOf g.desc.typeName).take i) ∈ allClasses (unsorted (files.map (·.desc)))
    · rw [← allDefs_fst] at hin
      obtain ⟨⟨own, m⟩, hmem, hown⟩ := List.mem_map.mp hin
      have hown : own = nameOf ((pathOf g.desc.typeName).take i) := hown
      have hd := mem_allDefs.mp hmem
      obtain ⟨ps, _, e2, e3⟩ := C49_lengths_partial _ (opened_counted ho hg.counted) hord P hP own m hd
      rw [← hown, e3]
      cases ps with
      | nil => rfl
      | cons p ps =>
        exfalso
        have hneed := (opened_needs ho).mp ((e2 p).mp List.mem_cons_self)
        have hpre : pathOf own <+: pathOf g.desc.typeName := by
          rw [hown, hpath]
          exact List.take_prefix _ _
        have heq := hg.flat own p hneed _ hs0.2.1 hpre
        have hlead : own.head? = some '.' := by
          rw [hown]
          have : (pathOf g.desc.typeName).take i ≠ [] := by
            intro e
            have := congrArg List.length e
            rw [List.length_take] at this
            have h0 : ([] : List Str).length = 0 := rfl
            omega
          obtain ⟨y, ys, e⟩ := List.exists_cons_of_ne_nil this
          rw [e]
          rfl
        have hsame : own = g.desc.typeName := by
          rw [← nameOf_pathOf hlead, heq, nameOf_pathOf hs0.1.lead]
        obtain ⟨m0, hd0, _⟩ := opened_of ho hd
        have henum : g.desc.typeName ∈ filesEnums ((needed request).map (·.desc)) := by
          rcases hk0 with ⟨ht', _⟩ | ⟨_, h⟩
          · rw [he] at ht'
            exact nomatch ht'
          · exact mem_filesEnums.mpr h
        have hnd : (filesEnums ((needed request).map (·.desc)) ++ allClasses (unsorted ((needed request).map (·.desc)))).Nodup := by
          rw [← (names_perm _).nodup_iff, List.flatMap_map]
          exact hc.distinct
        exact (List.nodup_append.mp hnd).2.2 _ henum _ hd0.mem hsame.symm
    · exact hord.fresh hP hin
  have hprep : prepare request = .ok (files, P) := by
    have hreg : register (files.map fun f => (f.desc.package, f.desc.messages)) = .ok P := by
      rw [register_eq, ← hP, unsorted, List.map_map]
      rfl
    unfold prepare
    rw [h1]
    show (matchFiles (definitions (files.map (·.desc))) (files.map (·.desc)) >>= fun _ =>
      register (files.map fun f => (f.desc.package, f.desc.messages)) >>= fun P => pure (files, P)) = _
    rw [hmatch, hreg]
    rfl
  unfold plugin
  rw [hprep]
  exact hren

/-- **C80**, acceptance: if moreover no message uses what is nested two or more levels deep in it. -/
theorem C80_accepted_partial (request : List ReqFile) (hg : GoodRequest request)
    (hf : ∀ f ∈ needed request, f.desc.Shallow) : C80_accepted_Statement request := by
  intro hc hs ho
  refine C80_order_partial request hg hc hs fun f hfn => C53_partial f.desc (hf f hfn) ?_ (ho f hfn)
  obtain ⟨_, h⟩ := hg.files.mem f.desc (List.mem_map_of_mem hfn)
  exact h.valid

/-- Exactly which requests are accepted, among those whose names and nesting the generator can cope with. -/
theorem C80_exact (request : List ReqFile) (hg : GoodRequest request) (hc : Checked request) :
    (plugin request).error = none ↔
      ∀ f ∈ needed request, f.req.syntaxName ≠ "proto2".toList ∧ f.desc.Orderable ∧ f.desc.Shallow := by
  constructor
  · intro h f hf
    obtain ⟨_, hfo⟩ := hg.files.mem f.desc (List.mem_map_of_mem hf)
    unfold plugin at h
    cases hp : prepare request with
    | error e => rw [hp] at h; exact nomatch h
    | ok r =>
      obtain ⟨files, h1, _⟩ := except_bind_ok hp
      obtain ⟨f', _, ho⟩ := openAll_mem (fileDefs_needed hg.plain (names_nodup hc.imports) h1) f hf
      refine ⟨fun e => ?_, (C53_exact f.desc hfo.valid hfo.clear hfo.noOuter).mp ⟨_, ho.desc.order⟩⟩
      have := ho.syntaxOk
      unfold openFile at this
      rw [if_pos e] at this
      exact nomatch this
  · intro h
    exact C80_accepted_partial request hg (fun f hf => (h f hf).2.2) hc (fun f hf => (h f hf).1) fun f hf => (h f hf).2.1

namespace Gen

theorem checked_of {request : List ReqFile} (h1 : RequestValid (request.map (·.req))) (h2 : ∀ f ∈ request, ProtoName f.req.name)
    (h3 : ∀ f ∈ needed request, ∀ d ∈ listAts f.desc.package f.desc.messages, d.2.oneofs = [] ∧
      (∀ f ∈ d.2.fields, f.oneofIndex = none ∧ f.proto3Optional = false) ∧
      (d.2.fields.map (·.number)).Nodup ∧ ∀ f ∈ d.2.fields, 0 < f.number ∧ f.number < 536870912)
    (h4 : ((needed request).flatMap fun f => f.desc.header f.desc.messages).Nodup)
    (h5 : FilesNames ((needed request).map (·.desc)))
    (h6 : ∀ f ∈ needed request, ∀ d ∈ listAts f.desc.package f.desc.messages, ∀ fd ∈ d.2.fields,
      (if fd.type = .message then ((filesMsgs ((needed request).map (·.desc))).map (·.1)).contains fd.typeName
      else if fd.type = .enum then (filesEnums ((needed request).map (·.desc))).contains fd.typeName else true) = true) : Checked request where
  imports := h1
  names := h2
  fields f hf scope m hm := by
    obtain ⟨a, b, c, d⟩ := h3 f hf _ hm.mem_listAts
    exact C49Example.plain_valid a b c d
  distinct := h4
  plain := h5
  known f hf scope m hm fd hfd ht := by
    have hk := h6 f hf _ hm.mem_listAts fd hfd
    rcases ht with ht | ht
    · rw [if_pos ht] at hk
      obtain ⟨x, hx, e⟩ := List.mem_map.mp (List.contains_iff_mem.mp hk)
      exact .inl ⟨ht, x.2, mem_filesMsgs.mp (e ▸ hx)⟩
    · rw [if_neg (by rw [ht]; decide), if_pos ht] at hk
      exact .inr ⟨ht, mem_filesEnums.mp (List.contains_iff_mem.mp hk)⟩

theorem OutAt.mem_outAll {ns : Str} {cs : List OutClass} {scope : Str} {c : OutClass} (h : OutAt ns cs scope c) :
    (dot scope c.name, c) ∈ outAll ns cs := by
  have step : ∀ {ns : Str} {cs : List OutClass} {d : OutClass} {x}, d ∈ cs → x ∈ d.all ns → x ∈ outAll ns cs := by
    intro ns cs d x hd hx
    induction cs with
    | nil => exact nomatch hd
    | cons e cs ih =>
      rw [outAll]
      rcases List.mem_cons.mp hd with rfl | hd
      · exact List.mem_append_left _ hx
      · exact List.mem_append_right _ (ih hd)
  induction h with
  | @here ns cs c hc =>
    cases c
    exact step hc (List.mem_append_right _ List.mem_cons_self)
  | @inside ns cs d scope c hd h ih =>
    cases d
    exact step hd (List.mem_append_left _ ih)

end Gen

namespace C80Example

def str (s : String) : Str := s.toList

def file (name : String) (imports : List String) (desc : FileDesc) : ReqFile :=
  ⟨⟨str name, str "proto3", imports.map String.toList⟩, desc⟩

def field (name : String) (number : Nat) (type : FType) (typeName : String := "") (repeated : Bool := false)
    (maxLength : Nat := 0) : FieldDesc :=
  { name := name.toList, number, repeated, type, typeName := typeName.toList, oneofIndex := none,
    proto3Optional := false, maxLength }

def msg (name : String) (fields : List FieldDesc) (nested : List MsgDesc := []) (enums : List String := []) : MsgDesc :=
  .mk name.toList fields [] (enums.map String.toList) nested

def person : MsgDesc :=
  msg "Person" [field "name" 1 .message ".a.Name", field "color" 2 .enum ".a.Color", field "item" 3 .message ".b.Item" true,
    field "kind" 4 .enum ".b.Item.Kind", field "part" 5 .message ".b.Item.Part"]
def item : MsgDesc := msg "Item" [field "n" 1 (.scalar .int32), field "part" 2 .message ".b.Item.Part"] [msg "Part" []] ["Kind"]
def name : MsgDesc := msg "Name" [field "first" 1 .string]

/-- The files of Google and of the options, `package a; enum Color {…} message Name { string first = 1; }`, and
`package b; message Person {…} message Item {…}`, where `Person` uses `Item` before it is defined. -/
def request : List ReqFile :=
  [file "google/protobuf/descriptor.proto" [] ⟨str ".google.protobuf", [], [msg "FieldOptions" []]⟩,
   file "embedded_proto_options.proto" ["google/protobuf/descriptor.proto"] ⟨str ".EmbeddedProto", [], [msg "Options" []]⟩,
   file "a.proto" [] ⟨str ".a", [str "Color"], [name]⟩,
   file "b/b.proto" ["a.proto", "embedded_proto_options.proto"] ⟨str ".b", [], [person, item]⟩]

theorem checked : Checked request :=
  checked_of (by decide +kernel) (by decide +kernel) (by decide +kernel) (by decide +kernel)
    (.of_list (by decide +kernel) (by decide +kernel) (by decide +kernel)) (by decide +kernel)

/-- The same messages, in order. -/
def inOrder : List (Str × List MsgDesc) := [(str ".a", [name]), (str ".b", [item, person])]

theorem ordered : Ordered inOrder := C49Example.ordered_of (by decide +kernel) (by decide +kernel) (by decide +kernel)

theorem same : ∀ d ∈ allDefs (unsorted ((needed request).map (·.desc))), ∃ d' ∈ allDefs inOrder,
    d'.1 = d.1 ∧ d'.2.fields = d.2.fields := by decide +kernel

theorem inOrder_needs {own : Str} {p : Path} (h : Needs (Defined (unsorted ((needed request).map (·.desc)))) own p) :
    Needs (Defined inOrder) own p := by
  refine needs_congr (fun own f ⟨m, h1, h2⟩ => ?_) h
  obtain ⟨⟨own', m'⟩, hd, e1, e2⟩ := same _ (mem_allDefs.mpr h1)
  obtain rfl : own' = own := e1
  exact ⟨m', mem_allDefs.mp hd, by rw [show m'.fields = m.fields from e2]; exact h2⟩

theorem good : GoodRequest request where
  plain := ⟨by decide +kernel, by decide +kernel⟩
  files := by
    show FilesOK [] [_, _]
    refine ⟨?_, ?_, trivial⟩
    all_goals
      exact C49Example.fileOK_of (valid_of (by decide +kernel) (by decide +kernel)) (clear_of (by decide +kernel) (by decide +kernel))
        (noOuter_of (by decide +kernel)) (by decide +kernel) (by decide +kernel)
  counted := by
    intro own m f hm hf ht hne hr h0 p hp
    have h : ∀ d ∈ allDefs (unsorted ((needed request).map (·.desc))), ∀ f ∈ d.2.fields, f.type = .message →
      f.repeated = true → f.maxLength = 0 := by decide +kernel
    exact h0 (h _ (mem_allDefs.mpr hm) f hf ht hr)
  noOwn := by
    intro own m hm f hf
    have h : ∀ d ∈ allDefs (unsorted ((needed request).map (·.desc))), ∀ f ∈ d.2.fields, f.typeName ≠ d.1 := by decide +kernel
    exact h _ (mem_allDefs.mpr hm) f hf
  own := OwnNames_of_list (by decide +kernel) (by decide +kernel) (fun _ _ _ _ => rfl)
  flat := by
    intro own p hp q hq hpre
    have h : ∀ own ∈ allClasses inOrder, C49Example.needs inOrder (allClasses inOrder).length own ≠ [] →
      ∀ q ∈ (programOf (fun _ => []) ((needed request).map (·.desc))).types, pathOf own <+: q → pathOf own = q := by
      decide +kernel
    obtain ⟨h1, h2⟩ := C49Example.needs_of ordered (inOrder_needs hp)
    exact h own h1 (List.ne_nil_of_mem h2) q hq hpre

theorem accepted : (plugin request).error = none :=
  C80_order_partial request good checked (by decide +kernel) fun f hf => by
    have h : ∀ f ∈ needed request, f.desc.order.isOk = true := by decide +kernel
    exact ⟨_, C48Example.ok_of_isOk (h f hf)⟩

example : ∀ f ∈ needed request, f.desc.Orderable ∧ f.desc.Shallow := fun f hf =>
  ((C80_exact request good checked).mp accepted f hf).2

/-- Two headers; `Person` is a template, and comes last. -/
example : (plugin request).files.map (fun o => (String.ofList o.header.name, (outAll o.package o.classes).map fun c =>
    (String.ofList c.1, c.2.params.map String.ofList))) =
    [("a.h", [(".a.Name", ["Name_first_LENGTH"])]),
     ("b/b.h", [(".b.Item.Part", []), (".b.Item", []),
       (".b.Person", ["Person_name_Name_first_LENGTH", "Person_item_REP_LENGTH"])])] := by decide +kernel

example : ∃ o ∈ (plugin request).files, o.header.name = str "b/b.h" ∧
    ∃ c, OutAt o.package o.classes (str ".b") c ∧ ClassFor ((needed request).map (·.desc))
      (programOf (outParams (plugin request).files) ((needed request).map (·.desc))) (str ".b") person c := by
  obtain ⟨o, h1, h2, h3⟩ := (C80_partial request good checked accepted).2.2
    (file "b/b.proto" ["a.proto", "embedded_proto_options.proto"] ⟨str ".b", [], [person, item]⟩)
    (by simp [request]) (by decide +kernel)
  exact ⟨o, h1, by rw [h2]; decide +kernel, h3.classes (str ".b") person (.here List.mem_cons_self)⟩

/-- `message M { M next = 1; }` -/
def ownType : List ReqFile := [file "m.proto" [] ⟨[], [], [msg "M" [field "next" 1 .message ".M"]]⟩]

/-- `message Foo { message N { FooBar x = 1; } }  message FooBar { }`: can be put in order, but is not. -/
def prefixes : List ReqFile := [file "m.proto" [] C48Example.prefixClash]

/-- `a.proto` and `b.proto`: `message A { repeated int32 x = 1; enum E {…} } message P { A.E e = 1; }` -/
def enumInTemplate : List ReqFile :=
  [file "a.proto" [] ⟨[], [], [msg "Q" []]⟩,
   file "b.proto" [] ⟨[], [], [msg "A" [field "x" 1 (.scalar .int32) "" true] [] ["E"], msg "P" [field "e" 1 .enum ".A.E"]]⟩]

end C80Example
open C80Example

/-- **C80** is false: a field of the type of its own message is left out. -/
theorem C80_own_false : ¬ C80_Statement ownType := by
  intro h
  obtain ⟨_, _, h⟩ := h (checked_of (by decide +kernel) (by decide +kernel) (by decide +kernel) (by decide +kernel)
    (.of_list (by decide +kernel) (by decide +kernel) (by decide +kernel)) (by decide +kernel)) (by decide +kernel)
  obtain ⟨o, ho, _, hf⟩ := h _ List.mem_cons_self (by decide +kernel)
  obtain ⟨c, hc, hcf⟩ := hf.classes [] _ (.here List.mem_cons_self)
  obtain ⟨text, ht, _⟩ := hcf.types (C80Example.field "next" 1 .message ".M") List.mem_cons_self (.inl rfl)
  have : ∀ o ∈ (plugin ownType).files, ∀ c ∈ outAll o.package o.classes, c.2.types = [] := by decide +kernel
  rw [this o ho _ hc.mem_outAll] at ht
  exact nomatch ht

theorem C80_false : ¬ ∀ request, C80_Statement request := fun h => C80_own_false (h _)

/-- Files that can be put in order are refused.  The messages used before they are defined would be known in the second
of the three rounds, but the result of the first is kept. -/
theorem C80_accepted_false : ¬ (∀ request, C80_accepted_Statement request) ∧
    (plugin prefixes).error = some .templateParameters ∧
    ∀ files, fileDefs prefixes = .ok files → (regFiles (unsorted (files.map (·.desc)))
      (regFiles (unsorted (files.map (·.desc))) .init).1).2 = true := by
  have he : (plugin prefixes).error = some .templateParameters := by decide +kernel
  refine ⟨fun h => ?_, he, ?_⟩
  · have := h prefixes (checked_of (by decide +kernel) (by decide +kernel) (by decide +kernel) (by decide +kernel)
      (.of_list (by decide +kernel) (by decide +kernel) (by decide +kernel)) (by decide +kernel)) (by decide +kernel) ?_
    · rw [he] at this
      exact nomatch this
    · intro f hf
      have hf : f = file "m.proto" [] C48Example.prefixClash := List.mem_singleton.mp hf
      subst hf
      refine ⟨C48Example.prefixClash.messages.reverse, .perm (List.reverse_perm _).symm, fun scope m t hm hu _ => ?_⟩
      have h : ∀ p ∈ listAts C48Example.prefixClash.package C48Example.prefixClash.messages, ∀ t ∈ used p.1 p.2,
          [t, dot p.1 p.2.name].isSublist (C48Example.prefixClash.header C48Example.prefixClash.messages.reverse) = true := by
        decide +kernel
      exact List.isSublist_iff_sublist.mp (h _ hm.mem_listAts t (uses_iff.mp hu))
  · intro files h
    have : (fileDefs prefixes).toOption.map (fun files => (regFiles (unsorted (files.map (·.desc)))
      (regFiles (unsorted (files.map (·.desc))) .init).1).2) = some true := by decide +kernel
    rw [h] at this
    exact Option.some.inj this

/-- A response with an error can also hold headers. -/
theorem C80_error_files : (plugin enumInTemplate).error = some .templateParameters ∧
    (plugin enumInTemplate).files.map (·.header.name) = ["a.h".toList] := by decide +kernel

end EP
