import Verif.Model.GenFiles

/-!
# Proofs about headers
-/

namespace EP.Gen

/-! ## Including -/

/-- Every text after those it includes. -/
def Sorted' (H : List Header) (l : List Str) : Prop :=
  ∀ l1 x l2, l = l1 ++ x :: l2 → ∀ h ∈ H, h.name = x → ∀ i ∈ h.includes, i ∈ l1

theorem Sorted'.snoc {H : List Header} {l : List Str} {x : Str} (hs : Sorted' H l)
    (hx : ∀ h ∈ H, h.name = x → ∀ i ∈ h.includes, i ∈ l) : Sorted' H (l ++ [x]) := by
  intro l1 y l2 e h hh hn i hi
  rcases List.eq_nil_or_concat l2 with rfl | ⟨l', z, rfl⟩
  · obtain ⟨e1, e2⟩ := List.append_inj' e rfl
    obtain rfl := (List.cons.inj e2).1
    exact e1 ▸ hx h hh hn i hi
  · rw [List.concat_eq_append, ← List.cons_append, ← List.append_assoc] at e
    obtain ⟨e1, _⟩ := List.append_inj' e rfl
    exact hs l1 y l' e1 h hh hn i hi

structure HeadersGood (H : List Header) (rank : Str → Nat) : Prop where
  names : ∀ h ∈ H, ∀ h' ∈ H, h.name = h'.name → h = h'
  guards : ∀ h ∈ H, ∀ h' ∈ H, h.guard = h'.guard → h = h'
  includes : ∀ h ∈ H, ∀ i ∈ h.includes, ∃ h' ∈ H, h'.name = i ∧ rank i < rank h.name

structure UnitInv (H : List Header) (pend : List Str) (u : Compiled) : Prop where
  guards : ∀ g ∈ u.guards, ∃ h ∈ H, h.guard = g ∧ (h.name ∈ u.text ∨ h.name ∈ pend)
  text : ∀ x ∈ u.text, ∃ h ∈ H, h.name = x ∧ h.guard ∈ u.guards
  nodup : u.text.Nodup
  sorted : Sorted' H u.text

/-- One header includes another, directly or not. -/
inductive Reaches (H : List Header) : Str → Str → Prop where
  | self (a) : Reaches H a a
  | step {h : Header} {i b} : h ∈ H → i ∈ h.includes → Reaches H i b → Reaches H h.name b

structure UnitPost (H : List Header) (pend : List Str) (u u' : Compiled) (names : List Str) : Prop where
  inv : UnitInv H pend u'
  pre : u.text <+: u'.text
  guards : ∀ g ∈ u.guards, g ∈ u'.guards
  done : ∀ i ∈ names, i ∈ u'.text
  only : ∀ x ∈ u'.text, x ∈ u.text ∨ ∃ i ∈ names, Reaches H i x

theorem find_header {H : List Header} (hn : ∀ h ∈ H, ∀ h' ∈ H, h.name = h'.name → h = h') {h : Header} (hh : h ∈ H) :
    (H.find? fun x => x.name == h.name) = some h := by
  have hs : (H.find? fun x => x.name == h.name).isSome := List.find?_isSome.mpr ⟨h, hh, by simp⟩
  obtain ⟨h', e⟩ := Option.isSome_iff_exists.mp hs
  rw [e, hn h' (List.mem_of_find?_eq_some e) h hh (by simpa using List.find?_some e)]

/-! ## Guards, for any headers -/

/-- Headers compiled have their guards defined, and these are different. -/
structure GuardInv (H : List Header) (u : Compiled) : Prop where
  defined : ∀ h ∈ H, h.name ∈ u.text → h.guard ∈ u.guards
  distinct : ∀ h ∈ H, ∀ h' ∈ H, h.name ∈ u.text → h'.name ∈ u.text → h.guard = h'.guard → h = h'

/-- What is compiled in between had no guard defined. -/
structure GuardPost (H : List Header) (u u' : Compiled) : Prop where
  inv : GuardInv H u'
  guards : ∀ g ∈ u.guards, g ∈ u'.guards
  fresh : ∀ h ∈ H, h.name ∈ u'.text → h.name ∈ u.text ∨ h.guard ∉ u.guards

theorem include_guards_list {H : List Header} {n : Nat}
    (ih : ∀ i u u', GuardInv H u → includeHeader H n i u = some u' → GuardPost H u u') :
    ∀ (is : List Str) (u u' : Compiled), GuardInv H u → is.foldlM (fun u i => includeHeader H n i u) u = some u' →
      GuardPost H u u'
  | [], u, u', hi, e => by
    obtain rfl : u = u' := Option.some.inj e
    exact ⟨hi, fun _ h => h, fun _ _ h => .inl h⟩
  | i :: is, u, u', hi, e => by
    rw [List.foldlM_cons] at e
    cases e1 : includeHeader H n i u with
    | none => rw [e1] at e; exact nomatch e
    | some u1 =>
      rw [e1] at e
      have p1 := ih i u u1 hi e1
      have p2 := include_guards_list ih is u1 u' p1.inv e
      refine ⟨p2.inv, fun g hg => p2.guards g (p1.guards g hg), fun h hh ht => ?_⟩
      rcases p2.fresh h hh ht with ht | hg
      · exact p1.fresh h hh ht
      · exact .inr (mt (p1.guards _) hg)

theorem include_guards {H : List Header} (hn : ∀ h ∈ H, ∀ h' ∈ H, h.name = h'.name → h = h') :
    ∀ (n : Nat) (i : Str) (u u' : Compiled), GuardInv H u → includeHeader H n i u = some u' → GuardPost H u u'
  | 0, _, _, _, _, e => nomatch e
  | n + 1, i, u, u', hi, e => by
    unfold includeHeader at e
    split at e
    · exact nomatch e
    · rename_i h hf
      have hh := List.mem_of_find?_eq_some hf
      split at e
      · obtain rfl := Option.some.inj e
        exact ⟨hi, fun _ h => h, fun _ _ h => .inl h⟩
      · rename_i hg
        obtain ⟨u1, e1, rfl⟩ := Option.map_eq_some_iff.mp e
        have p := include_guards_list (include_guards hn n) _ { u with guards := h.guard :: u.guards } _
          ⟨fun h' hh' ht => List.mem_cons_of_mem _ (hi.defined h' hh' ht), hi.distinct⟩ e1
        have hmem : ∀ h' ∈ H, h'.name ∈ u1.text ++ [h.name] → h'.name ∈ u1.text ∨ h' = h := by
          intro h' hh' ht
          rcases List.mem_append.mp ht with ht | ht
          · exact .inl ht
          · exact .inr (hn h' hh' h hh (List.mem_singleton.mp ht))
        have hne : ∀ h' ∈ H, h'.name ∈ u1.text → h'.guard ≠ h.guard := by
          intro h' hh' ht e
          rcases p.fresh h' hh' ht with ht | hng
          · exact hg (e ▸ hi.defined h' hh' ht)
          · exact hng (e ▸ List.mem_cons_self)
        refine ⟨⟨?_, ?_⟩, fun g hg => p.guards g (List.mem_cons_of_mem _ hg), ?_⟩
        · intro h' hh' ht
          rcases hmem h' hh' ht with ht | rfl
          · exact p.inv.defined h' hh' ht
          · exact p.guards _ List.mem_cons_self
        · intro h1 hh1 h2 hh2 ht1 ht2 eg
          rcases hmem h1 hh1 ht1 with hx1 | e1
          · rcases hmem h2 hh2 ht2 with hx2 | e2
            · exact p.inv.distinct h1 hh1 h2 hh2 hx1 hx2 eg
            · exact absurd (e2 ▸ eg) (hne h1 hh1 hx1)
          · rcases hmem h2 hh2 ht2 with hx2 | e2
            · exact absurd (e1 ▸ eg.symm) (hne h2 hh2 hx2)
            · rw [e1, e2]
        · intro h' hh' ht
          rcases hmem h' hh' ht with ht | rfl
          · rcases p.fresh h' hh' ht with ht | hng
            · exact .inl ht
            · exact .inr (mt (List.mem_cons_of_mem _) hng)
          · exact .inr hg

section
variable {H : List Header} {rank : Str → Nat} (hG : HeadersGood H rank)
include hG

theorem reaches_rank {a b : Str} (h : Reaches H a b) : rank b ≤ rank a := by
  induction h with
  | self => exact Nat.le_refl _
  | step hh hi _ ih =>
    obtain ⟨_, _, _, hr⟩ := hG.includes _ hh _ hi
    omega

theorem reaches_mem {h : Header} (hh : h ∈ H) {b : Str} (hr : Reaches H h.name b) : ∃ h' ∈ H, h'.name = b := by
  suffices ∀ a, Reaches H a b → ∀ h ∈ H, h.name = a → ∃ h' ∈ H, h'.name = b from this _ hr h hh rfl
  clear hr
  intro a ha
  induction ha with
  | self => exact fun h hh e => ⟨h, hh, e⟩
  | step hh hi _ ih =>
    intro _ _ _
    obtain ⟨h', h1, h2, _⟩ := hG.includes _ hh _ hi
    exact ih h' h1 h2

omit hG in
theorem include_list {n : Nat} {pend : List Str}
    (ih : ∀ i (h : Header), h ∈ H → h.name = i → rank i < n → ∀ u, UnitInv H pend u → (∀ x ∈ pend, rank i < rank x) →
      ∃ u', includeHeader H n i u = some u' ∧ UnitPost H pend u u' [i]) :
    ∀ (is : List Str) (u : Compiled), (∀ i ∈ is, (∃ h ∈ H, h.name = i) ∧ rank i < n ∧ ∀ x ∈ pend, rank i < rank x) →
      UnitInv H pend u → ∃ u', is.foldlM (fun u i => includeHeader H n i u) u = some u' ∧ UnitPost H pend u u' is
  | [], u, _, hi => ⟨u, rfl, hi, List.prefix_rfl, fun _ h => h, fun _ h => (nomatch h), fun _ h => .inl h⟩
  | i :: is, u, hall, hi => by
    obtain ⟨⟨h, hh, e⟩, hr, hp⟩ := hall i List.mem_cons_self
    obtain ⟨u1, e1, p1⟩ := ih i h hh e hr u hi hp
    obtain ⟨u2, e2, p2⟩ := include_list ih is u1 (fun j hj => hall j (List.mem_cons_of_mem _ hj)) p1.inv
    refine ⟨u2, ?_, p2.inv, p1.pre.trans p2.pre, fun g hg => p2.guards g (p1.guards g hg), ?_, ?_⟩
    · rw [List.foldlM_cons, e1]
      exact e2
    · intro j hj
      rcases List.mem_cons.mp hj with rfl | hj
      · exact p2.pre.subset (p1.done j List.mem_cons_self)
      · exact p2.done j hj
    · intro x hx
      rcases p2.only x hx with hx | ⟨j, hj, hr⟩
      · rcases p1.only x hx with hx | ⟨j, hj, hr⟩
        · exact .inl hx
        · exact .inr ⟨j, by simpa using .inl (List.mem_singleton.mp hj), hr⟩
      · exact .inr ⟨j, List.mem_cons_of_mem _ hj, hr⟩

theorem include_spec : ∀ (n : Nat) (pend : List Str) (i : Str) (h : Header), h ∈ H → h.name = i → rank i < n → ∀ u,
    UnitInv H pend u → (∀ x ∈ pend, rank i < rank x) →
      ∃ u', includeHeader H n i u = some u' ∧ UnitPost H pend u u' [i]
  | 0, _, _, _, _, _, hr, _, _, _ => absurd hr (Nat.not_lt_zero _)
  | n + 1, pend, i, h, hh, e, hr, u, hi, hp => by
    subst e
    unfold includeHeader
    rw [find_header hG.names hh]
    by_cases hg : h.guard ∈ u.guards
    · refine ⟨u, if_pos hg, hi, List.prefix_rfl, fun _ h => h, ?_, fun _ h => .inl h⟩
      intro x hx
      obtain rfl := List.mem_singleton.mp hx
      obtain ⟨h', hh', eg, ht | ht⟩ := hi.guards _ hg
      · rwa [hG.guards _ hh' _ hh eg] at ht
      · rw [hG.guards _ hh' _ hh eg] at ht
        exact absurd (hp _ ht) (Nat.lt_irrefl _)
    · have hnt : h.name ∉ u.text := by
        intro ht
        obtain ⟨h', hh', en, hg'⟩ := hi.text _ ht
        rw [hG.names _ hh' _ hh en] at hg'
        exact hg hg'
      have hi' : UnitInv H (h.name :: pend) { u with guards := h.guard :: u.guards } := by
        refine ⟨?_, ?_, hi.nodup, hi.sorted⟩
        · intro g hg
          rcases List.mem_cons.mp hg with rfl | hg
          · exact ⟨h, hh, rfl, .inr List.mem_cons_self⟩
          · obtain ⟨h', h1, h2, h3⟩ := hi.guards g hg
            exact ⟨h', h1, h2, h3.imp_right (List.mem_cons_of_mem _)⟩
        · intro x hx
          obtain ⟨h', h1, h2, h3⟩ := hi.text x hx
          exact ⟨h', h1, h2, List.mem_cons_of_mem _ h3⟩
      obtain ⟨u1, e1, p1⟩ := include_list (fun i h2 hh e hr u hi hp => include_spec n (h.name :: pend) i h2 hh e hr u hi hp)
        h.includes { u with guards := h.guard :: u.guards } (fun i hi => by
          obtain ⟨h', h1, h2, h3⟩ := hG.includes h hh i hi
          refine ⟨⟨h', h1, h2⟩, by omega, fun x hx => ?_⟩
          rcases List.mem_cons.mp hx with rfl | hx
          · exact h3
          · have := hp x hx
            omega) hi'
      refine ⟨{ u1 with text := u1.text ++ [h.name] }, ?_, ?_, ?_, ?_, ?_, ?_⟩
      · show (if h.guard ∈ u.guards then some u else Option.map _ (List.foldlM _ _ h.includes)) = _
        rw [if_neg hg, e1]
        rfl
      · have hnt1 : h.name ∉ u1.text := by
          intro ht
          rcases p1.only _ ht with ht | ⟨i, hi, hr⟩
          · exact hnt ht
          · obtain ⟨_, _, _, h3⟩ := hG.includes h hh i hi
            have := reaches_rank hG hr
            omega
        refine ⟨?_, ?_, ?_, ?_⟩
        · intro g hg
          obtain ⟨h', h1, h2, h3⟩ := p1.inv.guards g hg
          refine ⟨h', h1, h2, ?_⟩
          rcases h3 with h3 | h3
          · exact .inl (List.mem_append_left _ h3)
          · rcases List.mem_cons.mp h3 with h3 | h3
            · exact .inl (List.mem_append_right _ (h3 ▸ List.mem_cons_self))
            · exact .inr h3
        · intro x hx
          rcases List.mem_append.mp hx with hx | hx
          · exact p1.inv.text x hx
          · obtain rfl := List.mem_singleton.mp hx
            exact ⟨h, hh, rfl, p1.guards _ List.mem_cons_self⟩
        · refine List.nodup_append.mpr ⟨p1.inv.nodup, by simp, ?_⟩
          intro a ha b hb e
          exact hnt1 (List.mem_singleton.mp hb ▸ e ▸ ha)
        · refine p1.inv.sorted.snoc fun h' hh' en i hi => ?_
          rw [hG.names _ hh' _ hh en] at hi
          exact p1.done i hi
      · exact p1.pre.trans (List.prefix_append _ _)
      · exact fun g hg => p1.guards g (List.mem_cons_of_mem _ hg)
      · exact fun x hx => List.mem_append_right _ hx
      · intro x hx
        rcases List.mem_append.mp hx with hx | hx
        · rcases p1.only x hx with hx | ⟨i, hi, hr⟩
          · exact .inl hx
          · exact .inr ⟨h.name, List.mem_cons_self, .step hh hi hr⟩
        · exact .inr ⟨h.name, List.mem_cons_self, List.mem_singleton.mp hx ▸ .self _⟩

/-- From nothing: the text is that of the headers reached, each once and after those it includes. -/
theorem include_fresh {h : Header} (hh : h ∈ H) {n : Nat} (hr : rank h.name < n) :
    ∃ u, includeHeader H n h.name ⟨[], []⟩ = some u ∧ u.text.Nodup ∧ Sorted' H u.text ∧
      ∀ x, x ∈ u.text ↔ Reaches H h.name x := by
  obtain ⟨u, e, p⟩ := include_spec hG n [] h.name h hh rfl hr ⟨[], []⟩
    ⟨fun _ h => (nomatch h), fun _ h => (nomatch h), List.nodup_nil, fun l1 _ _ e => by simp at e⟩ (fun _ h => (nomatch h))
  refine ⟨u, e, p.inv.nodup, p.inv.sorted, fun x => ⟨fun hx => ?_, fun hx => ?_⟩⟩
  · rcases p.only x hx with hx | ⟨i, hi, hr⟩
    · exact nomatch hx
    · exact List.mem_singleton.mp hi ▸ hr
  · suffices ∀ a, Reaches H a x → a ∈ u.text → x ∈ u.text from this _ hx (p.done _ List.mem_cons_self)
    clear hx
    intro a ha
    induction ha with
    | self => exact id
    | @step h i b hh hi _ ih =>
      intro ht
      obtain ⟨l1, l2, el⟩ := List.append_of_mem ht
      exact ih (el ▸ List.mem_append_left _ (p.inv.sorted l1 _ l2 el h hh rfl i hi))

end

/-! ## Names -/

theorem contains_iff {sub : Str} : ∀ {s : Str}, contains sub s = true ↔ sub <:+: s
  | [] => by
    unfold contains
    rw [List.isPrefixOf_iff_prefix, List.prefix_nil, List.infix_nil]
  | c :: s => by
    unfold contains
    rw [Bool.or_eq_true, List.isPrefixOf_iff_prefix, contains_iff, List.infix_cons_iff]

theorem stem_append (base : Str) : stem (base ++ ".proto".toList) = base := by
  unfold stem
  rw [List.length_append, show ".proto".toList.length = 6 from rfl, Nat.add_sub_cancel, List.take_left]

theorem ProtoName.eq {name : Str} (h : ProtoName name) : name = stem name ++ ".proto".toList := by
  obtain ⟨⟨base, rfl⟩, _⟩ := h
  rw [stem_append]

theorem splitRoot_proto {name : Str} (h : ProtoName name) : splitRoot name = stem name := by
  have e := h.eq
  have hc := h.2
  generalize stem name = base at e hc
  subst e
  unfold splitRoot
  rw [List.reverse_append]
  have : (".proto".toList.reverse ++ base.reverse).dropWhile (fun c => c != '.' && c != '/') = '.' :: base.reverse := by
    show (['o', 't', 'o', 'r', 'p', '.'] ++ base.reverse).dropWhile _ = _
    simp
  rw [this]
  show (if _ then base.reverse.reverse else _) = base
  rw [if_pos, List.reverse_reverse]
  rw [List.any_eq_true]
  obtain ⟨c, h1, h2⟩ := hc
  exact ⟨c, h1, by simpa using h2⟩

theorem stem_inj {a b : Str} (ha : ProtoName a) (hb : ProtoName b) (h : stem a = stem b) : a = b := by
  rw [ha.eq, hb.eq, h]

theorem headerName_eq {a : Str} (ha : ProtoName a) : headerName a = stem a ++ ".h".toList := by
  unfold headerName
  rw [splitRoot_proto ha]

theorem headerName_inj {a b : Str} (ha : ProtoName a) (hb : ProtoName b) (h : headerName a = headerName b) : a = b := by
  rw [headerName_eq ha, headerName_eq hb] at h
  exact stem_inj ha hb (List.append_inj_left' h rfl)

/-! ## The order of the files -/

theorem ImportsFollow.dep {d : Str} : ∀ {l : List ProtoReq}, ImportsFollow l → ∀ f ∈ l, d ∈ f.dependency →
    ∃ g ∈ l, g.name = d
  | f0 :: rest, h, f, hf, hd => by
    rcases List.mem_cons.mp hf with rfl | hf
    · obtain ⟨g, hg, e⟩ := h.2.2 d hd
      exact ⟨g, List.mem_cons_of_mem _ hg, e⟩
    · obtain ⟨g, hg, e⟩ := ImportsFollow.dep h.1 f hf hd
      exact ⟨g, List.mem_cons_of_mem _ hg, e⟩

theorem ImportsFollow.unique : ∀ {l : List ProtoReq}, ImportsFollow l → ∀ f ∈ l, ∀ g ∈ l, f.name = g.name → f = g
  | f0 :: rest, h, f, hf, g, hg, e => by
    rcases List.mem_cons.mp hf with rfl | hf
    · rcases List.mem_cons.mp hg with rfl | hg
      · rfl
      · exact absurd e.symm (h.2.1 g hg)
    · rcases List.mem_cons.mp hg with rfl | hg
      · exact absurd e (h.2.1 f ‹f ∈ rest›)
      · exact ImportsFollow.unique h.1 f ‹f ∈ rest› g hg e

/-- How many files there are from this one on. -/
def rankIn : List ProtoReq → Str → Nat
  | [], _ => 0
  | f :: rest, x => if headerName f.name = x then rest.length + 1 else rankIn rest x

theorem rankIn_le : ∀ (l : List ProtoReq) (x : Str), rankIn l x ≤ l.length
  | [], _ => Nat.le_refl _
  | f :: rest, x => by
    have := rankIn_le rest x
    unfold rankIn
    rw [List.length_cons]
    split <;> omega

theorem ImportsFollow.rank {d : Str} : ∀ {l : List ProtoReq}, ImportsFollow l → (∀ f ∈ l, ProtoName f.name) →
    ∀ f ∈ l, d ∈ f.dependency → rankIn l (headerName d) < rankIn l (headerName f.name)
  | f0 :: rest, h, hp, f, hf, hd => by
    have hne : ∀ g ∈ rest, headerName f0.name ≠ headerName g.name := fun g hg e => h.2.1 g hg
      (headerName_inj (hp _ List.mem_cons_self) (hp _ (List.mem_cons_of_mem _ hg)) e).symm
    unfold rankIn
    rcases List.mem_cons.mp hf with rfl | hf
    · obtain ⟨g, hg, rfl⟩ := h.2.2 d hd
      rw [if_neg (hne g hg), if_pos rfl]
      exact Nat.lt_succ_of_le (rankIn_le _ _)
    · obtain ⟨g, hg, e⟩ := ImportsFollow.dep h.1 f hf hd
      rw [if_neg (e ▸ hne g hg), if_neg (hne f hf)]
      exact ImportsFollow.rank h.1 (fun f hf => hp f (List.mem_cons_of_mem _ hf)) f hf hd

/-! ## The files for which headers are made -/

/-- A file that is neither the options nor the descriptor. -/
def ProtoReq.Mine (f : ProtoReq) : Prop := ¬ optionsFile <:+: f.name ∧ ¬ googleFile <:+: f.name

theorem collect_spec : ∀ {l : List ProtoReq}, (∀ f ∈ l, f.syntaxName ≠ "proto2".toList) →
    ∃ files wanted google, collect l = .ok (files, wanted, google) ∧ (∀ f, f ∈ files ↔ f ∈ l ∧ f.Mine) ∧
      (wanted = true ↔ ∃ f ∈ l, f.Mine ∧ googleFile ∈ f.dependency) ∧
      (∀ g, google = some g → g ∈ l ∧ googleFile <:+: g.name) ∧ (google = none → ∀ f ∈ l, ¬ googleFile <:+: f.name)
  | [], _ => ⟨[], false, none, rfl, by simp, by simp, by simp, by simp⟩
  | f :: rest, hs => by
    obtain ⟨files, wanted, google, e, h1, h2, h3, h4⟩ := collect_spec (l := rest) fun g hg => hs g (List.mem_cons_of_mem _ hg)
    have hopen : openFile f = .ok f := if_neg (hs f List.mem_cons_self)
    have hm : (!contains optionsFile f.name && !contains googleFile f.name) = true ↔ f.Mine := by
      unfold ProtoReq.Mine
      rw [← contains_iff, ← contains_iff]
      simp
    unfold collect
    rw [hopen, e]
    by_cases hmine : f.Mine
    · rw [if_pos (hm.mpr hmine)]
      refine ⟨f :: files, f.dependency.contains googleFile || wanted, google, ?_, ?_, ?_, ?_, ?_⟩
      · have : contains googleFile f.name = false := by
          rw [← Bool.not_eq_true, contains_iff]; exact hmine.2
        show Except.ok ([f] ++ files, (f.dependency.contains googleFile || wanted),
          google.or (if contains googleFile f.name = true then some f else none)) = _
        rw [this]
        simp
      · intro g
        rw [List.mem_cons, List.mem_cons, h1]
        constructor
        · rintro (rfl | ⟨h5, h6⟩)
          · exact ⟨.inl rfl, hmine⟩
          · exact ⟨.inr h5, h6⟩
        · rintro ⟨rfl | h5, h6⟩
          · exact .inl rfl
          · exact .inr ⟨h5, h6⟩
      · rw [Bool.or_eq_true, h2, List.contains_iff_mem]
        constructor
        · rintro (h | ⟨g, hg, h⟩)
          · exact ⟨f, List.mem_cons_self, hmine, h⟩
          · exact ⟨g, List.mem_cons_of_mem _ hg, h⟩
        · rintro ⟨g, hg, h⟩
          rcases List.mem_cons.mp hg with rfl | hg
          · exact .inl h.2
          · exact .inr ⟨g, hg, h⟩
      · intro g hg
        obtain ⟨h5, h6⟩ := h3 g hg
        exact ⟨List.mem_cons_of_mem _ h5, h6⟩
      · intro hn g hg
        rcases List.mem_cons.mp hg with rfl | hg
        · exact hmine.2
        · exact h4 hn g hg
    · rw [if_neg (mt hm.mp hmine)]
      refine ⟨files, wanted, google.or (if contains googleFile f.name then some f else none), rfl, ?_, ?_, ?_, ?_⟩
      · intro g
        rw [h1, List.mem_cons]
        constructor
        · rintro ⟨h5, h6⟩
          exact ⟨.inr h5, h6⟩
        · rintro ⟨rfl | h5, h6⟩
          · exact absurd h6 hmine
          · exact ⟨h5, h6⟩
      · rw [h2]
        constructor
        · rintro ⟨g, hg, h⟩
          exact ⟨g, List.mem_cons_of_mem _ hg, h⟩
        · rintro ⟨g, hg, h⟩
          rcases List.mem_cons.mp hg with rfl | hg
          · exact absurd h.1 hmine
          · exact ⟨g, hg, h⟩
      · intro g hg
        rcases Option.or_eq_some_iff.mp hg with hg | ⟨_, hg⟩
        · obtain ⟨h5, h6⟩ := h3 g hg
          exact ⟨List.mem_cons_of_mem _ h5, h6⟩
        · split at hg
          · rename_i hc
            obtain rfl := Option.some.inj hg
            exact ⟨List.mem_cons_self, contains_iff.mp hc⟩
          · exact nomatch hg
      · intro hn g hg
        obtain ⟨h5, h6⟩ := Option.or_eq_none_iff.mp hn
        rcases List.mem_cons.mp hg with rfl | hg
        · split at h6
          · exact nomatch h6
          · rename_i hc
            exact fun h => hc (contains_iff.mpr h)
        · exact h4 h5 g hg

theorem fileDefinitions_spec {l : List ProtoReq} (hv : RequestValid l) (hs : ∀ f ∈ l, f.syntaxName ≠ "proto2".toList)
    (hg : ∀ f ∈ l, googleFile <:+: f.name → f.name = googleFile) :
    ∃ files, fileDefinitions l = .ok files ∧ ∀ f, f ∈ files ↔ f ∈ l ∧
      (f.Mine ∨ (f.name = googleFile ∧ ∃ f' ∈ l, f'.Mine ∧ googleFile ∈ f'.dependency)) := by
  obtain ⟨files, wanted, google, e, h1, h2, h3, h4⟩ := collect_spec hs
  unfold fileDefinitions
  rw [e]
  cases wanted with
  | false =>
    refine ⟨files, rfl, fun f => ?_⟩
    rw [h1]
    refine and_congr_right fun _ => ⟨.inl, fun h => ?_⟩
    rcases h with h | ⟨_, h⟩
    · exact h
    · exact nomatch h2.mpr h
  | true =>
    cases google with
    | none =>
      obtain ⟨f, hf, hm, hd⟩ := h2.mp rfl
      obtain ⟨g, hg, e⟩ := ImportsFollow.dep hv f (List.mem_reverse.mpr hf) hd
      exact absurd (e ▸ List.infix_rfl) (h4 rfl g (List.mem_reverse.mp hg))
    | some g =>
      obtain ⟨hgl, hgn⟩ := h3 g rfl
      have hgn' := hg g hgl hgn
      refine ⟨g :: files, ?_, fun f => ?_⟩
      · show (do pure ((← openFile g) :: files) : Except GenError (List ProtoReq)) = _
        rw [show openFile g = .ok g from if_neg (hs g hgl)]
        rfl
      · rw [List.mem_cons, h1]
        constructor
        · rintro (rfl | ⟨h5, h6⟩)
          · exact ⟨hgl, .inr ⟨hgn', h2.mp rfl⟩⟩
          · exact ⟨h5, .inl h6⟩
        · rintro ⟨h5, h6 | ⟨h6, _⟩⟩
          · exact .inr ⟨h5, h6⟩
          · exact .inl (ImportsFollow.unique hv f (List.mem_reverse.mpr h5) g (List.mem_reverse.mpr hgl) (h6.trans hgn'.symm))

end EP.Gen
