import Verif.Proof.GenAccept

/-!
# Which files are accepted
-/

namespace EP.Gen

/-! ## Rearranging -/

theorem Rearranged.refl (l : List MsgDesc) : Rearranged l l := .perm (.refl _)

theorem headers_append (ns : Str) : ∀ (l r : List MsgDesc), headers ns (l ++ r) = headers ns l ++ headers ns r
  | [], _ => rfl
  | m :: l, r => by rw [List.cons_append, headers, headers, headers_append ns l r, List.append_assoc]

theorem Rearranged.headers {l l' : List MsgDesc} (h : Rearranged l l') : ∀ ns, (headers ns l).Perm (Gen.headers ns l') := by
  induction h with
  | perm h => exact fun _ => headers_perm h
  | inside l r _ ih =>
    intro ns
    rw [headers_append, headers_append, Gen.headers, Gen.headers, MsgDesc.header, MsgDesc.header]
    exact ((((ih _).append_left _).append_right _).append_right _).append_left _
  | trans _ _ ih1 ih2 => exact fun ns => (ih1 ns).trans (ih2 ns)

theorem Rearranged.cons (a : MsgDesc) {l l' : List MsgDesc} (h : Rearranged l l') : Rearranged (a :: l) (a :: l') := by
  induction h with
  | perm h => exact .perm (h.cons a)
  | inside l r h _ => exact .inside (a :: l) r h
  | trans _ _ ih1 ih2 => exact ih1.trans ih2

/-- A message is still there, with the same name and the same types inside. -/
theorem Rearranged.at {l l' : List MsgDesc} (h : Rearranged l l') : ∀ {ns scope m}, At ns l scope m →
    ∃ m', At ns l' scope m' ∧ m'.name = m.name ∧ m'.enums = m.enums ∧ (m'.header scope).Perm (m.header scope) := by
  induction h with
  | perm h =>
    intro ns scope m hm
    refine ⟨m, ?_, rfl, rfl, .refl _⟩
    cases hm with
    | here hm => exact .here (h.mem_iff.mp hm)
    | inside hc hm => exact .inside (h.mem_iff.mp hc) hm
  | @inside name fields oneofs enums nested nested' l r h ih =>
    intro ns scope m hm
    have hold : ∀ x ∈ l ++ .mk name fields oneofs enums nested :: r, x = .mk name fields oneofs enums nested ∨
        x ∈ l ++ .mk name fields oneofs enums nested' :: r := by
      intro x hx
      rcases List.mem_append.mp hx with hx | hx
      · exact .inr (List.mem_append_left _ hx)
      · rcases List.mem_cons.mp hx with hx | hx
        · exact .inl hx
        · exact .inr (List.mem_append_right _ (List.mem_cons_of_mem _ hx))
    have hnew : MsgDesc.mk name fields oneofs enums nested' ∈ l ++ .mk name fields oneofs enums nested' :: r := by simp
    cases hm with
    | here hm =>
      rcases hold _ hm with rfl | hm
      · refine ⟨_, .here hnew, rfl, rfl, ?_⟩
        rw [MsgDesc.header, MsgDesc.header]
        exact ((h.headers _).symm.append_left _).append_right _
      · exact ⟨m, .here hm, rfl, rfl, .refl _⟩
    | inside hc hm =>
      rcases hold _ hc with rfl | hc
      · obtain ⟨m', h1, h2⟩ := ih hm
        exact ⟨m', .inside hnew h1, h2⟩
      · exact ⟨m, .inside hc hm, rfl, rfl, .refl _⟩
  | trans _ _ ih1 ih2 =>
    intro ns scope m hm
    obtain ⟨m1, a1, b1, c1, d1⟩ := ih1 hm
    obtain ⟨m2, a2, b2, c2, d2⟩ := ih2 a1
    exact ⟨m2, a2, b2.trans b1, c2.trans c1, d2.trans d1⟩

mutual
theorem sortMsg_rearranged (order : List Str) (ns : Str) : ∀ (m : MsgDesc) (l : List MsgDesc),
    Rearranged (m :: l) (sortMsg order ns m :: l)
  | .mk name fields oneofs enums nested, l => by
    rw [sortMsg]
    exact .inside [] l ((sortMsgs_rearranged order (dot ns name) nested).trans (.perm (sortHere_perm _ _ _).symm))
theorem sortMsgs_rearranged (order : List Str) (ns : Str) : ∀ ms : List MsgDesc, Rearranged ms (sortMsgs order ns ms)
  | [] => .refl _
  | m :: ms => by
    rw [sortMsgs]
    exact (sortMsg_rearranged order ns m ms).trans (.cons _ (sortMsgs_rearranged order ns ms))
end

/-- What the generator does to the messages. -/
theorem order_rearranged {f : FileDesc} {ms : List MsgDesc} (h : f.order = .ok ms) : Rearranged f.messages ms := by
  unfold FileDesc.order at h
  cases ht : toposort strLe (addMsgs f.package f.messages) with
  | error e => rw [ht] at h; exact nomatch h
  | ok full =>
    rw [ht] at h
    have h : Except.ok _ = Except.ok ms := h
    injection h with h
    subst h
    exact (sortMsgs_rearranged _ _ _).trans (.perm (sortHere_perm _ _ _).symm)

/-! ## The order in which classes begin -/

mutual
/-- The types of a message, outer types first. -/
def opens (ns : Str) : MsgDesc → List Str
  | .mk name _ _ enums nested => dot ns name :: (enums.map (dot (dot ns name)) ++ openss (dot ns name) nested)
def openss (ns : Str) : List MsgDesc → List Str
  | [] => []
  | m :: ms => opens ns m ++ openss ns ms
end

mutual
theorem opens_perm (ns : Str) : ∀ m : MsgDesc, (opens ns m).Perm (m.header ns)
  | .mk name fields oneofs enums nested => by
    rw [opens, MsgDesc.header]
    exact (((openss_perm (dot ns name) nested).append_left _).cons _).trans
      (List.perm_append_comm (l₁ := [dot ns name]))
theorem openss_perm (ns : Str) : ∀ ms : List MsgDesc, (openss ns ms).Perm (headers ns ms)
  | [] => .refl _
  | m :: ms => by
    rw [openss, headers]
    exact (opens_perm ns m).append (openss_perm ns ms)
end

theorem opens_sublist {ns : Str} {m : MsgDesc} : ∀ {ms : List MsgDesc}, m ∈ ms → (opens ns m).Sublist (openss ns ms)
  | [], h => nomatch h
  | x :: ms, h => by
    rw [openss]
    rcases List.mem_cons.mp h with rfl | h
    · exact List.sublist_append_left _ _
    · exact (opens_sublist h).trans (List.sublist_append_right _ _)

theorem openss_mono {ns : Str} {l l' : List MsgDesc} (h : l.Sublist l') : (openss ns l).Sublist (openss ns l') := by
  induction h with
  | slnil => exact .slnil
  | cons a _ ih => rw [openss]; exact ih.trans (List.sublist_append_right _ _)
  | cons_cons a _ ih => rw [openss, openss]; exact (List.Sublist.refl _).append ih

theorem nested_sublist_header (ns : Str) (m : MsgDesc) : (headers (dot ns m.name) m.nested).Sublist (m.header ns) := by
  cases m with
  | mk name fields oneofs enums nested =>
    rw [MsgDesc.header]
    exact (List.sublist_append_right _ _).trans (List.sublist_append_left _ _)

theorem At.header_sublist {ns : Str} {ms : List MsgDesc} {scope : Str} {m : MsgDesc} (h : At ns ms scope m) :
    (m.header scope).Sublist (headers ns ms) := by
  induction h with
  | here hm => exact Gen.header_sublist hm
  | inside hc _ ih => exact (ih.trans (nested_sublist_header _ _)).trans (Gen.header_sublist hc)

/-- The types of a message begin with the message. -/
theorem At.opens_sublist {ns : Str} {ms : List MsgDesc} {scope : Str} {m : MsgDesc} (h : At ns ms scope m) :
    (opens scope m).Sublist (openss ns ms) := by
  induction h with
  | here hm => exact Gen.opens_sublist hm
  | @inside ns ms c scope m hc _ ih =>
    refine ih.trans (.trans ?_ (Gen.opens_sublist hc))
    cases c with
    | mk name fields oneofs enums nested =>
      rw [opens]
      exact (List.sublist_append_right _ _).cons _

/-- A message comes before what is directly inside it. -/
theorem At.scope_before {ns : Str} {ms : List MsgDesc} {scope : Str} {m : MsgDesc} (h : At ns ms scope m) :
    scope = ns ∨ [scope, dot scope m.name].Sublist (openss ns ms) := by
  induction h with
  | here hm => exact .inl rfl
  | @inside ns ms c scope m hc hat ih =>
    refine .inr (.trans ?_ (Gen.opens_sublist hc))
    cases c with
    | mk name fields oneofs enums nested =>
      rw [opens]
      have hin : dot scope m.name ∈ openss (dot ns name) nested := (openss_perm _ _).mem_iff.mpr hat.under
      rcases ih with rfl | ih
      · exact (List.singleton_sublist.mpr (List.mem_append_right _ hin)).cons_cons _
      · exact (ih.trans (List.sublist_append_right _ _)).cons _

/-- "Before" in a part of a list. -/
theorem pair_within {α : Type} {l s : List α} (hn : l.Nodup) (hs : s.Sublist l) {a b : α} (h : [a, b].Sublist l)
    (ha : a ∈ s) (hb : b ∈ s) : [a, b].Sublist s := by
  have hne : a ≠ b := by
    rintro rfl
    exact pair_irrefl hn h
  rcases before_or ha hb hne with h' | h'
  · exact h'
  · exact absurd (pair_trans hn h (h'.trans hs)) (pair_irrefl hn)

/-- If `x` is complete before something in the message `m`, and is not itself in `m`, then it begins before `m`. -/
theorem At.before {ns : Str} {ms : List MsgDesc} {scope : Str} {m : MsgDesc} (h : At ns ms scope m)
    (hn : (headers ns ms).Nodup) {x y : Str} (hy : y ∈ m.header scope) (hx : x ∉ m.header scope)
    (hb : [x, y].Sublist (headers ns ms)) : [x, dot scope m.name].Sublist (openss ns ms) := by
  -- in different messages of the list
  have differ : ∀ {ns : Str} {ms : List MsgDesc} {c d : MsgDesc} {x y z : Str}, (headers ns ms).Nodup → c ∈ ms → d ∈ ms → d ≠ c →
      x ∈ d.header ns → y ∈ c.header ns → z ∈ c.header ns → [x, y].Sublist (headers ns ms) →
        [x, z].Sublist (openss ns ms) := by
    intro ns ms c d x y z hn hc hd hne hx hy hz hb
    rcases before_or hd hc hne with hs | hs
    · refine List.Sublist.trans ?_ (openss_mono hs)
      simp only [openss, List.append_nil]
      exact pair_sublist ((opens_perm _ _).mem_iff.mpr hx) ((opens_perm _ _).mem_iff.mpr hz)
    · exfalso
      have : [y, x].Sublist (headers ns ms) := by
        refine List.Sublist.trans ?_ (headers_mono hs)
        simp only [headers, List.append_nil]
        exact pair_sublist hy hx
      exact pair_irrefl hn (pair_trans hn hb this)
  induction h with
  | @here ns ms m hm =>
    have hxm : x ∈ headers ns ms := hb.subset (by simp)
    obtain ⟨d, hd, hxd⟩ := mem_headers.mp hxm
    have hne : d ≠ m := by
      rintro rfl
      exact hx hxd
    exact differ hn hm hd hne hxd hy (own_mem_header _ _) hb
  | @inside ns ms c scope m hc hat ih =>
    have hxm : x ∈ headers ns ms := hb.subset (by simp)
    obtain ⟨d, hd, hxd⟩ := mem_headers.mp hxm
    have hyn : y ∈ headers (dot ns c.name) c.nested := hat.header_sublist.subset hy
    have hyc : y ∈ c.header ns := (nested_sublist_header _ _).subset hyn
    have hzn : dot scope m.name ∈ headers (dot ns c.name) c.nested := hat.under
    have hzc := (nested_sublist_header _ _).subset hzn
    by_cases hdc : d = c
    · subst hdc
      have hsub := (nested_sublist_header ns d).trans (Gen.header_sublist hd)
      refine List.Sublist.trans ?_ (Gen.opens_sublist hd)
      by_cases hxn : x ∈ headers (dot ns d.name) d.nested
      · have := ih (hn.sublist hsub) hy hx (pair_within hn hsub hb hxn hyn)
        cases d with
        | mk name fields oneofs enums nested =>
          rw [opens]
          exact (this.trans (List.sublist_append_right _ _)).cons _
      · cases d with
        | mk name fields oneofs enums nested =>
          rw [opens]
          have hz : dot scope m.name ∈ openss (dot ns name) nested := (openss_perm _ _).mem_iff.mpr hzn
          rw [MsgDesc.header] at hxd
          rcases List.mem_append.mp hxd with hxd | hxd
          · rcases List.mem_append.mp hxd with hxd | hxd
            · exact (pair_sublist hxd hz).cons _
            · exact absurd hxd hxn
          · exfalso
            rw [List.mem_singleton.mp hxd] at hb
            have h2 : [y, dot ns name].Sublist (headers ns ms) := by
              refine List.Sublist.trans ?_ (Gen.header_sublist hd)
              rw [MsgDesc.header]
              exact pair_sublist (List.mem_append_right _ hyn) (List.mem_singleton.mpr rfl)
            exact pair_irrefl hn (pair_trans hn hb h2)
    · exact differ hn hc hd hdc hxd hyc hzc hb

/-! ## Dependencies -/

mutual
/-- The reasons for a dependency of a message. -/
theorem msgDeps_cases {x : Str} (ns : Str) : ∀ m : MsgDesc, x ∈ msgDeps ns m →
    x = ns ∨ x = "FieldErrorRecursive".toList ∨
      (Uses ns m x ∧ (∀ c ∈ m.nested, x ≠ dot (dot ns m.name) c.name) ∧ ∀ e ∈ m.enums, x ≠ dot (dot ns m.name) e) ∨
      (¬ dot ns m.name <+: x ∧ ∃ scope c, At (dot ns m.name) m.nested scope c ∧ Uses scope c x)
  | .mk name fields oneofs enums nested, h => by
    rw [msgDeps] at h
    rcases List.mem_cons.mp h with h | h
    · exact .inl h
    · rcases List.mem_append.mp h with h | h
      · obtain ⟨⟨c, hc, hx⟩, hp⟩ := mem_outerDeps.mp h
        rcases msgsDeps_cases (dot ns name) nested c hc hx with e | e | h
        · exact absurd (e ▸ List.prefix_refl _) hp
        · exact .inr (.inl e)
        · exact .inr (.inr (.inr ⟨hp, h⟩))
      · have hloc := (List.mem_filter.mp h).2
        simp only [decide_eq_true_eq, List.mem_append, List.mem_map, not_or, not_exists, not_and] at hloc
        rcases mem_fieldDeps h with e | hu
        · exact .inr (.inl e)
        · exact .inr (.inr (.inl ⟨hu, fun c hc e => hloc.1 c hc e.symm, fun c hc e => hloc.2 c hc e.symm⟩))
theorem msgsDeps_cases {x : Str} (ns : Str) : ∀ (ms : List MsgDesc) (m : MsgDesc), m ∈ ms → x ∈ msgDeps ns m →
    x = ns ∨ x = "FieldErrorRecursive".toList ∨ ∃ scope c, At ns ms scope c ∧ Uses scope c x
  | [], _, h, _ => nomatch h
  | a :: ms, m, h, hx => by
    by_cases hma : m = a
    · have hx' : x ∈ msgDeps ns a := hma ▸ hx
      rcases msgDeps_cases ns a hx' with e | e | ⟨hu, _⟩ | ⟨_, scope, c, hat, hu⟩
      · exact .inl e
      · exact .inr (.inl e)
      · exact .inr (.inr ⟨ns, a, .here List.mem_cons_self, hu⟩)
      · exact .inr (.inr ⟨scope, c, .inside List.mem_cons_self hat, hu⟩)
    · rcases msgsDeps_cases ns ms m ((List.mem_cons.mp h).resolve_left hma) hx with e | e | ⟨scope, c, hat, hu⟩
      · exact .inl e
      · exact .inr (.inl e)
      · refine .inr (.inr ⟨scope, c, ?_, hu⟩)
        cases hat with
        | here h => exact .here (List.mem_cons_of_mem _ h)
        | inside h h' => exact .inside (List.mem_cons_of_mem _ h) h'
end

mutual
/-- The items of the dictionary. -/
theorem addMsg_cases {p : Str × List Str} (ns : Str) : ∀ m : MsgDesc, p ∈ addMsg ns m →
    p = (dot ns m.name, msgDeps ns m) ∨ (∃ e ∈ m.enums, p = (dot (dot ns m.name) e, [dot ns m.name])) ∨
      ∃ scope c, At (dot ns m.name) m.nested scope c ∧ (p = (dot scope c.name, msgDeps scope c) ∨
        ∃ e ∈ c.enums, p = (dot (dot scope c.name) e, [dot scope c.name]))
  | .mk name fields oneofs enums nested, h => by
    rw [addMsg] at h
    rcases List.mem_append.mp h with h | h
    · rcases List.mem_append.mp h with h | h
      · exact .inr (.inr (addMsgs_cases (dot ns name) nested h))
      · obtain ⟨e, he, rfl⟩ := List.mem_map.mp h
        exact .inr (.inl ⟨e, he, rfl⟩)
    · exact .inl (List.mem_singleton.mp h)
theorem addMsgs_cases {p : Str × List Str} (ns : Str) : ∀ ms : List MsgDesc, p ∈ addMsgs ns ms →
    ∃ scope c, At ns ms scope c ∧ (p = (dot scope c.name, msgDeps scope c) ∨
        ∃ e ∈ c.enums, p = (dot (dot scope c.name) e, [dot scope c.name]))
  | [], h => nomatch h
  | a :: ms, h => by
    rw [addMsgs] at h
    rcases List.mem_append.mp h with h | h
    · rcases addMsg_cases ns a h with h | h | ⟨scope, c, hat, h⟩
      · exact ⟨ns, a, .here List.mem_cons_self, .inl h⟩
      · exact ⟨ns, a, .here List.mem_cons_self, .inr h⟩
      · exact ⟨scope, c, .inside List.mem_cons_self hat, h⟩
    · obtain ⟨scope, c, hat, h⟩ := addMsgs_cases ns ms h
      refine ⟨scope, c, ?_, h⟩
      cases hat with
      | here h => exact .here (List.mem_cons_of_mem _ h)
      | inside h h' => exact .inside (List.mem_cons_of_mem _ h) h'
end

theorem At.addMsg_subset {ns : Str} {ms : List MsgDesc} {scope : Str} {m : MsgDesc} (h : At ns ms scope m) :
    ∀ p ∈ addMsg scope m, p ∈ addMsgs ns ms := by
  induction h with
  | here hm => exact fun p hp => mem_addMsgs.mpr ⟨_, hm, hp⟩
  | inside hc _ ih => exact fun p hp => mem_addMsgs.mpr ⟨_, hc, nested_mem_addMsg _ _ (ih p hp)⟩

theorem At.comp {ns : Str} {ms : List MsgDesc} {scope scope' : Str} {m c : MsgDesc} (h : At ns ms scope m)
    (h' : At (dot scope m.name) m.nested scope' c) : At ns ms scope' c := by
  induction h with
  | here hm => exact .inside hm h'
  | inside hc _ ih => exact .inside hc (ih h')

/-! ## Accepted -/

theorem headers_dot {ns : Str} {ms : List MsgDesc} {t : Str} (h : t ∈ headers ns ms) : '.' ∈ t ∧ ns.length < t.length := by
  obtain ⟨m, hm, h⟩ := mem_headers.mp h
  rcases header_under ns m t h with rfl | hp
  · simp [dot]
  · obtain ⟨r, rfl⟩ := hp
    simp [dot]

/-- A file is accepted if it can be arranged and no message uses what is deep inside it. -/
theorem accept_shallow {f : FileDesc} (hv : f.Valid) (hs : f.Shallow) (ho : f.Orderable) : ∃ r, f.order = .ok r := by
  obtain ⟨ms, hr, hb⟩ := ho
  have hperm := hr.headers f.package
  have hnd : (headers f.package f.messages).Nodup := hv.distinct.sublist (List.sublist_append_right _ _)
  have hnd' : (headers f.package ms).Nodup := hperm.nodup_iff.mp hnd
  have hop := openss_perm f.package ms
  have hno : (openss f.package ms).Nodup := hop.nodup_iff.mpr hnd'
  have hmem : ∀ x, x ∈ openss f.package ms ↔ x ∈ headers f.package f.messages := fun x => by
    rw [hop.mem_iff, hperm.mem_iff]
  obtain ⟨l, hl⟩ := toposort_ok (le := strLe) (d := addMsgs f.package f.messages)
    (fun x => if x ∈ openss f.package ms then (openss f.package ms).idxOf x + 1 else 0) (by
      intro p hp x hx hne
      have key : ∀ {a b : Str}, b ∈ openss f.package ms →
          (a ∈ openss f.package ms → [a, b].Sublist (openss f.package ms)) →
          (if a ∈ openss f.package ms then (openss f.package ms).idxOf a + 1 else 0) <
            (if b ∈ openss f.package ms then (openss f.package ms).idxOf b + 1 else 0) := by
        intro a b hb h
        rw [if_pos hb]
        split
        · next ha => exact Nat.succ_lt_succ (idxOf_lt hno (h ha))
        · omega
      obtain ⟨scope, m, hat, h⟩ := addMsgs_cases _ _ hp
      obtain ⟨m', hat', hname, henums, hhead⟩ := hr.at hat
      have hown : dot scope m.name ∈ openss f.package ms := (hmem _).mpr hat.under
      rcases h with rfl | ⟨e, he, rfl⟩
      · refine key hown fun hxo => ?_
        have hxh := (hmem _).mp hxo
        -- used by something in `m`
        have use : ∀ y, y ∈ m.header scope → x ∉ m.header scope → Before (f.header ms) x y →
            [x, dot scope m.name].Sublist (openss f.package ms) := by
          intro y hy hxm hbf
          have hbf : [x, y].Sublist (headers f.package ms) := by
            refine pair_of_append hbf fun hxe => ?_
            exact (List.nodup_append.mp hv.distinct).2.2 x hxe x hxh rfl
          have := hat'.before hnd' (hhead.mem_iff.mpr hy) (fun h => hxm (hhead.mem_iff.mp h)) hbf
          rwa [hname] at this
        rcases msgDeps_cases scope m hx with rfl | rfl | ⟨hu, hl1, hl2⟩ | ⟨hpre, scope', c, hatc, hu⟩
        · rcases hat'.scope_before with e | h
          · exact absurd (headers_dot hxh).2 (by rw [e]; exact Nat.lt_irrefl _)
          · rwa [hname] at h
        · exact absurd (headers_dot hxh).1 (by decide)
        · refine use _ (own_mem_header _ _) ?_ (hb scope m x hat hu (List.mem_append_right _ hxh))
          intro hxm
          have hs' := hs scope m x hat hu
          cases m with
          | mk name fields oneofs enums nested =>
            rw [MsgDesc.header] at hxm
            rcases List.mem_append.mp hxm with hxm | hxm
            · rcases List.mem_append.mp hxm with hxm | hxm
              · obtain ⟨e, he, rfl⟩ := List.mem_map.mp hxm
                exact hl2 e he rfl
              · obtain ⟨c, hc, hxc⟩ := mem_headers.mp hxm
                exact hl1 c hc (hs' c hc hxc)
            · exact hne (List.mem_singleton.mp hxm)
        · refine use (dot scope' c.name) ((nested_sublist_header _ _).subset hatc.under) ?_
            (hb scope' c x (hat.comp hatc) hu (List.mem_append_right _ hxh))
          intro hxm
          exact hpre (header_under _ _ _ hxm).prefix
      · have hx' : x = dot scope m.name := List.mem_singleton.mp hx
        subst hx'
        have hpair : [dot scope m.name, dot (dot scope m.name) e].Sublist (openss f.package ms) := by
          refine List.Sublist.trans ?_ hat'.opens_sublist
          cases m' with
          | mk name fields oneofs enums nested =>
            simp only [MsgDesc.name, MsgDesc.enums] at hname henums
            subst hname henums
            rw [opens]
            exact (List.singleton_sublist.mpr (List.mem_append_left _ (List.mem_map_of_mem he))).cons_cons _
        exact key (hpair.subset (by simp)) fun _ => hpair)
  exact ⟨_, by unfold FileDesc.order; rw [hl]; rfl⟩

/-- A file with a message that uses what is deep inside it is refused. -/
theorem shallow_of_accept {f : FileDesc} (hv : f.Valid) {ms : List MsgDesc} (h : f.order = .ok ms) : f.Shallow := by
  intro scope m t hat hu c hc ht
  unfold FileDesc.order at h
  cases hto : toposort strLe (addMsgs f.package f.messages) with
  | error e => rw [hto] at h; exact nomatch h
  | ok full =>
    have hnd : (headers f.package f.messages).Nodup := hv.distinct.sublist (List.sublist_append_right _ _)
    obtain ⟨hd, _, _, he⟩ := toposort_spec ((keys_addMsgs _ _).nodup_iff.mpr hnd) hto
    have hin : t ∈ headers (dot scope m.name) m.nested := mem_headers.mpr ⟨c, hc, ht⟩
    have hth : t ∈ m.header scope := (nested_sublist_header _ _).subset hin
    refine Classical.byContradiction fun hne => ?_
    -- the message comes before the type
    have h1 : [dot scope m.name, t].Sublist full := by
      rcases chain hd scope m (fun p hp => he p (hat.addMsg_subset p hp)) t hth with e | h
      · exact absurd e hu.1
      · exact h
    -- and the type before the message
    have h2 : [t, dot scope m.name].Sublist full := by
      refine he _ (hat.addMsg_subset _ (own_mem_addMsg scope m)) t ?_ hu.1
      have hhead := hnd.sublist hat.header_sublist
      obtain ⟨hne', fd, hfd, hty, rfl⟩ := hu
      cases m with
      | mk name fields oneofs enums nested =>
        simp only [msgDeps, List.mem_cons, List.mem_append, fieldDeps, List.mem_filter, List.mem_map]
        refine .inr (.inr ⟨⟨fd, ⟨hfd, by simpa using hty⟩, if_neg hne'⟩, ?_⟩)
        simp only [decide_eq_true_eq]
        rw [MsgDesc.header] at hhead
        rintro (⟨d, hd', hx⟩ | ⟨e, he', hx⟩)
        · -- the name of another message nested in `m`
          have hhn : (headers (dot scope name) nested).Nodup :=
            hhead.sublist ((List.sublist_append_right _ _).trans (List.sublist_append_left _ _))
          by_cases hdc : d = c
          · subst hdc
            exact hne hx.symm
          · have : ∀ {a b : MsgDesc} {x : Str}, [a, b].Sublist nested → x ∈ a.header (dot scope name) →
                x ∈ b.header (dot scope name) → False := by
              intro a b x hs ha hb
              have := hhn.sublist (headers_mono hs)
              simp only [headers, List.append_nil] at this
              exact (List.nodup_append.mp this).2.2 x ha x hb rfl
            have hxd : fd.typeName ∈ d.header (dot scope name) := hx ▸ own_mem_header _ _
            rcases before_or hd' hc hdc with hs | hs
            · exact this hs hxd ht
            · exact this hs ht hxd
        · have := (List.nodup_append.mp (List.nodup_append.mp hhead).1).2.2 fd.typeName
            (List.mem_map.mpr ⟨e, he', hx⟩) fd.typeName hin
          exact this rfl
    exact pair_irrefl hd (pair_trans hd h1 h2)

/-- Exactly the files that are accepted. -/
theorem order_iff {f : FileDesc} (hv : f.Valid) (hc : f.Clear) (hn : f.NoOuter) :
    (∃ r, f.order = .ok r) ↔ f.Orderable ∧ f.Shallow :=
  ⟨fun ⟨r, h⟩ => ⟨⟨r, order_rearranged h, fun _ _ _ hm hu hd => order_before hv hc hn h hm hu hd⟩, shallow_of_accept hv h⟩,
    fun ⟨h1, h2⟩ => accept_shallow hv h2 h1⟩

end EP.Gen
