import Verif.Model.GenTemplates
import Verif.Proof.GenAccept

/-!
# Template parameters
-/

namespace EP.Gen

/-! ## The list of all definitions -/

mutual
def MsgDesc.defs (ns : Str) : MsgDesc → List (Str × MsgDesc)
  | .mk name fields oneofs enums nested =>
    defsList (dot ns name) nested ++ [(dot ns name, .mk name fields oneofs enums nested)]
def defsList (ns : Str) : List MsgDesc → List (Str × MsgDesc)
  | [] => []
  | m :: ms => m.defs ns ++ defsList ns ms
end

mutual
theorem defs_fst (ns : Str) : ∀ m : MsgDesc, (m.defs ns).map (·.1) = m.classes ns
  | .mk name fields oneofs enums nested => by
    rw [MsgDesc.defs, MsgDesc.classes, List.map_append, defsList_fst (dot ns name) nested]
    rfl
theorem defsList_fst (ns : Str) : ∀ ms : List MsgDesc, (defsList ns ms).map (·.1) = classes ns ms
  | [] => rfl
  | m :: ms => by rw [defsList, classes, List.map_append, defs_fst ns m, defsList_fst ns ms]
end

theorem mem_defsList {ns : Str} {p : Str × MsgDesc} : ∀ {ms : List MsgDesc}, p ∈ defsList ns ms ↔ ∃ m ∈ ms, p ∈ m.defs ns
  | [] => by simp [defsList]
  | m :: ms => by simp [defsList, mem_defsList]

theorem mem_defs {ns : Str} {m : MsgDesc} {p : Str × MsgDesc} :
    p ∈ m.defs ns ↔ p ∈ defsList (dot ns m.name) m.nested ∨ p = (dot ns m.name, m) := by
  cases m with
  | mk name fields oneofs enums nested =>
    rw [MsgDesc.defs, List.mem_append, List.mem_singleton]
    rfl

theorem At.mem_defsList {ns : Str} {ms : List MsgDesc} {scope : Str} {m : MsgDesc} (h : At ns ms scope m) :
    (dot scope m.name, m) ∈ defsList ns ms := by
  induction h with
  | here hm => exact Gen.mem_defsList.mpr ⟨_, hm, mem_defs.mpr (.inr rfl)⟩
  | inside hc _ ih => exact Gen.mem_defsList.mpr ⟨_, hc, mem_defs.mpr (.inl ih)⟩

mutual
theorem at_of_defs (ns : Str) : ∀ (m : MsgDesc), ∀ p ∈ m.defs ns, ∃ scope, At ns [m] scope p.2 ∧ p.1 = dot scope p.2.name
  | .mk name fields oneofs enums nested, p, h => by
    rcases mem_defs.mp h with h | rfl
    · obtain ⟨scope, h1, h2⟩ := at_of_defsList (dot ns name) nested p h
      exact ⟨scope, .inside List.mem_cons_self h1, h2⟩
    · exact ⟨ns, .here List.mem_cons_self, rfl⟩
theorem at_of_defsList (ns : Str) : ∀ (ms : List MsgDesc), ∀ p ∈ defsList ns ms,
    ∃ scope, At ns ms scope p.2 ∧ p.1 = dot scope p.2.name
  | [], _, h => nomatch h
  | m :: ms, p, h => by
    rcases List.mem_append.mp h with h | h
    · obtain ⟨scope, h1, h2⟩ := at_of_defs ns m p h
      refine ⟨scope, ?_, h2⟩
      cases h1 with
      | here h => exact .here (List.mem_singleton.mp h ▸ List.mem_cons_self)
      | inside h h' => exact .inside (List.mem_singleton.mp h ▸ List.mem_cons_self) h'
    · obtain ⟨scope, h1, h2⟩ := at_of_defsList ns ms p h
      refine ⟨scope, ?_, h2⟩
      cases h1 with
      | here h => exact .here (List.mem_cons_of_mem _ h)
      | inside h h' => exact .inside (List.mem_cons_of_mem _ h) h'
end

def allDefs : List (Str × List MsgDesc) → List (Str × MsgDesc)
  | [] => []
  | f :: fs => defsList f.1 f.2 ++ allDefs fs

theorem allDefs_fst : ∀ fs, (allDefs fs).map (·.1) = allClasses fs
  | [] => rfl
  | f :: fs => by rw [allDefs, allClasses, List.map_append, defsList_fst, allDefs_fst fs]

theorem mem_allDefs {t : Str} {m : MsgDesc} : ∀ {fs}, (t, m) ∈ allDefs fs ↔ Defined fs t m
  | [] => by simp [allDefs, Defined]
  | f :: fs => by
    rw [allDefs, List.mem_append, mem_allDefs]
    constructor
    · rintro (h | ⟨g, hg, h⟩)
      · obtain ⟨scope, h1, h2⟩ := at_of_defsList _ _ _ h
        exact ⟨f, List.mem_cons_self, scope, h1, h2⟩
      · exact ⟨g, List.mem_cons_of_mem _ hg, h⟩
    · rintro ⟨g, hg, scope, h1, rfl⟩
      rcases List.mem_cons.mp hg with rfl | hg
      · exact .inl h1.mem_defsList
      · exact .inr ⟨g, hg, scope, h1, rfl⟩

theorem unique_snd {α β : Type} {t : α} {a b : β} : ∀ {l : List (α × β)}, (l.map (·.1)).Nodup → (t, a) ∈ l → (t, b) ∈ l → a = b
  | [], _, h, _ => nomatch h
  | p :: l, hn, h1, h2 => by
    have hn' := List.nodup_cons.mp hn
    rcases List.mem_cons.mp h1 with rfl | h1'
    · rcases List.mem_cons.mp h2 with h2 | h2
      · exact (congrArg Prod.snd h2).symm
      · exact absurd (List.mem_map_of_mem (f := (·.1)) h2) hn'.1
    · rcases List.mem_cons.mp h2 with rfl | h2'
      · exact absurd (List.mem_map_of_mem (f := (·.1)) h1') hn'.1
      · exact unique_snd hn'.2 h1' h2'

/-! ## Registration -/

/-- A field that is registered, given what is registered for the types. -/
def worthy (F : Str → List GField) (g : GField) : Bool :=
  match g.shape with
  | .recursive => false
  | .repeated => g.desc.maxLength == 0
  | .single =>
    match g.desc.type with
    | .scalar _ => false
    | .enum => false
    | .string => g.desc.maxLength == 0
    | .bytes => g.desc.maxLength == 0
    | .message => !(F g.desc.typeName).isEmpty

/-- A field whose type has to be registered before. -/
def Refers (g : GField) : Prop := g.shape = .single ∧ g.desc.type = .message

theorem worthy_congr {F F' : Str → List GField} {g : GField} (h : Refers g → F g.desc.typeName = F' g.desc.typeName) :
    worthy F g = worthy F' g := by
  unfold worthy
  split
  · rfl
  · rfl
  · next hs =>
    split
    · rfl
    · rfl
    · rfl
    · rfl
    · next ht => rw [h ⟨hs, ht⟩]

theorem regField_spec {own : Str} {g : GField} {st : RegState} (h : Refers g → st.done g.desc.typeName = true) :
    regField own g st = (if worthy st.fields g then st.add own g else st, true) := by
  unfold regField worthy
  cases hs : g.shape with
  | recursive => rfl
  | repeated => by_cases hm : g.desc.maxLength = 0 <;> simp [hm]
  | single =>
    dsimp only
    cases ht : g.desc.type with
    | scalar _ => rfl
    | enum => rfl
    | string => by_cases hm : g.desc.maxLength = 0 <;> simp [hm]
    | bytes => by_cases hm : g.desc.maxLength = 0 <;> simp [hm]
    | message =>
      dsimp only
      rw [if_pos (h ⟨hs, ht⟩)]
      cases (st.fields g.desc.typeName).isEmpty <;> rfl

theorem regFields_spec {own : Str} : ∀ (gs : List GField) (st : RegState), st.done own = true →
    (∀ g ∈ gs, Refers g → st.done g.desc.typeName = true ∧ g.desc.typeName ≠ own) →
      (∀ t, (regFields own gs st).done t = st.done t) ∧
      ∀ t, (regFields own gs st).fields t = if t = own then st.fields t ++ gs.filter (worthy st.fields) else st.fields t
  | [], st, _, _ => ⟨fun _ => rfl, fun t => by simp [regFields]⟩
  | g :: gs, st, hd, hg => by
    have e := regField_spec (own := own) fun hr => (hg g List.mem_cons_self hr).1
    have hdone : ∀ t, ((regField own g st).1.setDone own ((regField own g st).2 && (regField own g st).1.done own)).done t
        = st.done t := by
      intro t
      have h1 : (regField own g st).1.done = st.done := by rw [e]; dsimp only; split <;> rfl
      show (if t = own then _ else (regField own g st).1.done t) = _
      rw [h1]
      split
      · next ht => rw [e, ht, hd]; rfl
      · rfl
    have hfields : ∀ t, ((regField own g st).1.setDone own ((regField own g st).2 && (regField own g st).1.done own)).fields t
        = if t = own then st.fields t ++ (if worthy st.fields g then [g] else []) else st.fields t := by
      intro t
      show (regField own g st).1.fields t = _
      rw [e]
      dsimp only
      cases worthy st.fields g
      · simp
      · rfl
    obtain ⟨h1, h2⟩ := regFields_spec (own := own) gs
      ((regField own g st).1.setDone own ((regField own g st).2 && (regField own g st).1.done own))
      ((hdone own).trans hd) (fun g' hg' hr => by
        rw [hdone]
        exact hg g' (List.mem_cons_of_mem _ hg') hr)
    refine ⟨fun t => (h1 t).trans (hdone t), fun t => (h2 t).trans ?_⟩
    rw [hfields]
    split
    · next ht =>
      rw [List.append_assoc]
      congr 1
      have : gs.filter (worthy ((regField own g st).1.setDone own
          ((regField own g st).2 && (regField own g st).1.done own)).fields) = gs.filter (worthy st.fields) := by
        refine List.filter_congr fun g' hg' => worthy_congr fun hr => ?_
        rw [hfields, if_neg (hg g' (List.mem_cons_of_mem _ hg') hr).2]
      rw [this, List.filter_cons]
      cases worthy st.fields g <;> rfl
    · rfl

/-- What holds when the definitions `L` are registered. -/
structure RegInv (L : List (Str × MsgDesc)) (st : RegState) : Prop where
  done : ∀ p ∈ L, st.done p.1 = true
  fields : ∀ p ∈ L, st.fields p.1 = (members p.1 p.2).filter (worthy st.fields)
  fresh : ∀ t, (∀ p ∈ L, p.1 ≠ t) → st.fields t = []
  closed : ∀ p ∈ L, ∀ g ∈ members p.1 p.2, Refers g → ∃ q ∈ L, q.1 = g.desc.typeName

/-- The types of the fields have been registered before. -/
def Sorted (H : List Str) (p : Str × MsgDesc) : Prop := ∀ g ∈ members p.1 p.2, Refers g → [g.desc.typeName, p.1].Sublist H

theorem RegInv.congr {L : List (Str × MsgDesc)} {st st' : RegState} (h : RegInv L st) (hd : ∀ p ∈ L, st'.done p.1 = st.done p.1)
    (hf : ∀ t, st'.fields t = st.fields t) : RegInv L st' := by
  have : st'.fields = st.fields := funext hf
  exact ⟨fun p hp => (hd p hp).trans (h.done p hp), fun p hp => this ▸ h.fields p hp, fun t ht => this ▸ h.fresh t ht, h.closed⟩

theorem before_in_front {H L R : List Str} {t own : Str} (hH : L ++ own :: R = H) (hn : H.Nodup)
    (hb : [t, own].Sublist H) : t ∈ L := by
  subst hH
  have hmem : t ∈ L ++ own :: R := hb.subset (by simp)
  rcases List.mem_append.mp hmem with h | h
  · exact h
  · exfalso
    have hnl : t ∉ L := fun h' => (List.nodup_append.mp hn).2.2 t h' t h rfl
    have hb' := pair_of_append hb hnl
    have hn' := (List.nodup_append.mp hn).2.1
    cases hb' with
    | cons _ h' => exact (List.nodup_cons.mp hn').1 (h'.subset (by simp))
    | cons_cons _ h' => exact (List.nodup_cons.mp hn').1 (List.singleton_sublist.mp h')

mutual
theorem regMsg_spec {H : List Str} (hn : H.Nodup) (ns : Str) : ∀ (m : MsgDesc) (L : List (Str × MsgDesc)) (R : List Str)
    (st : RegState), L.map (·.1) ++ (m.classes ns ++ R) = H → (∀ p ∈ m.defs ns, Sorted H p) → RegInv L st →
      RegInv (L ++ m.defs ns) (regMsg ns m st) ∧ ∀ t, t ∉ m.classes ns → (regMsg ns m st).done t = st.done t
  | .mk name fields oneofs enums nested, L, R, st, hH, hs, hi => by
    have hown := hs _ (mem_defs.mpr (.inr rfl))
    have hH' : L.map (·.1) ++ (classes (dot ns name) nested ++ dot ns name :: R) = H := by
      rw [← hH, MsgDesc.classes]; simp
    have hnH := hn
    rw [← hH'] at hnH
    have hnot1 : dot ns name ∉ L.map (·.1) := fun h =>
      (List.nodup_append.mp hnH).2.2 _ h _ (List.mem_append_right _ List.mem_cons_self) rfl
    have hnot2 : dot ns name ∉ classes (dot ns name) nested := fun h =>
      (List.nodup_append.mp (List.nodup_append.mp hnH).2.1).2.2 _ h _ List.mem_cons_self rfl
    have hi0 : RegInv L (st.setDone (dot ns name) true) := hi.congr
      (fun p hp => if_neg fun e : p.1 = dot ns name => hnot1 (e ▸ List.mem_map_of_mem hp)) (fun _ => rfl)
    obtain ⟨hi1, hd1, ho1⟩ := regNested_spec hn (dot ns name) nested L (dot ns name :: R) _ hH'
      (fun p hp => hs p (mem_defs.mpr (.inl hp))) hi0 (if_pos rfl) hnot1 hnot2
    have hkeys : (L ++ defsList (dot ns name) nested).map (·.1) = L.map (·.1) ++ classes (dot ns name) nested := by
      rw [List.map_append, defsList_fst]
    have hnot3 : ∀ p ∈ L ++ defsList (dot ns name) nested, p.1 ≠ dot ns name := by
      intro p hp e
      have := List.mem_map_of_mem (f := (·.1)) hp
      rw [hkeys, e] at this
      exact (List.mem_append.mp this).elim hnot1 hnot2
    have hprev : ∀ g ∈ members (dot ns name) (.mk name fields oneofs enums nested), Refers g →
        ∃ p ∈ L ++ defsList (dot ns name) nested, p.1 = g.desc.typeName := by
      intro g hg hr
      have hb := hown g hg hr
      have hmem := before_in_front (L := L.map (·.1) ++ classes (dot ns name) nested) (R := R)
        (by rw [List.append_assoc]; exact hH') hn hb
      rw [← hkeys] at hmem
      exact List.mem_map.mp hmem
    obtain ⟨h1, h2⟩ := regFields_spec (own := dot ns name) (members (dot ns name) (.mk name fields oneofs enums nested))
      (regNested (dot ns name) nested (st.setDone (dot ns name) true)) hd1 (by
        intro g hg hr
        obtain ⟨p, hp, e⟩ := hprev g hg hr
        rw [← e]
        exact ⟨hi1.done p hp, hnot3 p hp⟩)
    have hsame : ∀ (p : Str × MsgDesc), (∀ g ∈ members p.1 p.2, Refers g → g.desc.typeName ≠ dot ns name) →
        (members p.1 p.2).filter (worthy (regNested (dot ns name) nested (st.setDone (dot ns name) true)).fields) =
        (members p.1 p.2).filter (worthy (regMsg ns (.mk name fields oneofs enums nested) st).fields) := by
      intro p hp
      refine List.filter_congr fun g hg => worthy_congr fun hr => ?_
      rw [regMsg]
      exact ((h2 _).trans (if_neg (hp g hg hr))).symm
    refine ⟨⟨?_, ?_, ?_, ?_⟩, ?_⟩
    · intro p hp
      rw [regMsg, h1]
      rw [MsgDesc.defs, ← List.append_assoc] at hp
      rcases List.mem_append.mp hp with hp | hp
      · exact hi1.done p hp
      · rw [List.mem_singleton.mp hp]
        exact hd1
    · intro p hp
      rw [MsgDesc.defs, ← List.append_assoc] at hp
      rcases List.mem_append.mp hp with hp | hp
      · have hb : ∀ g ∈ members p.1 p.2, Refers g → g.desc.typeName ≠ dot ns name := by
          intro g hg hr
          obtain ⟨q, hq, e⟩ := hi1.closed p hp g hg hr
          rw [← e]
          exact hnot3 q hq
        rw [← hsame p hb, ← hi1.fields p hp]
        rw [regMsg]
        exact (h2 _).trans (if_neg (hnot3 p hp))
      · rw [List.mem_singleton.mp hp]
        have hb : ∀ g ∈ members (dot ns name) (.mk name fields oneofs enums nested), Refers g →
            g.desc.typeName ≠ dot ns name := by
          intro g hg hr
          obtain ⟨p, hp, e⟩ := hprev g hg hr
          rw [← e]
          exact hnot3 p hp
        rw [← hsame (dot ns name, .mk name fields oneofs enums nested) hb]
        rw [regMsg]
        refine (h2 _).trans ((if_pos rfl).trans ?_)
        rw [hi1.fresh _ fun p hp => hnot3 p hp]
        rfl
    · intro t ht
      rw [regMsg, h2, if_neg]
      · refine hi1.fresh t fun p hp => ht p ?_
        rw [MsgDesc.defs, ← List.append_assoc]
        exact List.mem_append_left _ hp
      · rintro rfl
        refine ht (dot ns name, .mk name fields oneofs enums nested) ?_ rfl
        rw [MsgDesc.defs, ← List.append_assoc]
        exact List.mem_append_right _ List.mem_cons_self
    · intro p hp g hg hr
      rw [MsgDesc.defs, ← List.append_assoc] at hp ⊢
      rcases List.mem_append.mp hp with hp | hp
      · obtain ⟨q, hq, e⟩ := hi1.closed p hp g hg hr
        exact ⟨q, List.mem_append_left _ hq, e⟩
      · rw [List.mem_singleton.mp hp] at hg
        obtain ⟨q, hq, e⟩ := hprev g hg hr
        exact ⟨q, List.mem_append_left _ hq, e⟩
    · intro t ht
      rw [MsgDesc.classes] at ht
      rw [regMsg, h1, ho1 t (fun h => ht (List.mem_append_left _ h))
        (fun e => ht (e ▸ List.mem_append_right _ List.mem_cons_self))]
      exact if_neg fun e : t = _ => ht (e ▸ List.mem_append_right _ List.mem_cons_self)
theorem regNested_spec {H : List Str} (hn : H.Nodup) (own : Str) : ∀ (ms : List MsgDesc) (L : List (Str × MsgDesc))
    (R : List Str) (st : RegState), L.map (·.1) ++ (classes own ms ++ R) = H → (∀ p ∈ defsList own ms, Sorted H p) →
      RegInv L st → st.done own = true → own ∉ L.map (·.1) → own ∉ classes own ms →
      RegInv (L ++ defsList own ms) (regNested own ms st) ∧ (regNested own ms st).done own = true ∧
        ∀ t, t ∉ classes own ms → t ≠ own → (regNested own ms st).done t = st.done t
  | [], L, R, st, hH, hs, hi, hd, h1, h2 => by
    rw [defsList, List.append_nil]
    exact ⟨hi, hd, fun _ _ _ => rfl⟩
  | m :: ms, L, R, st, hH, hs, hi, hd, hn1, hn2 => by
    rw [classes] at hn2 hH
    obtain ⟨hi1, ho1⟩ := regMsg_spec hn own m L (classes own ms ++ R) st (by rw [← hH]; simp)
      (fun p hp => hs p (List.mem_append_left _ hp)) hi
    have hd1 : (regMsg own m st).done own = true := (ho1 own fun h => hn2 (List.mem_append_left _ h)).trans hd
    have hdm : (regMsg own m st).done (dot own m.name) = true :=
      hi1.done _ (List.mem_append_right _ (mem_defs.mpr (.inr rfl)))
    have hkeys : (L ++ m.defs own).map (·.1) = L.map (·.1) ++ m.classes own := by
      rw [List.map_append, defs_fst]
    have hnk : own ∉ (L ++ m.defs own).map (·.1) := by
      rw [hkeys]
      exact fun h => (List.mem_append.mp h).elim hn1 fun h => hn2 (List.mem_append_left _ h)
    have hi2 : RegInv (L ++ m.defs own) ((regMsg own m st).setDone own
        ((regMsg own m st).done (dot own m.name) && (regMsg own m st).done own)) :=
      hi1.congr (fun p hp => if_neg fun e : p.1 = own => hnk (List.mem_map.mpr ⟨p, hp, e⟩)) fun _ => rfl
    obtain ⟨hi3, hd3, ho3⟩ := regNested_spec hn own ms (L ++ m.defs own) R _ (by rw [hkeys, ← hH]; simp)
      (fun p hp => hs p (List.mem_append_right _ hp)) hi2 ((if_pos rfl).trans (by rw [hdm, hd1]; rfl)) hnk
      (fun h => hn2 (List.mem_append_right _ h))
    rw [defsList, ← List.append_assoc]
    refine ⟨hi3, hd3, ?_⟩
    intro t ht hne
    rw [classes] at ht
    rw [regNested]

    rw [ho3 t (fun h => ht (List.mem_append_right _ h)) hne]
    exact (if_neg hne).trans (ho1 t fun h => ht (List.mem_append_left _ h))
end

theorem regMsgs_spec {H : List Str} (hn : H.Nodup) (ns : Str) : ∀ (ms : List MsgDesc) (L : List (Str × MsgDesc))
    (R : List Str) (st : RegState), L.map (·.1) ++ (classes ns ms ++ R) = H → (∀ p ∈ defsList ns ms, Sorted H p) →
      RegInv L st → RegInv (L ++ defsList ns ms) (regMsgs ns ms st).1 ∧ (regMsgs ns ms st).2 = true
  | [], L, R, st, hH, hs, hi => by
    rw [defsList, List.append_nil]
    exact ⟨hi, rfl⟩
  | m :: ms, L, R, st, hH, hs, hi => by
    rw [classes] at hH
    obtain ⟨hi1, _⟩ := regMsg_spec hn ns m L (classes ns ms ++ R) st (by rw [← hH]; simp)
      (fun p hp => hs p (List.mem_append_left _ hp)) hi
    have hdm : (regMsg ns m st).done (dot ns m.name) = true :=
      hi1.done _ (List.mem_append_right _ (mem_defs.mpr (.inr rfl)))
    obtain ⟨hi2, hd2⟩ := regMsgs_spec hn ns ms (L ++ m.defs ns) R (regMsg ns m st)
      (by rw [List.map_append, defs_fst, ← hH]; simp) (fun p hp => hs p (List.mem_append_right _ hp)) hi1
    rw [defsList, ← List.append_assoc]
    refine ⟨hi2, ?_⟩
    show ((regMsg ns m st).done (dot ns m.name) && (regMsgs ns ms (regMsg ns m st)).2) = true
    rw [hdm, hd2]
    rfl

theorem regFiles_spec {H : List Str} (hn : H.Nodup) : ∀ (fs : List (Str × List MsgDesc)) (L : List (Str × MsgDesc))
    (st : RegState), L.map (·.1) ++ allClasses fs = H → (∀ p ∈ allDefs fs, Sorted H p) →
      RegInv L st → RegInv (L ++ allDefs fs) (regFiles fs st).1 ∧ (regFiles fs st).2 = true
  | [], L, st, hH, hs, hi => by
    rw [allDefs, List.append_nil]
    exact ⟨hi, rfl⟩
  | f :: fs, L, st, hH, hs, hi => by
    obtain ⟨hi1, hd1⟩ := regMsgs_spec hn f.1 f.2 L (allClasses fs) st hH
      (fun p hp => hs p (List.mem_append_left _ hp)) hi
    obtain ⟨hi2, hd2⟩ := regFiles_spec hn fs (L ++ defsList f.1 f.2) (regMsgs f.1 f.2 st).1
      (by rw [List.map_append, defsList_fst, ← hH, allClasses]; simp) (fun p hp => hs p (List.mem_append_right _ hp)) hi1
    rw [allDefs, ← List.append_assoc]
    refine ⟨hi2, ?_⟩
    show ((regMsgs f.1 f.2 st).2 && (regFiles fs (regMsgs f.1 f.2 st).1).2) = true
    rw [hd1, hd2]
    rfl

/-! ## The members of a class -/

theorem members_perm {own : Str} {m : MsgDesc} (h : FieldsValid m.fields m.oneofs) :
    ((members own m).map (·.desc)).Perm m.fields := by
  obtain ⟨g, e, _, _, h4, _⟩ := mkMessage_spec (own := own) h
  unfold members
  rw [e]
  refine List.Perm.trans (.of_eq ?_) h4
  rw [List.map_append, List.map_flatMap]

theorem members_shape {own : Str} {m : MsgDesc} (h : FieldsValid m.fields m.oneofs) {g : GField} (hg : g ∈ members own m) :
    g.shape = if g.desc.typeName = own then .recursive else if g.desc.repeated then .repeated else .single := by
  obtain ⟨x, e, h1, _, _, h5, _⟩ := mkMessage_spec (own := own) h
  unfold members at hg
  rw [e] at hg
  rcases List.mem_append.mp hg with hg | hg
  · rw [h1] at hg
    obtain ⟨f, _, rfl⟩ := List.mem_map.mp hg
    rfl
  · obtain ⟨o, ho, hg⟩ := List.mem_flatMap.mp hg
    rw [h5 o ho] at hg
    obtain ⟨f, _, rfl⟩ := List.mem_map.mp hg
    rfl

/-! ## Paths -/

/-- The paths for a field, given those of its type. -/
def fieldPaths (inner : Str → List Path) (g : GField) : List Path :=
  (match g.shape with
    | .recursive => []
    | .repeated => if g.desc.maxLength = 0 then [.count g.desc] else []
    | .single => []) ++
  (if g.shape = .recursive then []
    else match g.desc.type with
      | .scalar _ => []
      | .enum => []
      | .string => if g.desc.maxLength = 0 then [.length g.desc] else []
      | .bytes => if g.desc.maxLength = 0 then [.length g.desc] else []
      | .message => (inner g.desc.typeName).map (.inside g.desc))

def paths (st : RegState) : Nat → Str → List Path
  | 0, _ => []
  | n + 1, own => (st.fields own).flatMap (fieldPaths (paths st n))

theorem fieldParams_eq {inner : Str → List Str} {ip : Str → List Path} (h : ∀ t, inner t = (ip t).map (Path.render t))
    (own : Str) (g : GField) : fieldParams inner own g = (fieldPaths ip g).map (Path.render own) := by
  unfold fieldParams fieldPaths
  rw [List.map_append]
  congr 1
  · cases g.shape with
    | recursive => rfl
    | repeated =>
      dsimp only
      split
      · simp [Path.render]
      · rfl
    | single => rfl
  · split
    · rfl
    · cases g.desc.type with
      | scalar _ => rfl
      | enum => rfl
      | string => dsimp only; split <;> simp [Path.render]
      | bytes => dsimp only; split <;> simp [Path.render]
      | message =>
        dsimp only
        rw [h, List.map_map, List.map_map]
        refine List.map_congr_left fun p _ => ?_
        simp [Path.render]

theorem params_eq (st : RegState) : ∀ (n : Nat) (own : Str), params st n own = (paths st n own).map (Path.render own)
  | 0, _ => rfl
  | n + 1, own => by
    rw [params, paths, List.map_flatMap]
    congr 1
    exact funext fun g => fieldParams_eq (params_eq st n) own g

/-- The field at which a path begins. -/
def Path.field : Path → FieldDesc
  | .length f => f
  | .count f => f
  | .inside f _ => f

theorem fieldPaths_field {inner : Str → List Path} {g : GField} {p : Path} (h : p ∈ fieldPaths inner g) : p.field = g.desc := by
  unfold fieldPaths at h
  rcases List.mem_append.mp h with h | h
  · split at h
    · exact nomatch h
    · split at h
      · rw [List.mem_singleton.mp h]; rfl
      · exact nomatch h
    · exact nomatch h
  · split at h
    · exact nomatch h
    · split at h
      · exact nomatch h
      · exact nomatch h
      · split at h
        · rw [List.mem_singleton.mp h]; rfl
        · exact nomatch h
      · split at h
        · rw [List.mem_singleton.mp h]; rfl
        · exact nomatch h
      · obtain ⟨q, _, rfl⟩ := List.mem_map.mp h
        rfl

theorem fieldPaths_nodup {inner : Str → List Path} {g : GField} (h : (inner g.desc.typeName).Nodup) : (fieldPaths inner g).Nodup := by
  unfold fieldPaths
  refine List.nodup_append.mpr ⟨?_, ?_, ?_⟩
  · split
    · exact .nil
    · split
      · exact List.pairwise_singleton _ _
      · exact .nil
    · exact .nil
  · split
    · exact .nil
    · split
      · exact .nil
      · exact .nil
      · split
        · exact List.pairwise_singleton _ _
        · exact .nil
      · split
        · exact List.pairwise_singleton _ _
        · exact .nil
      · exact List.Pairwise.map _ (fun a b (hab : a ≠ b) e => hab (by injection e)) h
  · intro a ha b hb e
    subst e
    have h1 : ∃ f, a = .count f := by
      split at ha
      · exact nomatch ha
      · split at ha
        · exact ⟨_, List.mem_singleton.mp ha⟩
        · exact nomatch ha
      · exact nomatch ha
    obtain ⟨f, rfl⟩ := h1
    split at hb
    · exact nomatch hb
    · split at hb
      · exact nomatch hb
      · exact nomatch hb
      · split at hb
        · exact nomatch List.mem_singleton.mp hb
        · exact nomatch hb
      · split at hb
        · exact nomatch List.mem_singleton.mp hb
        · exact nomatch hb
      · obtain ⟨q, _, e⟩ := List.mem_map.mp hb
        exact nomatch e

theorem flatMap_nodup {α β γ : Type} {f : α → List β} {key : β → γ} {k : α → γ} (hk : ∀ a, ∀ b ∈ f a, key b = k a) :
    ∀ {l : List α}, (∀ a ∈ l, (f a).Nodup) → (l.map k).Nodup → (l.flatMap f).Nodup
  | [], _, _ => .nil
  | a :: l, h, hn => by
    rw [List.flatMap_cons]
    have hn' := List.nodup_cons.mp hn
    refine List.nodup_append.mpr ⟨h a List.mem_cons_self,
      flatMap_nodup hk (fun x hx => h x (List.mem_cons_of_mem _ hx)) hn'.2, ?_⟩
    intro b hb c hc e
    subst e
    obtain ⟨x, hx, hb'⟩ := List.mem_flatMap.mp hc
    exact hn'.1 (List.mem_map.mpr ⟨x, hx, (hk x b hb').symm.trans (hk a b hb)⟩)

theorem nodup_of_map {α β : Type} {f : α → β} {l : List α} (h : (l.map f).Nodup) : l.Nodup :=
  (List.pairwise_map.mp h).imp fun hab e => hab (congrArg f e)

theorem Needs.def {defs : Str → MsgDesc → Prop} {t : Str} : ∀ {p : Path}, Needs defs t p →
    ∃ m, defs t m ∧ p.field ∈ m.fields ∧ p.field.typeName ≠ t
  | .length _, ⟨m, h1, h2, h3, _⟩ => ⟨m, h1, h2, h3⟩
  | .count _, ⟨m, h1, h2, h3, _⟩ => ⟨m, h1, h2, h3⟩
  | .inside _ _, ⟨m, h1, h2, h3, _⟩ => ⟨m, h1, h2, h3⟩

section
variable {files : List (Str × List MsgDesc)} (hc : Ordered files)
include hc

theorem Ordered.unique {t : Str} {m m' : MsgDesc} (h : Defined files t m) (h' : Defined files t m') : m = m' :=
  unique_snd (by rw [allDefs_fst]; exact hc.distinct) (mem_allDefs.mpr h) (mem_allDefs.mpr h')

theorem Ordered.member {t : Str} {m : MsgDesc} (h : Defined files t m) {g : GField} (hg : g ∈ members t m) :
    g.desc ∈ m.fields := (members_perm (hc.fields t m h)).mem_iff.mp (List.mem_map_of_mem hg)

theorem Ordered.shape_ne {t : Str} {m : MsgDesc} (h : Defined files t m) {g : GField} (hg : g ∈ members t m) :
    g.shape ≠ .recursive ↔ g.desc.typeName ≠ t := by
  rw [members_shape (hc.fields t m h) hg]
  by_cases e : g.desc.typeName = t
  · simp [e]
  · cases g.desc.repeated <;> simp [e]

theorem Ordered.shape_repeated {t : Str} {m : MsgDesc} (h : Defined files t m) {g : GField} (hg : g ∈ members t m) :
    g.shape = .repeated ↔ g.desc.typeName ≠ t ∧ g.desc.repeated = true := by
  rw [members_shape (hc.fields t m h) hg]
  by_cases e : g.desc.typeName = t
  · simp [e]
  · cases g.desc.repeated <;> simp [e]

theorem Ordered.fieldPaths {t : Str} {m : MsgDesc} (h : Defined files t m) {g : GField} (hg : g ∈ members t m)
    {inner : Str → List Path}
    (hi : g.desc.type = .message → g.desc.typeName ≠ t → ∀ p, p ∈ inner g.desc.typeName ↔ Needs (Defined files) g.desc.typeName p)
    (p : Path) : p ∈ fieldPaths inner g ↔ Needs (Defined files) t p ∧ p.field = g.desc := by
  have hmem := hc.member h hg
  have hsn := hc.shape_ne h hg
  have hsr := hc.shape_repeated h hg
  have hlen : ∀ f, Path.length f ∈ Gen.fieldPaths inner g ↔ (f = g.desc ∧ g.shape ≠ .recursive ∧
      (g.desc.type = .string ∨ g.desc.type = .bytes) ∧ g.desc.maxLength = 0) := by
    intro f
    unfold Gen.fieldPaths
    cases g.shape <;> cases g.desc.type <;> by_cases hm : g.desc.maxLength = 0 <;> simp [hm]
  have hcnt : ∀ f, Path.count f ∈ Gen.fieldPaths inner g ↔ (f = g.desc ∧ g.shape = .repeated ∧ g.desc.maxLength = 0) := by
    intro f
    unfold Gen.fieldPaths
    cases g.shape <;> cases g.desc.type <;> by_cases hm : g.desc.maxLength = 0 <;> simp [hm]
  have hins : ∀ f q, Path.inside f q ∈ Gen.fieldPaths inner g ↔ (f = g.desc ∧ g.shape ≠ .recursive ∧
      g.desc.type = .message ∧ q ∈ inner g.desc.typeName) := by
    intro f q
    have hq : (∃ a ∈ inner g.desc.typeName, g.desc = f ∧ a = q) ↔ f = g.desc ∧ q ∈ inner g.desc.typeName :=
      ⟨fun ⟨_, h1, h2, h3⟩ => ⟨h2.symm, h3 ▸ h1⟩, fun ⟨h1, h2⟩ => ⟨q, h2, h1.symm, rfl⟩⟩
    unfold Gen.fieldPaths
    cases g.shape <;> cases g.desc.type <;> by_cases hm : g.desc.maxLength = 0 <;> simp [hm, hq]
  cases p with
  | length f =>
    rw [hlen, hsn]
    constructor
    · rintro ⟨rfl, h1, h2, h3⟩
      exact ⟨⟨m, h, hmem, h1, h2, h3⟩, rfl⟩
    · rintro ⟨⟨m', h', _, h1, h2, h3⟩, rfl⟩
      exact ⟨rfl, h1, h2, h3⟩
  | count f =>
    rw [hcnt, hsr]
    constructor
    · rintro ⟨rfl, ⟨h1, h2⟩, h3⟩
      exact ⟨⟨m, h, hmem, h1, h2, h3⟩, rfl⟩
    · rintro ⟨⟨m', h', _, h1, h2, h3⟩, rfl⟩
      exact ⟨rfl, ⟨h1, h2⟩, h3⟩
  | inside f q =>
    rw [hins, hsn]
    constructor
    · rintro ⟨rfl, h1, h2, h3⟩
      exact ⟨⟨m, h, hmem, h1, h2, (hi h2 h1 q).mp h3⟩, rfl⟩
    · rintro ⟨⟨m', h', _, h1, h2, h3⟩, rfl⟩
      exact ⟨rfl, h1, h2, (hi h2 h1 q).mpr h3⟩

theorem Ordered.sorted {p : Str × MsgDesc} (hp : p ∈ allDefs files) : Sorted (allClasses files) p := by
  intro g hg hr
  have h := mem_allDefs.mp hp
  refine hc.ordered p.1 p.2 g.desc h (hc.member h hg) hr.2 ((hc.shape_ne h hg).mp ?_)
  rw [hr.1]
  decide

theorem Ordered.paths (hcn : Counted files) {st : RegState} (hi : RegInv (allDefs files) st) : ∀ (n : Nat) (t : Str) (m : MsgDesc),
    Defined files t m → (allClasses files).idxOf t < n →
      (∀ p, p ∈ paths st n t ↔ Needs (Defined files) t p) ∧ (paths st n t).Nodup ∧
      (st.fields t ≠ [] ↔ ∃ p, Needs (Defined files) t p)
  | 0, _, _, _, h => nomatch h
  | n + 1, t, m, hd, hlt => by
    have ih := Ordered.paths hcn hi n
    have hF : st.fields t = (members t m).filter (worthy st.fields) := hi.fields (t, m) (mem_allDefs.mpr hd)
    -- the types of the fields
    have htype : ∀ g ∈ members t m, g.desc.type = .message → g.desc.typeName ≠ t →
        (∀ p, p ∈ Gen.paths st n g.desc.typeName ↔ Needs (Defined files) g.desc.typeName p) ∧
        (Gen.paths st n g.desc.typeName).Nodup ∧
        (st.fields g.desc.typeName ≠ [] ↔ ∃ p, Needs (Defined files) g.desc.typeName p) := by
      intro g hg hm hne
      have hb := hc.ordered t m g.desc hd (hc.member hd hg) hm hne
      have hin : g.desc.typeName ∈ (allDefs files).map (·.1) := by
        rw [allDefs_fst]
        exact hb.subset (by simp)
      obtain ⟨q, hq, e⟩ := List.mem_map.mp hin
      refine ih g.desc.typeName q.2 (mem_allDefs.mp ?_) ?_
      · rw [← e]; exact hq
      · have := idxOf_lt hc.distinct hb
        omega
    have hA : ∀ g ∈ members t m, ∀ p, p ∈ Gen.fieldPaths (Gen.paths st n) g ↔ Needs (Defined files) t p ∧ p.field = g.desc :=
      fun g hg p => hc.fieldPaths hd hg (fun h1 h2 => (htype g hg h1 h2).1) p
    have hB : ∀ g ∈ members t m, (worthy st.fields g = true ↔ ∃ p, Needs (Defined files) t p ∧ p.field = g.desc) := by
      intro g hg
      have hmem := hc.member hd hg
      have hsn := hc.shape_ne hd hg
      have hsr := hc.shape_repeated hd hg
      constructor
      · intro hw
        unfold worthy at hw
        split at hw
        · exact nomatch hw
        · next hs =>
          have := hsr.mp hs
          exact ⟨.count g.desc, ⟨m, hd, hmem, this.1, this.2, eq_of_beq hw⟩, rfl⟩
        · next hs =>
          have hne := hsn.mp (by rw [hs]; decide)
          split at hw
          · exact nomatch hw
          · exact nomatch hw
          · next ht => exact ⟨.length g.desc, ⟨m, hd, hmem, hne, .inl ht, eq_of_beq hw⟩, rfl⟩
          · next ht => exact ⟨.length g.desc, ⟨m, hd, hmem, hne, .inr ht, eq_of_beq hw⟩, rfl⟩
          · next ht =>
            have hx : st.fields g.desc.typeName ≠ [] := by
              intro e
              rw [e] at hw
              exact nomatch hw
            obtain ⟨q, hq⟩ := (htype g hg ht hne).2.2.mp hx
            exact ⟨.inside g.desc q, ⟨m, hd, hmem, hne, ht, hq⟩, rfl⟩
      · rintro ⟨p, hp, e⟩
        have hne : g.desc.typeName ≠ t := by
          obtain ⟨_, _, _, h⟩ := hp.def
          rwa [e] at h
        cases hs : g.shape with
        | recursive => exact absurd hs (hsn.mpr hne)
        | repeated =>
          unfold worthy
          rw [hs]
          show (g.desc.maxLength == 0) = true
          cases p with
          | length f =>
            obtain ⟨_, _, _, _, _, h⟩ := hp
            have e : f = g.desc := e
            rw [← e, h]; rfl
          | count f =>
            obtain ⟨_, _, _, _, _, h⟩ := hp
            have e : f = g.desc := e
            rw [← e, h]; rfl
          | inside f q =>
            obtain ⟨_, _, _, _, h1, h2⟩ := hp
            have e : f = g.desc := e
            subst e
            by_cases h0 : g.desc.maxLength = 0
            · rw [h0]; rfl
            · exact absurd h2 (hcn t m _ hd hmem h1 hne (hsr.mp hs).2 h0 q)
        | single =>
          have hnr : g.desc.repeated ≠ true := fun h => by
            have := hsr.mpr ⟨hne, h⟩
            rw [hs] at this
            exact nomatch this
          unfold worthy
          rw [hs]
          cases p with
          | length f =>
            obtain ⟨_, _, _, _, h1, h2⟩ := hp
            have e : f = g.desc := e
            subst e
            rcases h1 with h1 | h1 <;> rw [h1] <;> simp [h2]
          | count f =>
            obtain ⟨_, _, _, _, h1, _⟩ := hp
            have e : f = g.desc := e
            exact absurd (e ▸ h1) hnr
          | inside f q =>
            obtain ⟨_, _, _, _, h1, h2⟩ := hp
            have e : f = g.desc := e
            subst e
            rw [h1]
            have := (htype g hg h1 hne).2.2.mpr ⟨q, h2⟩
            show (!(st.fields g.desc.typeName).isEmpty) = true
            cases hx : st.fields g.desc.typeName with
            | nil => exact absurd hx this
            | cons _ _ => rfl
    have hfield : ∀ p, Needs (Defined files) t p → ∃ g ∈ members t m, p.field = g.desc := by
      intro p hp
      obtain ⟨m', h1, h2, _⟩ := hp.def
      rw [hc.unique h1 hd] at h2
      obtain ⟨g, hg, e⟩ := List.mem_map.mp ((members_perm (own := t) (hc.fields t m hd)).mem_iff.mpr h2)
      exact ⟨g, hg, e.symm⟩
    refine ⟨?_, ?_, ?_⟩
    · intro p
      rw [Gen.paths, hF, List.mem_flatMap]
      constructor
      · rintro ⟨g, hg, hp⟩
        exact ((hA g ((List.mem_filter.mp hg).1) p).mp hp).1
      · intro hp
        obtain ⟨g, hg, e⟩ := hfield p hp
        exact ⟨g, List.mem_filter.mpr ⟨hg, (hB g hg).mpr ⟨p, hp, e⟩⟩, (hA g hg p).mpr ⟨hp, e⟩⟩
    · rw [Gen.paths, hF]
      refine flatMap_nodup (key := Path.field) (k := fun g : GField => g.desc) (fun g p hp => fieldPaths_field hp) ?_ ?_
      · intro g hg
        have hg := (List.mem_filter.mp hg).1
        by_cases hx : g.desc.type = .message ∧ g.desc.typeName ≠ t
        · exact fieldPaths_nodup (htype g hg hx.1 hx.2).2.1
        · have : Gen.fieldPaths (Gen.paths st n) g = Gen.fieldPaths (fun _ => []) g := by
            unfold Gen.fieldPaths
            congr 1
            split
            · rfl
            · next hs =>
              have hne := (hc.shape_ne hd hg).mp hs
              cases ht : g.desc.type with
              | message => exact absurd ⟨ht, hne⟩ hx
              | _ => rfl
          rw [this]
          exact fieldPaths_nodup .nil
      · have h1 : ((members t m).map (fun g : GField => g.desc)).Nodup :=
          (members_perm (hc.fields t m hd)).nodup_iff.mpr (nodup_of_map (hc.fields t m hd).distinct)
        exact h1.sublist (List.Sublist.map _ List.filter_sublist)
    · rw [hF]
      constructor
      · intro h
        obtain ⟨g, hg⟩ := List.exists_mem_of_ne_nil _ h
        obtain ⟨hg, hw⟩ := List.mem_filter.mp hg
        obtain ⟨p, hp, _⟩ := (hB g hg).mp hw
        exact ⟨p, hp⟩
      · rintro ⟨p, hp⟩
        obtain ⟨g, hg, e⟩ := hfield p hp
        exact List.ne_nil_of_mem (List.mem_filter.mpr ⟨hg, (hB g hg).mpr ⟨p, hp, e⟩⟩)

theorem Ordered.registered : RegInv (allDefs files) (regFiles files .init).1 ∧ (regFiles files .init).2 = true :=
  regFiles_spec hc.distinct files [] .init rfl (fun _ hp => hc.sorted hp)
    ⟨fun _ h => (nomatch h), fun _ h => (nomatch h), fun _ _ => rfl, fun _ h => (nomatch h)⟩

theorem Ordered.accepted : ∃ P, templates files = .ok P := by
  unfold Gen.templates
  dsimp only
  rw [if_pos hc.registered.2]
  exact ⟨_, rfl⟩

theorem Ordered.templates (hcn : Counted files) {P : Str → List Str} (hP : templates files = .ok P) {own : Str} {m : MsgDesc}
    (h : Defined files own m) :
    ∃ ps : List Path, P own = ps.map (Path.render own) ∧ ps.Nodup ∧ ∀ p, p ∈ ps ↔ Needs (Defined files) own p := by
  unfold Gen.templates at hP
  dsimp only at hP
  rw [if_pos hc.registered.2] at hP
  injection hP with hP
  subst hP
  refine ⟨Gen.paths (regFiles files .init).1 (allClasses files).length own, params_eq _ _ _, ?_⟩
  have hlt : (allClasses files).idxOf own < (allClasses files).length := by
    refine List.idxOf_lt_length_of_mem ?_
    rw [← allDefs_fst]
    exact List.mem_map.mpr ⟨(own, m), mem_allDefs.mpr h, rfl⟩
  obtain ⟨h1, h2, _⟩ := hc.paths hcn hc.registered.1 _ own m h hlt
  exact ⟨h2, h1⟩

end

/-! ## Sorted files are ordered -/

mutual
theorem class_sublist (ns : Str) : ∀ m : MsgDesc, (m.classes ns).Sublist (m.header ns)
  | .mk name fields oneofs enums nested => by
    rw [MsgDesc.classes, MsgDesc.header]
    exact ((classes_sublist (dot ns name) nested).trans (List.sublist_append_right _ _)).append (.refl _)
theorem classes_sublist (ns : Str) : ∀ ms : List MsgDesc, (classes ns ms).Sublist (headers ns ms)
  | [] => .refl _
  | m :: ms => by
    rw [classes, headers]
    exact (class_sublist ns m).append (classes_sublist ns ms)
end

theorem classes_perm {ns : Str} {l l' : List MsgDesc} (h : l.Perm l') : (classes ns l).Perm (classes ns l') := by
  induction h with
  | nil => exact .refl _
  | cons x _ ih => exact ih.append_left _
  | swap x y l =>
    rw [classes, classes, classes, classes, ← List.append_assoc, ← List.append_assoc]
    exact List.perm_append_comm.append_right _
  | trans _ _ ih1 ih2 => exact ih1.trans ih2

mutual
theorem sortMsg_classes (order : List Str) (ns : Str) : ∀ m : MsgDesc, ((sortMsg order ns m).classes ns).Perm (m.classes ns)
  | .mk name fields oneofs enums nested => by
    have ih := sortMsgs_classes order (dot ns name) nested
    rw [sortMsg, MsgDesc.classes, MsgDesc.classes]
    exact ((classes_perm (sortHere_perm _ _ _)).trans ih).append_right _
theorem sortMsgs_classes (order : List Str) (ns : Str) : ∀ ms : List MsgDesc,
    (classes ns (sortMsgs order ns ms)).Perm (classes ns ms)
  | [] => .refl _
  | m :: ms => by
    rw [sortMsgs, classes, classes]
    exact (sortMsg_classes order ns m).append (sortMsgs_classes order ns ms)
end

/-- Up to the order of what is nested the messages are the same. -/
def Same (m m' : MsgDesc) : Prop := m'.name = m.name ∧ m'.fields = m.fields ∧ m'.oneofs = m.oneofs

theorem sortMsg_same (order : List Str) (ns : Str) (m : MsgDesc) : Same m (sortMsg order ns m) := by
  cases m; exact ⟨rfl, rfl, rfl⟩

theorem at_sorted {order : List Str} {ns : Str} {ms' : List MsgDesc} {scope : Str} {m' : MsgDesc} (h : At ns ms' scope m') :
    ∀ ms, ms' = sorted order ns ms → ∃ m, At ns ms scope m ∧ Same m m' := by
  have hmem : ∀ {ns ms} {x : MsgDesc}, x ∈ sorted order ns ms → ∃ m ∈ ms, x = sortMsg order ns m := by
    intro ns ms x hx
    unfold sorted at hx
    rw [(sortHere_perm _ _ _).mem_iff, sortMsgs_eq] at hx
    obtain ⟨m, hm, e⟩ := List.mem_map.mp hx
    exact ⟨m, hm, e.symm⟩
  induction h with
  | here h =>
    intro ms e
    subst e
    obtain ⟨m, hm, rfl⟩ := hmem h
    exact ⟨m, .here hm, sortMsg_same _ _ _⟩
  | @inside ns ms' c scope m' hc _ ih =>
    intro ms e
    subst e
    obtain ⟨c', hc', rfl⟩ := hmem hc
    rw [sortMsg_name] at ih
    obtain ⟨m, hm, hs⟩ := ih c'.nested (by cases c'; rfl)
    exact ⟨m, .inside hc' hm, hs⟩

theorem order_sorted {f : FileDesc} {ms : List MsgDesc} (h : f.order = .ok ms) : ∃ order, ms = sorted order f.package f.messages := by
  unfold FileDesc.order at h
  cases ht : toposort strLe (addMsgs f.package f.messages) with
  | error e => rw [ht] at h; exact nomatch h
  | ok full =>
    rw [ht] at h
    have h : Except.ok _ = Except.ok ms := h
    injection h with h
    exact ⟨_, h.symm⟩

theorem pair_restrict {L H : List Str} (hn : H.Nodup) (hL : L.Sublist H) {a b : Str} (h : [a, b].Sublist H) (ha : a ∈ L)
    (hb : b ∈ L) : [a, b].Sublist L := by
  have hp : L.Pairwise fun x y => [x, y].Sublist H := List.pairwise_iff_forall_sublist.mpr fun h => h.trans hL
  refine pairwise_pair hp ha hb (fun e => pair_irrefl hn (e ▸ h)) fun h' => pair_irrefl hn (pair_trans hn h h')

theorem order_classes {f : FileDesc} {ms : List MsgDesc} (h : f.order = .ok ms) :
    (classes f.package ms).Perm (classes f.package f.messages) := by
  obtain ⟨order, rfl⟩ := order_sorted h
  exact (classes_perm (sortHere_perm _ _ _)).trans (sortMsgs_classes order _ _)

theorem At.mem_classes {ns : Str} {ms : List MsgDesc} {scope : Str} {m : MsgDesc} (h : At ns ms scope m) :
    dot scope m.name ∈ classes ns ms := by
  rw [← defsList_fst]
  exact List.mem_map.mpr ⟨_, h.mem_defsList, rfl⟩

theorem orderAll_cons {f : FileDesc} {fs : List FileDesc} {r : List (Str × List MsgDesc)} (h : orderAll (f :: fs) = .ok r) :
    ∃ ms rest, f.order = .ok ms ∧ orderAll fs = .ok rest ∧ r = (f.package, ms) :: rest := by
  unfold orderAll at h
  cases h1 : f.order with
  | error e => rw [h1] at h; exact nomatch h
  | ok ms =>
    rw [h1] at h
    cases h2 : orderAll fs with
    | error e => rw [h2] at h; exact nomatch h
    | ok rest =>
      rw [h2] at h
      have h : Except.ok _ = Except.ok r := h
      injection h with h
      exact ⟨ms, rest, rfl, rfl, h.symm⟩

theorem defined_cons {p : Str × List MsgDesc} {fs : List (Str × List MsgDesc)} {own : Str} {m : MsgDesc} :
    Defined (p :: fs) own m ↔ (∃ scope, At p.1 p.2 scope m ∧ own = dot scope m.name) ∨ Defined fs own m := by
  simp [Defined]

theorem Defined.mem {fs : List (Str × List MsgDesc)} {own : Str} {m : MsgDesc} (h : Defined fs own m) : own ∈ allClasses fs := by
  rw [← allDefs_fst]
  exact List.mem_map.mpr ⟨(own, m), mem_allDefs.mpr h, rfl⟩

theorem orderAll_spec : ∀ {fs : List FileDesc} {prior : List Str} {r : List (Str × List MsgDesc)}, FilesOK prior fs →
    orderAll fs = .ok r →
    (allClasses r).Perm (allClasses (fs.map fun f => (f.package, f.messages))) ∧
    (∀ own m, Defined r own m → FieldsValid m.fields m.oneofs) ∧
    ∀ own m f, Defined r own m → f ∈ m.fields → f.type = .message → f.typeName ≠ own →
      f.typeName ∈ prior ∨ [f.typeName, own].Sublist (allClasses r)
  | [], prior, r, _, h => by
    injection h with h
    subst h
    exact ⟨.refl _, fun _ _ ⟨_, h, _⟩ => (nomatch h), fun _ _ _ ⟨_, h, _⟩ => (nomatch h)⟩
  | f :: fs, prior, r, hok, h => by
    obtain ⟨ms, rest, h1, h2, rfl⟩ := orderAll_cons h
    obtain ⟨i1, i2, i3⟩ := orderAll_spec hok.2 h2
    have hcl := order_classes h1
    obtain ⟨order, hs⟩ := order_sorted h1
    refine ⟨hcl.append i1, ?_, ?_⟩
    · intro own m hm
      rcases defined_cons.mp hm with ⟨scope, hm', rfl⟩ | hm
      · obtain ⟨m0, hm0, hsame⟩ := at_sorted hm' f.messages hs
        rw [hsame.2.1, hsame.2.2]
        exact hok.1.fields scope m0 hm0
      · exact i2 own m hm
    · intro own m fd hm hf ht hne
      rcases defined_cons.mp hm with ⟨scope, hm', rfl⟩ | hm
      · obtain ⟨m0, hm0, hsame⟩ := at_sorted hm' f.messages hs
        rw [hsame.2.1] at hf
        rw [hsame.1] at hne ⊢
        rcases hok.1.types scope m0 fd hm0 hf ht hne with hp | hp
        · exact .inl hp
        · right
          have hn : (f.header ms).Nodup := (order_perm h1).nodup_iff.mpr hok.1.valid.distinct
          have hsub : (classes f.package ms).Sublist (f.header ms) :=
            (classes_sublist _ _).trans (List.sublist_append_right _ _)
          have hd : fd.typeName ∈ f.header f.messages :=
            List.mem_append_right _ ((classes_sublist _ _).subset hp)
          have hb := order_before hok.1.valid hok.1.clear hok.1.noOuter h1 hm0 (t := fd.typeName)
            ⟨hne, fd, hf, .inl ht, rfl⟩ hd
          exact (pair_restrict hn hsub hb (hcl.mem_iff.mpr hp) (hcl.mem_iff.mpr hm0.mem_classes)).trans
            (List.sublist_append_left _ _)
      · rcases i3 own m fd hm hf ht hne with hp | hp
        · rcases List.mem_append.mp hp with hp | hp
          · exact .inl hp
          · exact .inr (pair_sublist (hcl.mem_iff.mpr hp) hm.mem)
        · exact .inr (hp.trans (List.sublist_append_right _ _))

theorem orderAll_ordered {fs : List FileDesc} {r : List (Str × List MsgDesc)} (hok : FilesOK [] fs)
    (hn : (allClasses (fs.map fun f => (f.package, f.messages))).Nodup) (h : orderAll fs = .ok r) : Ordered r := by
  obtain ⟨h1, h2, h3⟩ := orderAll_spec hok h
  exact ⟨h2, h1.nodup_iff.mpr hn, fun own m f hm hf ht hne => (h3 own m f hm hf ht hne).resolve_left fun h => nomatch h⟩

/-! ## What is accepted has been registered in order -/

theorem regFields_done {own : Str} : ∀ (gs : List GField) (st : RegState),
    (∀ t, t ≠ own → (regFields own gs st).done t = st.done t) ∧
    ((regFields own gs st).done own = true → st.done own = true ∧
      ∀ g ∈ gs, Refers g → g.desc.typeName = own ∨ st.done g.desc.typeName = true)
  | [], st => ⟨fun _ _ => rfl, fun h => ⟨h, fun _ h => nomatch h⟩⟩
  | g :: gs, st => by
    obtain ⟨h1, h2⟩ := regFields_done (own := own) gs
      ((regField own g st).1.setDone own ((regField own g st).2 && (regField own g st).1.done own))
    have hd : ∀ t, (regField own g st).1.done t = st.done t := by
      intro t
      unfold regField
      repeat' split
      all_goals rfl
    have hr : Refers g → (regField own g st).2 = st.done g.desc.typeName := by
      intro hr
      unfold regField
      rw [hr.1, hr.2]
      dsimp only
      cases h : st.done g.desc.typeName <;> simp
    have hd' : ∀ t, t ≠ own → ((regField own g st).1.setDone own
        ((regField own g st).2 && (regField own g st).1.done own)).done t = st.done t :=
      fun t ht => (if_neg ht).trans (hd t)
    refine ⟨fun t ht => (h1 t ht).trans (hd' t ht), fun h => ?_⟩
    obtain ⟨h3, h4⟩ := h2 h
    have h3 : (if own = own then ((regField own g st).2 && (regField own g st).1.done own)
      else (regField own g st).1.done own) = true := h3
    rw [if_pos rfl, Bool.and_eq_true, hd] at h3
    refine ⟨h3.2, fun g' hg' hr' => ?_⟩
    rcases List.mem_cons.mp hg' with rfl | hg'
    · exact .inr ((hr hr').symm.trans h3.1)
    · by_cases e : g'.desc.typeName = own
      · exact .inl e
      · exact .inr ((hd' _ e).symm.trans ((h4 g' hg' hr').resolve_left e))

/-- The types of the message fields are known already, come before, or enclose the message. -/
def Justified (I : Str → Bool) (D : List (Str × MsgDesc)) (p : Str × MsgDesc) : Prop :=
  ∀ g ∈ members p.1 p.2, Refers g →
    I g.desc.typeName = true ∨ [g.desc.typeName, p.1].Sublist (D.map (·.1)) ∨ Under g.desc.typeName p.1

mutual
theorem regMsg_done (ns : Str) : ∀ (m : MsgDesc) (st : RegState) (t : Str), (regMsg ns m st).done t = true →
    t ∈ m.classes ns ∨ st.done t = true
  | .mk name fields oneofs enums nested, st, t, h => by
    rw [MsgDesc.classes]
    by_cases e : t = dot ns name
    · exact .inl (e ▸ List.mem_append_right _ List.mem_cons_self)
    · rw [regMsg, (regFields_done _ _).1 t e] at h
      rcases regNested_done (dot ns name) nested _ t h with h | h | h
      · exact .inl (List.mem_append_left _ h)
      · exact absurd h e
      · exact .inr ((if_neg e).symm.trans h)
theorem regNested_done (own : Str) : ∀ (ms : List MsgDesc) (st : RegState) (t : Str), (regNested own ms st).done t = true →
    t ∈ classes own ms ∨ t = own ∨ st.done t = true
  | [], st, t, h => .inr (.inr h)
  | m :: ms, st, t, h => by
    rw [classes]
    by_cases e : t = own
    · exact .inr (.inl e)
    · rcases regNested_done own ms _ t h with h | h | h
      · exact .inl (List.mem_append_right _ h)
      · exact .inr (.inl h)
      · rcases regMsg_done own m st t ((if_neg e).symm.trans h) with h | h
        · exact .inl (List.mem_append_left _ h)
        · exact .inr (.inr h)
end

theorem defsList_under {own : Str} {ms : List MsgDesc} {p : Str × MsgDesc} (h : p ∈ defsList own ms) : Under own p.1 := by
  refine headers_under own ms _ ((classes_sublist own ms).subset ?_)
  rw [← defsList_fst]
  exact List.mem_map_of_mem h

mutual
theorem regMsg_justified (ns : Str) : ∀ (m : MsgDesc) (st : RegState), (regMsg ns m st).done (dot ns m.name) = true →
    ∀ p ∈ m.defs ns, Justified st.done (m.defs ns) p
  | .mk name fields oneofs enums nested, st, h, p, hp => by
    rw [regMsg] at h
    obtain ⟨h1, h2⟩ := (regFields_done _ _).2 h
    rw [MsgDesc.defs] at hp
    rcases List.mem_append.mp hp with hp | hp
    · intro g hg hr
      rcases regNested_justified (dot ns name) nested _ h1 p hp g hg hr with h | h | h
      · by_cases e : g.desc.typeName = dot ns name
        · exact .inr (.inr (e ▸ defsList_under hp))
        · exact .inl ((if_neg e).symm.trans h)
      · refine .inr (.inl (h.trans ?_))
        rw [MsgDesc.defs, List.map_append]
        exact List.sublist_append_left _ _
      · exact .inr (.inr h)
    · rw [List.mem_singleton.mp hp]
      intro g hg hr
      rcases h2 g hg hr with e | h
      · exact .inr (.inr (.inl e.symm))
      · rcases regNested_done (dot ns name) nested _ _ h with h | h | h
        · refine .inr (.inl ?_)
          rw [MsgDesc.defs, List.map_append, defsList_fst]
          exact pair_sublist h List.mem_cons_self
        · exact .inr (.inr (.inl h.symm))
        · by_cases e : g.desc.typeName = dot ns name
          · exact .inr (.inr (.inl e.symm))
          · exact .inl ((if_neg e).symm.trans h)
theorem regNested_justified (own : Str) : ∀ (ms : List MsgDesc) (st : RegState), (regNested own ms st).done own = true →
    ∀ p ∈ defsList own ms, Justified st.done (defsList own ms) p
  | [], _, _, _, h => nomatch h
  | m :: ms, st, h, p, hp => by
    have hrest := regNested_justified own ms _ h
    have hfirst := regNested_flag own ms _ h
    have hfirst : (if own = own then ((regMsg own m st).done (dot own m.name) && (regMsg own m st).done own)
      else (regMsg own m st).done own) = true := hfirst
    rw [if_pos rfl, Bool.and_eq_true] at hfirst
    have hp0 := hp
    rcases List.mem_append.mp hp with hp | hp
    · intro g hg hr
      rcases regMsg_justified own m st hfirst.1 p hp g hg hr with h | h | h
      · exact .inl h
      · refine .inr (.inl (h.trans ?_))
        rw [defsList, List.map_append]
        exact List.sublist_append_left _ _
      · exact .inr (.inr h)
    · intro g hg hr
      rcases hrest p hp g hg hr with h | h | h
      · by_cases e : g.desc.typeName = own
        · exact .inr (.inr (e ▸ defsList_under hp0))
        · rcases regMsg_done own m st _ ((if_neg e).symm.trans h) with h | h
          · refine .inr (.inl ?_)
            rw [defsList, List.map_append, defs_fst]
            exact pair_sublist h (List.mem_map_of_mem hp)
          · exact .inl h
      · refine .inr (.inl (h.trans ?_))
        rw [defsList, List.map_append]
        exact List.sublist_append_right _ _
      · exact .inr (.inr h)
/-- Once false, the flag stays false. -/
theorem regNested_flag (own : Str) : ∀ (ms : List MsgDesc) (st : RegState), (regNested own ms st).done own = true →
    st.done own = true
  | [], _, h => h
  | m :: ms, st, h => by
    have := regNested_flag own ms _ h
    have : (if own = own then ((regMsg own m st).done (dot own m.name) && (regMsg own m st).done own)
      else (regMsg own m st).done own) = true := this
    rw [if_pos rfl, Bool.and_eq_true] at this
    refine (regMsg_done own m st own this.2).resolve_left fun hin => ?_
    rw [← defs_fst] at hin
    obtain ⟨p, hp, e⟩ := List.mem_map.mp hin
    have := header_under own m p.1 ((class_sublist own m).subset (by rw [← defs_fst]; exact List.mem_map_of_mem hp))
    rw [e] at this
    have := this.prefix.length_le
    simp only [dot, List.length_append, List.length_cons] at this
    omega
end

theorem regMsgs_done (ns : Str) : ∀ (ms : List MsgDesc) (st : RegState) (t : Str), (regMsgs ns ms st).1.done t = true →
    t ∈ classes ns ms ∨ st.done t = true
  | [], _, _, h => .inr h
  | m :: ms, st, t, h => by
    rw [classes]
    rcases regMsgs_done ns ms _ t h with h | h
    · exact .inl (List.mem_append_right _ h)
    · rcases regMsg_done ns m st t h with h | h
      · exact .inl (List.mem_append_left _ h)
      · exact .inr h

theorem Justified.first {I : Str → Bool} {D E : List (Str × MsgDesc)} {p : Str × MsgDesc} (h : Justified I D p) :
    Justified I (D ++ E) p := by
  intro g hg hr
  rcases h g hg hr with h | h | h
  · exact .inl h
  · refine .inr (.inl (h.trans ?_))
    rw [List.map_append]
    exact List.sublist_append_left _ _
  · exact .inr (.inr h)

theorem Justified.second {I J : Str → Bool} {D E : List (Str × MsgDesc)} {p : Str × MsgDesc} (h : Justified J E p)
    (hp : p ∈ E) (hJ : ∀ t, J t = true → t ∈ D.map (·.1) ∨ I t = true) : Justified I (D ++ E) p := by
  intro g hg hr
  rcases h g hg hr with h | h | h
  · rcases hJ _ h with h | h
    · refine .inr (.inl ?_)
      rw [List.map_append]
      exact pair_sublist h (List.mem_map_of_mem hp)
    · exact .inl h
  · refine .inr (.inl (h.trans ?_))
    rw [List.map_append]
    exact List.sublist_append_right _ _
  · exact .inr (.inr h)

theorem regMsgs_justified (ns : Str) : ∀ (ms : List MsgDesc) (st : RegState), (regMsgs ns ms st).2 = true →
    ∀ p ∈ defsList ns ms, Justified st.done (defsList ns ms) p
  | [], _, _, _, h => nomatch h
  | m :: ms, st, h, p, hp => by
    have h : ((regMsg ns m st).done (dot ns m.name) && (regMsgs ns ms (regMsg ns m st)).2) = true := h
    rw [Bool.and_eq_true] at h
    rw [defsList]
    rcases List.mem_append.mp hp with hp | hp
    · exact (regMsg_justified ns m st h.1 p hp).first
    · refine (regMsgs_justified ns ms _ h.2 p hp).second hp fun t ht => ?_
      rw [defs_fst]
      exact regMsg_done ns m st t ht

theorem regFiles_justified : ∀ (fs : List (Str × List MsgDesc)) (st : RegState), (regFiles fs st).2 = true →
    ∀ p ∈ allDefs fs, Justified st.done (allDefs fs) p
  | [], _, _, _, h => nomatch h
  | f :: fs, st, h, p, hp => by
    have h : ((regMsgs f.1 f.2 st).2 && (regFiles fs (regMsgs f.1 f.2 st).1).2) = true := h
    rw [Bool.and_eq_true] at h
    rw [allDefs]
    rcases List.mem_append.mp hp with hp | hp
    · exact (regMsgs_justified f.1 f.2 st h.1 p hp).first
    · refine (regFiles_justified fs _ h.2 p hp).second hp fun t ht => ?_
      rw [defsList_fst]
      exact regMsgs_done f.1 f.2 st t ht

theorem templates_justified {files : List (Str × List MsgDesc)} {P : Str → List Str} (h : templates files = .ok P)
    {own : Str} {m : MsgDesc} (hm : Defined files own m) (hv : FieldsValid m.fields m.oneofs) {f : FieldDesc} (hf : f ∈ m.fields)
    (ht : f.type = .message) (hs : f.repeated = false) (hne : f.typeName ≠ own) :
    [f.typeName, own].Sublist (allClasses files) ∨ (f.typeName ++ ['.']) <+: own := by
  unfold templates at h
  dsimp only at h
  by_cases hd : (regFiles files .init).2 = true
  · obtain ⟨g, hg, rfl⟩ := List.mem_map.mp ((members_perm (own := own) hv).mem_iff.mpr hf)
    have hsh : g.shape = .single := by
      rw [members_shape hv hg, if_neg hne, hs]
      rfl
    rcases regFiles_justified files .init hd (own, m) (mem_allDefs.mpr hm) g hg ⟨hsh, ht⟩ with h | h | h
    · exact nomatch h
    · rw [allDefs_fst] at h
      exact .inl h
    · exact .inr (h.resolve_left fun e => hne e.symm)
  · rw [if_neg hd] at h
    exact nomatch h

end EP.Gen
