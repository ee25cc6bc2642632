import Verif.Proof.HeaderSpell
import Verif.Proof.HeaderFile
import Verif.Proof.GenRequest
import Verif.Proof.GenProper

/-!
# The text of the headers for a request
-/

namespace EP.Gen

open Jinja Cpp

/-! ## The files that are read -/

theorem fileDefs_opened {request files : List ReqFile} (h : fileDefs request = .ok files) :
    ∀ f' ∈ files, ∃ f ∈ request, Opened f f' := by
  unfold fileDefs at h
  obtain ⟨⟨fs, wanted, google⟩, h1, h⟩ := except_bind_ok h
  obtain ⟨i1, _, i3⟩ := collectReq_ok h1
  have hfs : ∀ f' ∈ fs, ∃ f ∈ request, Opened f f' := fun f' hf' => by
    obtain ⟨f, hf, o⟩ := mem_openAll i1 f' hf'
    exact ⟨f, (List.mem_filter.mp hf).1, o⟩
  cases wanted with
  | false =>
    injection h with h
    subst h
    exact hfs
  | true =>
    cases google with
    | none =>
      injection h with h
      subst h
      exact hfs
    | some g =>
      obtain ⟨g', hg, h⟩ := except_bind_ok h
      injection h with h
      subst h
      intro f' hf'
      rcases List.mem_cons.mp hf' with rfl | hf'
      · exact ⟨g, (List.mem_filter.mp (List.mem_of_getLast? i3.symm)).1, openReq_ok hg⟩
      · exact hfs f' hf'

theorem WordMessage.same {m m' : MsgDesc} (h : WordMessage m) (h1 : m'.name = m.name) (h2 : m'.fields = m.fields)
    (h3 : m'.oneofs = m.oneofs) (h4 : m'.enums = m.enums) : WordMessage m' :=
  ⟨h1 ▸ h.name, h4 ▸ h.enums, h2 ▸ h.fields, h3 ▸ h.oneofs⟩

theorem WordRequest.opened {V : Str → List (Str × Int)} {request files : List ReqFile} (h : WordRequest V request)
    (hf : fileDefs request = .ok files) : WordRequest V files where
  files f' hf' := by
    obtain ⟨f, hf, o⟩ := fileDefs_opened hf f' hf'
    rw [o.req]; exact h.files f hf
  package f' hf' := by
    obtain ⟨f, hf, o⟩ := fileDefs_opened hf f' hf'
    rw [o.desc.package]; exact h.package f hf
  enums f' hf' := by
    obtain ⟨f, hf, o⟩ := fileDefs_opened hf f' hf'
    rw [o.desc.enums]; exact h.enums f hf
  messages f' hf' scope m' hat := by
    obtain ⟨f, hf, o⟩ := fileDefs_opened hf f' hf'
    obtain ⟨m, hm, h1, h2, h3, h4⟩ := o.desc.of_at hat
    exact (h.messages f hf scope m hm).same h1 h2 h3 h4
  values := h.values

theorem PrintableRequest.opened {request files : List ReqFile} (h : PrintableRequest request)
    (hf : fileDefs request = .ok files) : PrintableRequest files where
  fields f' hf' scope m' hat := by
    obtain ⟨f, hf, o⟩ := fileDefs_opened hf f' hf'
    obtain ⟨m, hm, h1, h2, h3, h4⟩ := o.desc.of_at hat
    rw [h2, h3]; exact h.fields f hf scope m hm
  oneofs f' hf' scope m' hat := by
    obtain ⟨f, hf, o⟩ := fileDefs_opened hf f' hf'
    obtain ⟨m, hm, h1, h2, h3, h4⟩ := o.desc.of_at hat
    rw [h1, h2]; exact h.oneofs f hf scope m hm

/-! ## Names -/

theorem _root_.EP.Gen.Jinja.Word.dot {x : Str} (h : Word x) : '.' ∉ x := fun hc => h.ne (d := '.') (by decide) _ hc rfl

theorem simple_dot {scope x : Str} (h : '.' ∉ x) : simple (dot scope x) = x := by
  unfold simple dot
  rw [List.reverse_append, List.reverse_cons, List.append_assoc]
  have hx : ∀ c ∈ x.reverse, decide (c ≠ '.') = true := by
    intro c hc
    have : c ≠ '.' := fun e => h (e ▸ List.mem_reverse.mp hc)
    simp [this]
  rw [List.takeWhile_append_of_pos hx]
  simp

theorem At.words {ns : Str} {ms : List MsgDesc} {scope : Str} {m : MsgDesc} (h : At ns ms scope m) :
    (∀ scope m, At ns ms scope m → Word m.name) → (∀ x ∈ pathOf ns, Word x) → ∀ x ∈ pathOf (dot scope m.name), Word x := by
  induction h with
  | here hm =>
    intro hw hp x hx
    have hn := hw _ _ (.here hm)
    rw [pathOf_dot hn.dot] at hx
    rcases List.mem_append.mp hx with hx | hx
    · exact hp x hx
    · exact List.mem_singleton.mp hx ▸ hn
  | inside hc _ ih =>
    intro hw hp
    have hn := hw _ _ (.here hc)
    refine ih (fun scope m h => hw scope m (.inside hc h)) fun x hx => ?_
    rw [pathOf_dot hn.dot] at hx
    rcases List.mem_append.mp hx with hx | hx
    · exact hp x hx
    · exact List.mem_singleton.mp hx ▸ hn

section
variable {V : Str → List (Str × Int)} {files : List ReqFile} (hw : WordRequest V files)
include hw

theorem WordRequest.msgPath {t : Str} {m : MsgDesc} (h : MessageNamed (files.map (·.desc)) t m) :
    pathOf t ≠ [] ∧ ∀ x ∈ pathOf t, Word x := by
  obtain ⟨d, hd, scope, hat, rfl⟩ := h
  obtain ⟨f, hf, rfl⟩ := List.mem_map.mp hd
  have hn := (hw.messages f hf scope m hat).name
  refine ⟨by rw [pathOf_dot hn.dot]; simp, hat.words (fun s m h => (hw.messages f hf s m h).name) (hw.package f hf).2⟩

theorem WordRequest.enumPath {t : Str} (h : EnumNamed (files.map (·.desc)) t) : pathOf t ≠ [] ∧ ∀ x ∈ pathOf t, Word x := by
  obtain ⟨d, hd, h⟩ := h
  obtain ⟨f, hf, rfl⟩ := List.mem_map.mp hd
  have key : ∀ {s e : Str}, Word e → (∀ x ∈ pathOf s, Word x) → pathOf (dot s e) ≠ [] ∧ ∀ x ∈ pathOf (dot s e), Word x := by
    intro s e he hs
    rw [pathOf_dot he.dot]
    refine ⟨by simp, fun x hx => ?_⟩
    rcases List.mem_append.mp hx with hx | hx
    · exact hs x hx
    · exact List.mem_singleton.mp hx ▸ he
  rcases h with ⟨e, he, rfl⟩ | ⟨scope, m, hat, e, he, rfl⟩
  · exact key (hw.enums f hf e he) (hw.package f hf).2
  · exact key ((hw.messages f hf scope m hat).enums e he)
      (hw.msgPath ⟨_, List.mem_map_of_mem hf, scope, hat, rfl⟩).2

theorem WordRequest.definition {t : FType} {d : List Str} (h : d ∈ definitions (files.map (·.desc)) t) :
    d ≠ [] ∧ ∀ x ∈ d, Word x := by
  unfold definitions at h
  split at h
  · obtain ⟨e, he, rfl⟩ := List.mem_map.mp h
    exact hw.enumPath (mem_filesEnums.mp he)
  · obtain ⟨m, hm, rfl⟩ := List.mem_map.mp h
    exact hw.msgPath (m := m.2) (mem_filesMsgs.mp hm)

theorem WordRequest.typeText {T : List Str → List Str} {own text : List Str} {f : FieldDesc}
    (h : Gen.typeText T (definitions (files.map (·.desc))) own f = .ok text) : text ≠ [] ∧ ∀ x ∈ text, Word x := by
  unfold Gen.typeText at h
  obtain ⟨d, h1, h⟩ := except_bind_ok h
  have hd : d ∈ definitions (files.map (·.desc)) f.type := by
    unfold matchType at h1
    split at h1
    · rename_i hf
      injection h1 with h1
      exact h1 ▸ List.mem_of_find?_eq_some hf
    · exact nomatch h1
  obtain ⟨hne, hwd⟩ := hw.definition hd
  dsimp only at h
  split at h
  · exact nomatch h
  · injection h with h
    rw [reducedScope_names] at h
    subst h
    refine ⟨?_, fun x hx => hwd x (List.mem_of_mem_drop hx)⟩
    have := shared_lt (own := own) hne
    rw [Ne, List.drop_eq_nil_iff]
    omega

end

/-! ## Template parameters -/

/-- All fields registered have the property. -/
def Registered (Q : Str → GField → Prop) (st : RegState) : Prop := ∀ own, ∀ g ∈ st.fields own, Q own g

section
variable {Q : Str → GField → Prop}

theorem Registered.setDone {st : RegState} (h : Registered Q st) (own : Str) (b : Bool) : Registered Q (st.setDone own b) := h

theorem Registered.add {st : RegState} (h : Registered Q st) {own : Str} {g : GField} (hg : Q own g) :
    Registered Q (st.add own g) := by
  intro t x hx
  have hx : x ∈ if t = own then st.fields t ++ [g] else st.fields t := hx
  split at hx
  · rename_i e
    rcases List.mem_append.mp hx with hx | hx
    · exact h t x hx
    · rw [List.mem_singleton.mp hx, e]; exact hg
  · exact h t x hx

theorem Registered.regField {st : RegState} (h : Registered Q st) {own : Str} {g : GField} (hg : Q own g) :
    Registered Q (regField own g st).1 := by
  have ha := h.add hg
  unfold Gen.regField
  repeat' split
  all_goals first | exact h | exact ha

theorem Registered.regFields {own : Str} : ∀ (gs : List GField) {st : RegState}, Registered Q st → (∀ g ∈ gs, Q own g) →
    Registered Q (regFields own gs st)
  | [], _, h, _ => h
  | g :: gs, _, h, hg =>
    Registered.regFields gs ((h.regField (hg g List.mem_cons_self)).setDone _ _) fun x hx => hg x (List.mem_cons_of_mem _ hx)

mutual
theorem Registered.regMsg (ns : Str) : ∀ (m : MsgDesc) {st : RegState}, Registered Q st →
    (∀ scope x, At ns [m] scope x → ∀ g ∈ members (dot scope x.name) x, Q (dot scope x.name) g) → Registered Q (regMsg ns m st)
  | .mk name fields oneofs enums nested, st, h, hQ => by
    unfold Gen.regMsg
    refine Registered.regFields _ ?_ (hQ ns _ (.here List.mem_cons_self))
    exact Registered.regNested (dot ns name) nested (h.setDone _ _) fun scope x hx =>
      hQ scope x (.inside (c := .mk name fields oneofs enums nested) List.mem_cons_self hx)
theorem Registered.regNested (ns : Str) : ∀ (ms : List MsgDesc) {st : RegState}, Registered Q st →
    (∀ scope x, At ns ms scope x → ∀ g ∈ members (dot scope x.name) x, Q (dot scope x.name) g) →
    Registered Q (regNested ns ms st)
  | [], _, h, _ => h
  | m :: ms, st, h, hQ => by
    unfold Gen.regNested
    refine Registered.regNested ns ms (Registered.setDone (Registered.regMsg ns m h fun scope x hx => hQ scope x ?_) _ _)
      fun scope x hx => hQ scope x ?_
    · cases hx with
      | here hm => exact .here (List.mem_singleton.mp hm ▸ List.mem_cons_self)
      | inside hm hx => exact .inside (List.mem_singleton.mp hm ▸ List.mem_cons_self) hx
    · cases hx with
      | here hm => exact .here (List.mem_cons_of_mem _ hm)
      | inside hm hx => exact .inside (List.mem_cons_of_mem _ hm) hx
end

theorem Registered.regMsgs (ns : Str) : ∀ (ms : List MsgDesc) {st : RegState}, Registered Q st →
    (∀ scope x, At ns ms scope x → ∀ g ∈ members (dot scope x.name) x, Q (dot scope x.name) g) →
    Registered Q (regMsgs ns ms st).1
  | [], _, h, _ => h
  | m :: ms, st, h, hQ => by
    unfold Gen.regMsgs
    refine Registered.regMsgs ns ms (Registered.regMsg ns m h fun scope x hx => hQ scope x ?_) fun scope x hx => hQ scope x ?_
    · cases hx with
      | here hm => exact .here (List.mem_singleton.mp hm ▸ List.mem_cons_self)
      | inside hm hx => exact .inside (List.mem_singleton.mp hm ▸ List.mem_cons_self) hx
    · cases hx with
      | here hm => exact .here (List.mem_cons_of_mem _ hm)
      | inside hm hx => exact .inside (List.mem_cons_of_mem _ hm) hx

theorem Registered.regFiles : ∀ (fs : List (Str × List MsgDesc)) {st : RegState}, Registered Q st →
    (∀ f ∈ fs, ∀ scope x, At f.1 f.2 scope x → ∀ g ∈ members (dot scope x.name) x, Q (dot scope x.name) g) →
    Registered Q (regFiles fs st).1
  | [], _, h, _ => h
  | f :: fs, st, h, hQ => by
    unfold Gen.regFiles
    exact Registered.regFiles fs (Registered.regMsgs f.1 f.2 h (hQ f List.mem_cons_self)) fun x hx =>
      hQ x (List.mem_cons_of_mem _ hx)

end

/-- The name of a class and that of a field. -/
def WordField (own : Str) (g : GField) : Prop := Word (simple own) ∧ Word g.desc.name

theorem word_under {a b p : Str} (ha : Word a) (hb : Word b) (hp : Word p) : Word (a ++ '_' :: ((b ++ ['_']) ++ p)) := by
  refine ⟨by simp, fun c hc => ?_⟩
  simp only [List.mem_append, List.mem_cons] at hc
  rcases hc with h | rfl | (h | rfl | h) | h
  · exact ha.2 c h
  · decide
  · exact hb.2 c h
  · decide
  · exact nomatch h
  · exact hp.2 c h

theorem word_chars {s : Str} (h : (s ≠ [] ∧ s.all identChar = true)) : Word s := ⟨h.1, fun c hc => List.all_eq_true.mp h.2 c hc⟩

theorem word_uint32 : Word (chars! "uint32_t") := word_chars (by decide +kernel)
theorem word_length : Word "LENGTH".toList := word_chars (by decide +kernel)
theorem word_repLength : Word "REP_LENGTH".toList := word_chars (by decide +kernel)

theorem fieldParams_words {inner : Str → List Str} {own : Str} {g : GField} (h : WordField own g)
    (hi : ∀ t, ∀ p ∈ inner t, Word p) : ∀ p ∈ fieldParams inner own g, Word p := by
  have h1 := word_under h.1 h.2 word_length
  have h2 := word_under h.1 h.2 word_repLength
  intro p hp
  unfold fieldParams at hp
  rcases List.mem_append.mp hp with hp | hp
  · split at hp
    · exact nomatch hp
    · split at hp
      · exact List.mem_singleton.mp hp ▸ h2
      · exact nomatch hp
    · exact nomatch hp
  · split at hp
    · exact nomatch hp
    · split at hp
      · exact nomatch hp
      · exact nomatch hp
      · split at hp
        · exact List.mem_singleton.mp hp ▸ h1
        · exact nomatch hp
      · split at hp
        · exact List.mem_singleton.mp hp ▸ h1
        · exact nomatch hp
      · obtain ⟨q, hq, rfl⟩ := List.mem_map.mp hp
        exact word_under h.1 h.2 (hi _ q hq)

theorem params_words {st : RegState} (h : Registered WordField st) : ∀ (n : Nat) (own : Str), ∀ p ∈ params st n own, Word p
  | 0, _, _, hp => nomatch hp
  | n + 1, own, p, hp => by
    unfold params at hp
    obtain ⟨g, hg, hp⟩ := List.mem_flatMap.mp hp
    exact fieldParams_words (h own g hg) (params_words h n) p hp

theorem templates_words {V : Str → List (Str × Int)} {files : List ReqFile} (hw : WordRequest V files)
    (hv : PrintableRequest files) {P : Str → List Str}
    (h : register (files.map fun f => (f.desc.package, f.desc.messages)) = .ok P) : ∀ t, ∀ p ∈ P t, Word p := by
  rw [register_eq] at h
  unfold templates at h
  dsimp only at h
  split at h
  · injection h with h
    subst h
    refine params_words (Registered.regFiles _ (fun own g hg => absurd hg (List.not_mem_nil (a := g))) fun q hq scope x hat g hg => ?_) _
    obtain ⟨f, hf, rfl⟩ := List.mem_map.mp hq
    have hm := hw.messages f hf scope x hat
    have hd := (members_perm (own := dot scope x.name) (hv.fields f hf scope x hat)).mem_iff.mp (List.mem_map_of_mem hg)
    refine ⟨?_, (hm.fields _ hd).1⟩
    rw [simple_dot hm.name.dot]; exact hm.name
  · exact nomatch h

/-! ## Spellings -/

section
variable {P : Str → List Str} {own : Str} {types : List (FieldDesc × List Str)}

/-- The scopes found for a field have this property if all have it. -/
theorem scopesOf_spec {R : FieldDesc → List Str → Prop} (h : ∀ p ∈ types, R p.1 p.2) {f : FieldDesc}
    (hf : ∃ text, (f, text) ∈ types) : R f (scopesOf types f) := by
  obtain ⟨text, ht⟩ := hf
  unfold scopesOf
  cases e : types.find? fun p => p.1 = f with
  | none =>
    have := List.find?_eq_none.mp e _ ht
    simp at this
  | some p =>
    have h1 : p.1 = f := by simpa using List.find?_some e
    have := h p (List.mem_of_find?_eq_some e)
    rw [h1] at this; exact this

theorem scopesOf_all {R : List Str → Prop} (h : ∀ p ∈ types, R p.2) (h0 : R []) (f : FieldDesc) : R (scopesOf types f) := by
  unfold scopesOf
  cases e : types.find? fun p => p.1 = f with
  | none => exact h0
  | some p => exact h p (List.mem_of_find?_eq_some e)

/-- What the class `own` is made of. -/
structure ClassWords (P : Str → List Str) (own : Str) (types : List (FieldDesc × List Str)) : Prop where
  own : Word (simple own)
  params : ∀ t, ∀ p ∈ P t, Word p
  types : ∀ p ∈ types, p.2 ≠ [] ∧ ∀ x ∈ p.2, Word x

variable (h : ClassWords P own types)
include h

theorem ClassWords.scope (f : FieldDesc) : Spells (scopeStr (scopesOf types f)) (scopeToks (scopesOf types f)) :=
  spells_scope (scopesOf_all (R := fun p => ∀ x ∈ p, Word x) (fun p hp => (h.types p hp).2) (fun _ h => nomatch h) f)

theorem ClassWords.args {f : FieldDesc} (hf : Word f.name) : ∀ x ∈ (P f.typeName).map (innerParam own f), Word x := by
  intro x hx
  obtain ⟨p, hp, rfl⟩ := List.mem_map.mp hx
  exact word_under h.own hf (h.params _ p hp)

theorem ClassWords.message {f : FieldDesc} (hf : Word f.name) : Spells ((spellingOf P own types).message f)
    (scopeToks (scopesOf types f) ++ argToks ((P f.typeName).map (innerParam own f))) :=
  spells_args (h.scope f) (h.args hf)

theorem ClassWords.length {f : FieldDesc} (hf : Word f.name) : Spells ((spellingOf P own types).length f)
    (lengthTok f.maxLength (lengthParam own f)) := by
  refine spells_word ?_
  show Word (if f.maxLength = 0 then lengthParam own f else (Nat.repr f.maxLength).toList)
  split
  · exact word_under h.own hf word_length
  · exact word_repr _

theorem ClassWords.repLength {f : FieldDesc} (hf : Word f.name) : Spells ((spellingOf P own types).repLength f)
    (lengthTok f.maxLength (countParam own f)) := by
  refine spells_word ?_
  show Word (if f.maxLength = 0 then countParam own f else (Nat.repr f.maxLength).toList)
  split
  · exact word_under h.own hf word_repLength
  · exact word_repr _

/-- `~Inner<…>` in the destructor call: the last name of the path, with the arguments. -/
theorem ClassWords.short {f : FieldDesc} (hf : Word f.name) (hn : scopesOf types f ≠ []) :
    ∃ x ∈ scopesOf types f, (scopesOf types f).getLast? = some x ∧ Spells ((spellingOf P own types).short f)
      (.id x :: argToks ((P f.typeName).map (innerParam own f))) := by
  have hs := scopesOf_all (R := fun p => ∀ x ∈ p, Word x) (fun p hp => (h.types p hp).2) (fun _ h => nomatch h) f
  obtain ⟨x, hx, e, e'⟩ := lastPart_type hn hs (argsText_colon (h.args hf))
  refine ⟨x, hx, e', ?_⟩
  exact (spells_args (spells_word (hs x hx)) (h.args hf)).cast e rfl

theorem ClassWords.good {f : FieldDesc} (hf : Word f.name) : (spellingOf P own types).Good f where
  message := (h.message hf).whole
  short := by
    by_cases hn : scopesOf types f = []
    · have : (spellingOf P own types).short f = argsText ((P f.typeName).map (innerParam own f)) := by
        show lastPart (scopeStr (scopesOf types f) ++ _) = _
        rw [hn]
        exact lastPart_plain (argsText_colon (h.args hf))
      rw [this]
      exact (spells_args spells_nil (h.args hf)).whole
    · obtain ⟨x, _, _, e⟩ := h.short hf hn
      exact e.whole
  enum := (h.scope f).whole
  length := (h.length hf).whole
  repLength := (h.repLength hf).whole

/-- The type of a value of the field. -/
theorem ClassWords.elem {f : FieldDesc} (hf : Word f.name) : Spells (elemType (spellingOf P own types) f)
    (elemToks P own (scopesOf types f) f) := by
  refine ⟨(h.good hf).elem, ?_⟩
  have wrap : ∀ {a t : Str} {e : List Tok} (k : List Tok), lexFrom .start (lit a) = (k, .start) → Spells t e →
      toks (a ++ t ++ ['>']) = k ++ e ++ [.sym '>'] := by
    intro a t e k ha ht
    have hj := (ht.join between_greater spells_nil).toks
    rw [toks_eq] at hj ⊢
    rw [List.append_assoc, lit_append, List.append_assoc, lexFrom_append, ha]
    show k ++ (lexFrom .start (lit (t ++ ['>']) ++ [.c ' '])).1 = _
    rw [hj]; simp
  have h1 := (h.message hf).toks
  have h2 := h.scope f
  have h3 := h.length hf
  have k1 := wrap (a := chars! "EmbeddedProto::enumeration<") (cpp! "EmbeddedProto::enumeration<") (by kernel_rfl) h2
  have k2 := wrap (a := chars! "::EmbeddedProto::FieldString<") (cpp! "::EmbeddedProto::FieldString<") (by kernel_rfl) h3
  have k3 := wrap (a := chars! "::EmbeddedProto::FieldBytes<") (cpp! "::EmbeddedProto::FieldBytes<") (by kernel_rfl) h3
  unfold elemType elemToks
  cases f.type with
  | scalar s => rfl
  | enum => exact k1
  | message => exact h1
  | string => exact k2
  | bytes => exact k3

/-- The type of a member. -/
theorem ClassWords.member {g : GField} (hf : Word g.desc.name) (hs : g.shape ≠ .recursive) :
    toks (Jinja.typeText (spellingOf P own types) g) = memberToks P own (scopesOf types g.desc) g := by
  unfold Jinja.typeText memberToks
  cases e : g.shape with
  | recursive => exact absurd e hs
  | single => exact (h.elem hf).toks
  | repeated =>
    dsimp only
    have hj := ((h.elem hf).join between_comma (spells_nil.join between_space
      ((h.repLength hf).join between_greater spells_nil))).toks
    have ha : lexFrom .start (lit (chars! "::EmbeddedProto::RepeatedFieldFixedSize<")) =
      (toks (chars! "::EmbeddedProto::RepeatedFieldFixedSize<"), .start) := by kernel_rfl
    have et : repType (spellingOf P own types) g.desc = chars! "::EmbeddedProto::RepeatedFieldFixedSize<" ++
        (elemType (spellingOf P own types) g.desc ++ ',' :: ([] ++ ' ' :: ((spellingOf P own types).repLength g.desc ++ ['>']))) := by
      unfold repType
      rw [List.append_assoc, List.append_assoc, List.append_assoc]; rfl
    rw [et, toks_eq, lit_append, List.append_assoc, lexFrom_append, ha]
    rw [toks_eq] at hj
    show _ ++ (lexFrom .start (lit _ ++ [.c ' '])).1 = _
    rw [hj]
    simp only [List.append_assoc, List.append_nil, List.nil_append]
    rfl

end

/-! ## Classes -/

theorem mkMessage_regular {own : Str} {fields : List FieldDesc} {oneofs : List Str} (h : FieldsValid fields oneofs)
    (hr : ∀ f ∈ fields, f.typeName = own → f.oneofIndex = none ∨ f.proto3Optional = true) {m : GMessage}
    (hm : mkMessage own fields oneofs = .ok m) : Jinja.Regular m := by
  obtain ⟨m', e, _, _, _, ho, _, _, _⟩ := mkMessage_spec (own := own) h
  obtain ⟨os, e1, _, e3, _⟩ := mkOneofs_spec (own := own) h oneofs 0 (by omega)
  rw [hm] at e
  injection e with e
  subst e
  have em : m.optionalFields = m.fields.filter (·.desc.proto3Optional) ∧ m.oneofs = os := by
    unfold mkMessage at hm
    rw [e1] at hm
    injection hm with hm
    subst hm
    exact ⟨rfl, rfl⟩
  have hmem : ∀ o ∈ m.oneofs, ∀ g ∈ o.fields, ∃ f ∈ fields, g = factory own f (some o.index) ∧ f.oneofIndex = some o.index := by
    intro o hoo g hg
    rw [ho o hoo] at hg
    obtain ⟨f, hf, rfl⟩ := List.mem_map.mp hg
    obtain ⟨h1, h2⟩ := List.mem_filter.mp hf
    exact ⟨f, h1, rfl, by simpa using h2⟩
  refine ⟨em.1, fun o hoo g hg => ?_, fun o hoo g hg => ?_⟩
  · obtain ⟨f, hf, rfl, hi⟩ := hmem o hoo g hg
    have hp := (e3 o (em.2 ▸ hoo)).2.2 f hf hi
    have hn : f.typeName ≠ own := fun hc => by
      rcases hr f hf hc with h | h
      · rw [h] at hi; exact nomatch hi
      · rw [h] at hp; exact nomatch hp
    rw [factory_shape hn, h.single f hf (by rw [hi]; simp)]
    rfl
  · obtain ⟨f, hf, rfl, hi⟩ := hmem o hoo g hg
    exact (e3 o (em.2 ▸ hoo)).2.2 f hf hi

/-- What is known of a class in a header. -/
structure ClassReady (P : Str → List Str) (scope : Str) (c : OutClass) : Prop where
  name : Word c.name
  enums : ∀ e ∈ c.enums, Word e
  params : ∀ p ∈ c.params, Word p
  words : ClassWords P (dot scope c.name) c.types
  regular : Jinja.Regular c.message
  fields : ∀ g ∈ c.message.fields ++ c.message.oneofs.flatMap (·.fields), Word g.desc.name ∧ DottedName g.desc.typeName
  optional : ∀ g ∈ c.message.optionalFields, g ∈ c.message.fields
  oneofs : ∀ o ∈ c.message.oneofs, Word o.name
  ids : ∀ p ∈ c.message.fieldIds, Word p.2

theorem memberTypes_words {T : List Str → List Str} {defs : FType → List (List Str)} {own : Str} {R : FieldDesc → List Str → Prop}
    (hR : ∀ f text, Gen.typeText T defs (pathOf own) f = .ok text → R f text) :
    ∀ {gs : List GField} {r : List (FieldDesc × List Str)}, memberTypes T defs own gs = .ok r → ∀ p ∈ r, R p.1 p.2
  | [], r, h, p, hp => by
    injection h with h
    subst h; exact nomatch hp
  | x :: gs, r, h, p, hp => by
    unfold memberTypes at h
    split at h
    · obtain ⟨text, h1, h⟩ := except_bind_ok h
      obtain ⟨rest, h2, h⟩ := except_bind_ok h
      injection h with h
      subst h
      rcases List.mem_cons.mp hp with rfl | hp
      · exact hR _ _ h1
      · exact memberTypes_words hR h2 p hp
    · exact memberTypes_words hR h p hp

theorem classReady {V : Str → List (Str × Int)} {files : List ReqFile} (hw : WordRequest V files)
    (hv : PrintableRequest files) {P : Str → List Str}
    (hP : register (files.map fun f => (f.desc.package, f.desc.messages)) = .ok P) {f : ReqFile} (hf : f ∈ files)
    {scope : Str} {m : MsgDesc} (hat : At f.desc.package f.desc.messages scope m) {c : OutClass}
    (hc : renderClass P (definitions (files.map (·.desc))) scope m = .ok c) : ClassReady P scope c := by
  obtain ⟨types, hn, _, hm, ht, e⟩ := renderClass_ok hc
  have hwm := hw.messages f hf scope m hat
  have hval := hv.fields f hf scope m hat
  have hpar := templates_words hw hv hP
  have hmem : ∀ g ∈ c.message.fields ++ c.message.oneofs.flatMap (·.fields), g.desc ∈ m.fields := by
    intro g hg
    obtain ⟨m', e', _, _, h4, _⟩ := mkMessage_spec (own := dot scope m.name) hval
    rw [hm] at e'
    injection e' with e'
    subst e'
    refine h4.mem_iff.mp ?_
    rcases List.mem_append.mp hg with hg | hg
    · exact List.mem_append_left _ (List.mem_map_of_mem hg)
    · obtain ⟨o, ho, hg⟩ := List.mem_flatMap.mp hg
      exact List.mem_append_right _ (List.mem_flatMap.mpr ⟨o, ho, List.mem_map_of_mem hg⟩)
  have hreg := mkMessage_regular hval (hv.oneofs f hf scope m hat) hm
  refine ⟨hn ▸ hwm.name, ?_, ?_, ⟨?_, hpar, ?_⟩, hreg, fun g hg => hwm.fields _ (hmem g hg), ?_, ?_, ?_⟩
  · rw [e]; exact hwm.enums
  · rw [e]; exact hpar _
  · rw [hn, simple_dot hwm.name.dot]; exact hwm.name
  · rw [e]
    exact memberTypes_words (R := fun _ p => p ≠ [] ∧ ∀ x ∈ p, Word x) (fun _ _ h => hw.typeText h) ht
  · intro g hg
    rw [hreg.optional] at hg
    exact (List.mem_filter.mp hg).1
  · intro o ho
    have := (mkOneofs_names m.oneofs 0 (own := dot scope m.name) (fields := m.fields) (os := c.message.oneofs) (by
      unfold mkMessage at hm
      obtain ⟨os, h1, h2⟩ := except_bind_ok hm
      injection h2 with h2
      rw [h1, ← h2])).subset (List.mem_map_of_mem ho)
    exact hwm.oneofs _ this
  · intro p hp
    obtain ⟨m', e', _, _, _, _, _, _, h8⟩ := mkMessage_spec (own := dot scope m.name) hval
    rw [hm] at e'
    injection e' with e'
    subst e'
    obtain ⟨fd, hfd, rfl⟩ := List.mem_map.mp (h8.mem_iff.mp hp)
    exact (hwm.fields fd hfd).1.upper

/-! ## Texts -/

theorem allLexes_map {α : Type} (f : α → Text) (g : α → List Tok) (h : ∀ a, Lexes (f a) (g a)) :
    ∀ l : List α, AllLexes (l.map f) (l.map g)
  | [] => .nil
  | a :: l => .cons (h a) (allLexes_map f g h l)

theorem lexes_enumFile (V : Str → List (Str × Int)) (ns name : Str) : Lexes (enumFile V ns name) (enumToks V ns name) := lexes_enum

theorem good_enumFile {V : Str → List (Str × Int)} (hV : ∀ t, ∀ v ∈ V t, Word v.1) {ns name : Str} (h : Word name) :
    Good (enumFile V ns name) := by
  refine good_enum ⟨h, fun _ h => (nomatch h), fun _ h => (nomatch h), fun _ h => (nomatch h), fun _ h => (nomatch h), fun _ h => (nomatch h), fun _ h => (nomatch h), fun _ h => (nomatch h), ?_⟩
  intro p hp
  obtain ⟨v, hv, rfl⟩ := List.mem_map.mp hp
  exact ⟨hV _ v hv, (spells_int v.2).whole⟩

theorem whole_typeName {t : Str} (h : DottedName t) : Whole t := Jinja.DottedName.whole h

theorem ClassReady.fieldGood {P : Str → List Str} {scope : Str} {c : OutClass} (h : ClassReady P scope c) {g : GField}
    (hg : g ∈ c.message.fields ++ c.message.oneofs.flatMap (·.fields)) :
    FieldGood (spellingOf P (dot scope c.name) c.types) g :=
  ⟨(h.fields g hg).1, whole_typeName (h.fields g hg).2, h.words.good (h.fields g hg).1⟩

theorem ClassReady.good {P : Str → List Str} {scope : Str} {c : OutClass} (h : ClassReady P scope c) {enums msgs : List Text}
    (he : ∀ t ∈ enums, Good t) (hm : ∀ t ∈ msgs, Good t) :
    Typedef.Good (spellingOf P (dot scope c.name) c.types)
      { name := c.name, m := c.message, templates := paramTexts c.params, enums := enums, msgs := msgs, values := [] } where
  name := h.name
  fields g hg := h.fieldGood (List.mem_append_left _ hg)
  optional g hg := h.fieldGood (List.mem_append_left _ (h.optional g hg))
  oneofs o ho := ⟨h.oneofs o ho, fun g hg => h.fieldGood (List.mem_append_right _ (List.mem_flatMap.mpr ⟨o, ho, hg⟩))⟩
  ids := h.ids
  templates p hp := by
    obtain ⟨q, hq, rfl⟩ := List.mem_map.mp hp
    exact ⟨(spells_word word_uint32).whole, h.params q hq⟩
  enums := he
  msgs := hm
  values _ h := nomatch h

section
variable {P : Str → List Str} {V : Str → List (Str × Int)} (hV : ∀ t, ∀ v ∈ V t, Word v.1)
include hV

mutual
theorem class_text (ns : Str) : ∀ (c : OutClass), (∀ scope x, OutAt ns [c] scope x → ClassReady P scope x) →
    Lexes (classText P V ns c) (classToks P V ns c) ∧ Good (classText P V ns c)
  | .mk name params enums nested message types, h => by
    have hc := h ns _ (.here List.mem_cons_self)
    have hn := classes_text (dot ns name) nested fun scope x hx =>
      h scope x (.inside (d := .mk name params enums nested message types) List.mem_cons_self hx)
    unfold classText classToks
    refine ⟨lexes_message hc.regular (allLexes_map _ _ (lexes_enumFile V _) enums) hn.1, ?_⟩
    refine good_message (hc.good (fun t ht => ?_) hn.2)
    obtain ⟨e, he, rfl⟩ := List.mem_map.mp ht
    exact good_enumFile hV (hc.enums e he)
theorem classes_text (ns : Str) : ∀ (cs : List OutClass), (∀ scope x, OutAt ns cs scope x → ClassReady P scope x) →
    AllLexes (classTexts P V ns cs) (classesToks P V ns cs) ∧ ∀ t ∈ classTexts P V ns cs, Good t
  | [], _ => ⟨.nil, fun _ h => nomatch h⟩
  | c :: cs, h => by
    have h1 := class_text ns c fun scope x hx => h scope x (by
      cases hx with
      | here hm => exact .here (List.mem_singleton.mp hm ▸ List.mem_cons_self)
      | inside hm hx => exact .inside (List.mem_singleton.mp hm ▸ List.mem_cons_self) hx)
    have h2 := classes_text ns cs fun scope x hx => h scope x (by
      cases hx with
      | here hm => exact .here (List.mem_cons_of_mem _ hm)
      | inside hm hx => exact .inside (List.mem_cons_of_mem _ hm) hx)
    refine ⟨.cons h1.1 h2.1, fun t ht => ?_⟩
    rcases List.mem_cons.mp ht with rfl | ht
    · exact h1.2
    · exact h2.2 t ht
end

end

/-! ## Files -/

theorem plain_upper {x : Str} (h : Plain x) : Plain (upper x) := by
  intro c hc
  obtain ⟨d, hd, rfl⟩ := List.mem_map.mp hc
  have hd' := h d hd
  have key : ∀ e : Char, e.isUpper = false → d ≠ e → d.toUpper ≠ e := by
    intro e he hne hu
    unfold Char.toUpper at hu
    split at hu
    · rename_i hr
      have : e.isUpper = true := by
        rw [← hu]
        unfold Char.isUpper
        have h1 := hr.1
        have h2 := hr.2
        simp only [UInt32.le_iff_toNat_le] at h1 h2 ⊢
        simp at h1 h2 ⊢
        omega
      rw [he] at this; exact nomatch this
    · exact hne hu
  exact ⟨key _ (by decide) hd'.1, key _ (by decide) hd'.2⟩

theorem splitRoot_sub (p : Str) : ∀ c ∈ splitRoot p, c ∈ p := by
  intro c hc
  unfold splitRoot at hc
  split at hc
  · rename_i root hr
    split at hc
    · have : c ∈ root := List.mem_reverse.mp hc
      exact List.mem_reverse.mp ((List.dropWhile_sublist _).subset (hr ▸ List.mem_cons_of_mem _ this))
    · exact hc
  · exact hc

theorem plain_root {x : Str} (h : Plain x) : Plain (splitRoot x) := fun c hc => h c (splitRoot_sub x c hc)

theorem plain_stem {x : Str} (h : Plain x) : Plain (guardStem x) := by
  refine plain_upper fun c hc => ?_
  obtain ⟨d, hd, rfl⟩ := List.mem_map.mp hc
  split
  · exact ⟨by decide, by decide⟩
  · exact plain_root h d hd

theorem plain_header {x : Str} (h : Plain x) : Plain (headerName x) := by
  intro c hc
  rcases List.mem_append.mp hc with hc | hc
  · exact plain_root h c hc
  · have hc : c ∈ ['.', 'h'] := hc
    rcases List.mem_cons.mp hc with rfl | hc
    · exact ⟨by decide, by decide⟩
    · rw [List.mem_singleton.mp hc]; exact ⟨by decide, by decide⟩

theorem chars_append (a b : Text) : chars (a ++ b) = chars a ++ chars b := List.flatMap_append

/-- The text of one file. -/
theorem file_text {V : Str → List (Str × Int)} {files : List ReqFile} (hw : WordRequest V files) (hv : PrintableRequest files)
    {P : Str → List Str} (hP : register (files.map fun f => (f.desc.package, f.desc.messages)) = .ok P) {f : ReqFile}
    (hf : f ∈ files) {o : OutFile} (ho : renderFile P (definitions (files.map (·.desc))) f = .ok o) :
    Tokens (chars (headerText (fileOfOut P V f.req.name o)) ++ ['\n']) ((headerToks P V o).flatMap Tok.expand) := by
  obtain ⟨h1, h2, h3, h4⟩ := renderFile_ok ho
  have hcs := classes_text (P := P) hw.values o.package o.classes fun scope c hc => by
    rw [h2] at hc
    obtain ⟨m, hat, hr⟩ := hc.at h4
    exact classReady hw hv hP hf hat hr
  have hen : ∀ e ∈ o.enums, Word e := h3 ▸ hw.enums f hf
  have hlex := lexes_header (F := fileOfOut P V f.req.name o)
    (allLexes_map _ _ (lexes_enumFile V o.package) o.enums) hcs.1
  have hgood : FileText.Good (fileOfOut P V f.req.name o) := by
    refine ⟨(hw.files f hf).1, plain_stem (hw.files f hf).1, ?_, ?_, ?_, hcs.2⟩
    · show ∀ d ∈ o.header.includes, Plain d
      rw [h1]
      intro d hd
      obtain ⟨x, hx, rfl⟩ := List.mem_map.mp hd
      exact plain_header ((hw.files f hf).2 x (List.mem_filter.mp hx).1)
    · show ∀ x ∈ pathOf o.package, Word x
      rw [h2]; exact (hw.package f hf).2
    · intro t ht
      obtain ⟨e, he, rfl⟩ := List.mem_map.mp ht
      exact good_enumFile hw.values (hen e he)
  have ht := hlex.tokens ((good_header hgood).append (good_lit ['\n']))
  rw [chars_append] at ht
  have eg : guardStem f.req.name ++ chars! "_H" = o.header.guard := by rw [h1]; rfl
  unfold headerToks
  rw [← eg]
  exact ht

end EP.Gen
