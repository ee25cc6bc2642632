import Verif.Proof.HeaderChars
import Verif.Proof.HeaderErase

/-!
# The names in a header are names
-/

namespace EP.Gen.Jinja

open Cpp

/-! ## Spellings -/

theorem Whole.cases {t : Str} (h : Whole t) :
    (∃ e, lexFrom .start (lit t) = (e, .start)) ∨ (∃ e b, lexFrom .start (lit t) = (e, .ident b)) := by
  unfold Whole at h
  cases hl : lexFrom .start (lit t) with
  | mk e s =>
    rw [hl] at h
    cases s with
    | start => exact .inl ⟨e, rfl⟩
    | ident b => exact .inr ⟨e, b, rfl⟩
    | _ => exact h.elim

theorem whole_of {t : Str} {e : List Tok} (h : lexFrom .start (lit t) = (e, .start)) : Whole t := by
  unfold Whole; rw [h]; trivial

theorem lit_append (a b : Str) : lit (a ++ b) = lit a ++ lit b := List.map_append

/-- A spelling in brackets. -/
theorem Whole.bracket {t a z : Str} {c : Char} {e r : List Tok} (h : Whole t)
    (ha : lexFrom .start (lit a) = (e, .start)) (hc : identChar c = false)
    (hz : lexFrom (startStep (.c c)).2 (lit z) = (r, .start)) :
    ∃ u, lexFrom .start (lit (a ++ t ++ (c :: z))) = (u, .start) := by
  rw [lit_append, lit_append, lexFrom_append, lexFrom_append, ha]
  have hcz : ∀ b, lexFrom (.ident b) (lit (c :: z)) = (.id (flat b []) :: ((startStep (.c c)).1 ++ r), .start) := by
    intro b
    show lexFrom _ (.c c :: lit z) = _
    simp [lexFrom, lexStep, hc, hz]
  have hcs : lexFrom .start (lit (c :: z)) = ((startStep (.c c)).1 ++ r, .start) := by
    show lexFrom _ (.c c :: lit z) = _
    simp [lexFrom, lexStep, hz]
  rcases h.cases with ⟨e, he⟩ | ⟨e, b, he⟩
  · simp only [he, hcs]; exact ⟨_, rfl⟩
  · simp only [he, hcz]; exact ⟨_, rfl⟩

theorem whole_cppType (s : ScalarTy) : Whole (cppType s) := by cases s <;> exact trivial
theorem whole_cstdintType (s : ScalarTy) : Whole (cstdintType s) := by cases s <;> exact trivial
theorem whole_defaultValue (s : ScalarTy) : Whole (defaultValue s) := by cases s <;> exact trivial

/-- The spellings for a field. -/
structure Spelling.Good (S : Spelling) (f : FieldDesc) : Prop where
  message : Whole (S.message f)
  short : Whole (S.short f)
  enum : Whole (S.enum f)
  length : Whole (S.length f)
  repLength : Whole (S.repLength f)

variable {S : Spelling}

theorem Spelling.Good.elem {f : FieldDesc} (h : S.Good f) : Whole (elemType S f) := by
  unfold elemType
  cases f.type with
  | scalar s => exact whole_cppType s
  | enum =>
    obtain ⟨u, hu⟩ := h.enum.bracket (a := chars! "EmbeddedProto::enumeration<") (c := '>') (z := []) rfl rfl rfl
    exact whole_of hu
  | message => exact h.message
  | string =>
    obtain ⟨u, hu⟩ := h.length.bracket (a := chars! "::EmbeddedProto::FieldString<") (c := '>') (z := []) rfl rfl rfl
    exact whole_of hu
  | bytes =>
    obtain ⟨u, hu⟩ := h.length.bracket (a := chars! "::EmbeddedProto::FieldBytes<") (c := '>') (z := []) rfl rfl rfl
    exact whole_of hu

theorem Spelling.Good.rep {f : FieldDesc} (h : S.Good f) : Whole (repType S f) := by
  obtain ⟨u, hu⟩ := h.elem.bracket (a := chars! "::EmbeddedProto::RepeatedFieldFixedSize<") (c := ',') (z := chars! " ")
    rfl rfl rfl
  obtain ⟨v, hv⟩ := h.repLength.bracket (c := '>') (z := []) hu rfl rfl
  have : repType S f = chars! "::EmbeddedProto::RepeatedFieldFixedSize<" ++ elemType S f ++ chars! ", " ++ S.repLength f ++
      chars! ">" := rfl
  exact whole_of (this ▸ hv)

theorem Spelling.Good.zero {f : FieldDesc} (h : S.Good f) :
    Whole (chars! "static_cast<" ++ S.enum f ++ chars! ">(0)") := by
  obtain ⟨u, hu⟩ := h.enum.bracket (a := chars! "static_cast<") (c := '>') (z := chars! "(0)") rfl rfl rfl
  exact whole_of hu

/-! ## Names -/

theorem identChar_lt {c : Char} (h : identChar c = true) : c.toNat < 128 := by
  have hd : ∀ n, n < 128 → n < 128 := fun _ h => h
  unfold identChar Char.isAlphanum Char.isAlpha Char.isUpper Char.isLower Char.isDigit at h
  simp only [Bool.or_eq_true, Bool.and_eq_true, decide_eq_true_eq, beq_iff_eq, ge_iff_le] at h
  rcases h with ((h | h) | h) | h
  · exact Nat.lt_of_le_of_lt (UInt32.le_iff_toNat_le.mp h.2) (by decide)
  · exact Nat.lt_of_le_of_lt (UInt32.le_iff_toNat_le.mp h.2) (by decide)
  · exact Nat.lt_of_le_of_lt (UInt32.le_iff_toNat_le.mp h.2) (by decide)
  · subst h; decide

theorem identChar_table : ∀ n, n < 128 → identChar (Char.ofNat n) = true → identChar (Char.ofNat n).toUpper = true := by
  decide +kernel

theorem identChar_upper {c : Char} (h : identChar c = true) : identChar c.toUpper = true := by
  have := identChar_table c.toNat (identChar_lt h)
  rw [Char.ofNat_toNat] at this
  exact this h

theorem Word.upper {x : Str} (h : Word x) : Word (Gen.upper x) := by
  refine ⟨?_, ?_⟩
  · intro e
    exact h.1 (List.map_eq_nil_iff.mp e)
  · intro c hc
    obtain ⟨d, hd, rfl⟩ := List.mem_map.mp hc
    exact identChar_upper (h.2 d hd)

theorem identChar_digit {c : Char} (h : c.isDigit = true) : identChar c = true := by
  unfold identChar Char.isAlphanum
  simp [h]

theorem word_repr (n : Nat) : Word (Nat.repr n).toList := by
  rw [Nat.toList_repr]
  exact ⟨Nat.toDigits_ne_nil, fun c hc => identChar_digit (Nat.isDigit_of_mem_toDigits (by decide) (by decide) hc)⟩

/-! ## Values -/

structure FieldGood (S : Spelling) (g : GField) : Prop where
  name : Word g.desc.name
  typeName : Whole g.desc.typeName
  spelling : S.Good g.desc

structure OneofGood (S : Spelling) (o : GOneof) : Prop where
  name : Word o.name
  fields : ∀ g ∈ o.fields, FieldGood S g

/-- What the definition is made of. -/
structure Typedef.Good (S : Spelling) (T : Typedef) : Prop where
  name : Word T.name
  fields : ∀ g ∈ T.m.fields, FieldGood S g
  optional : ∀ g ∈ T.m.optionalFields, FieldGood S g
  oneofs : ∀ o ∈ T.m.oneofs, OneofGood S o
  ids : ∀ p ∈ T.m.fieldIds, Word p.2
  templates : ∀ p ∈ T.templates, Whole p.1 ∧ Word p.2
  enums : ∀ t ∈ T.enums, Jinja.Good t
  msgs : ∀ t ∈ T.msgs, Jinja.Good t
  values : ∀ p ∈ T.values, Word p.1 ∧ Whole p.2

/-- What a file is made of. -/
structure FileText.Good (F : FileText) : Prop where
  name : Plain F.name
  guard : Plain F.guard
  dependencies : ∀ d ∈ F.dependencies, Plain d
  spaces : ∀ x ∈ F.spaces, Word x
  enums : ∀ t ∈ F.enums, Jinja.Good t
  msgs : ∀ t ∈ F.msgs, Jinja.Good t

inductive Val.Good (S : Spelling) : Val → Prop where
  | none : Val.Good S .none
  | undef : Val.Good S .undef
  | bool (b : Bool) : Val.Good S (.bool b)
  | nat (n : Nat) : Val.Good S (.nat n)
  | text {t : Text} : Jinja.Good t → Val.Good S (.text t)
  | field {o : Option GOneof} {g : GField} : (∀ x, o = some x → OneofGood S x) → FieldGood S g → Val.Good S (.field o g)
  | desc {g : GField} : FieldGood S g → Val.Good S (.desc g)
  | oneof {o : GOneof} : OneofGood S o → Val.Good S (.oneof o)
  | typedef : Val.Good S .typedef
  | nested {t : Text} : Jinja.Good t → Val.Good S (.nested t)
  | param {t n : Str} : Whole t → Word n → Val.Good S (.param t n)
  | pair {p : Nat × Str} : Word p.2 → Val.Good S (.pair p)
  | value {n k : Str} : Word n → Whole k → Val.Good S (.value n k)
  | loop (f l : Bool) : Val.Good S (.loop f l)
  | list {l : List Val} : (∀ v ∈ l, Val.Good S v) → Val.Good S (.list l)
  | environment : Val.Good S .environment
  | macros : Val.Good S .macros
  | file {F : FileText} : F.Good → Val.Good S (.file F)
  | fileDesc {F : FileText} : F.Good → Val.Good S (.fileDesc F)
  | method {v : Val} {a : Attr} : Val.Good S v → Val.Good S (.method v a)

theorem good_lit (s : Str) : Good (lit s) := by
  intro x hx
  obtain ⟨c, _, rfl⟩ := List.mem_map.mp hx
  trivial

theorem Good.append {a b : Text} (ha : Good a) (hb : Good b) : Good (a ++ b) := by
  intro s hs
  rcases List.mem_append.mp hs with h | h
  · exact ha s h
  · exact hb s h

theorem good_nil : Good [] := nofun

theorem good_cons {s : Sym} {t : Text} (hs : s.Good) (ht : Good t) : Good (s :: t) := by
  intro x hx
  rcases List.mem_cons.mp hx with rfl | h
  · exact hs
  · exact ht x h

theorem good_nm {x : Str} (h : Word x) : Good [.nm x] := good_cons h good_nil
theorem good_raw {x : Str} (h : Whole x) : Good [.raw x] := good_cons h good_nil

theorem good_path {x : Str} (h : Plain x) : Good [.path x] := good_cons h good_nil

theorem good_padding (n : Nat) (s : Sym) (r : Text) : Good (padding n s r) := by
  unfold padding
  split
  · split
    · intro x hx
      rw [List.eq_of_mem_replicate hx]
      trivial
    · exact good_nil
  · exact good_nil

theorem Good.indent {n : Nat} : ∀ {t : Text}, Good t → Good (indentText n t)
  | [], _ => good_nil
  | s :: _, h => good_cons (h s List.mem_cons_self)
      ((good_padding n s _).append (Good.indent fun x hx => h x (List.mem_cons_of_mem _ hx)))

theorem Good.rstrip : ∀ {t : Text}, Good t → Good (rstrip t)
  | [], _ => good_nil
  | s :: t, h => by
    have hs := h s List.mem_cons_self
    have ih := Good.rstrip fun x hx => h x (List.mem_cons_of_mem _ hx)
    unfold Jinja.rstrip
    split
    · split
      · exact good_nil
      · exact good_cons hs good_nil
    · rename_i e
      rw [e] at ih
      exact good_cons hs ih

theorem upperSym_good {s r : Sym} (hs : s.Good) (h : upperSym s = some r) : r.Good := by
  cases s with
  | c ch => injection h with h; subst h; trivial
  | nm x => injection h with h; subst h; exact Word.upper hs
  | raw t => exact nomatch h
  | path t => exact nomatch h

theorem mapM_good : ∀ {t r : Text}, Good t → t.mapM upperSym = some r → Good r
  | [], r, _, h => by
    injection h with h; subst h; exact good_nil
  | s :: t, r, hg, h => by
    rw [List.mapM_cons] at h
    cases hs : upperSym s with
    | none => rw [hs] at h; exact nomatch h
    | some s' =>
      rw [hs] at h
      cases ht : t.mapM upperSym with
      | none => rw [ht] at h; exact nomatch h
      | some t' =>
        rw [ht] at h
        injection h with h
        subst h
        exact good_cons (upperSym_good (hg s List.mem_cons_self) hs)
          (mapM_good (fun x hx => hg x (List.mem_cons_of_mem _ hx)) ht)

theorem good_upperText {t : Text} (h : Good t) : (upperText t).Good S := by
  unfold upperText
  split
  · rename_i r hr
    exact .text (mapM_good h hr)
  · exact .undef

theorem Val.Good.show {v : Val} (h : v.Good S) : Jinja.Good v.show := by
  cases h with
  | text h => exact h
  | nat n => exact good_nm (word_repr n)
  | bool b => exact good_lit _
  | method h => exact good_lit _
  | _ => exact good_nil

theorem good_list {α : Type} {l : List α} {f : α → Val} (h : ∀ a ∈ l, (f a).Good S) : (Val.list (l.map f)).Good S := by
  refine .list fun v hv => ?_
  obtain ⟨a, ha, rfl⟩ := List.mem_map.mp hv
  exact h a ha

theorem good_default {g : GField} (h : FieldGood S g) : Good (defaultText S g) := by
  unfold defaultText
  split
  · exact good_raw (whole_defaultValue _)
  · exact good_raw h.spelling.zero
  · exact good_nil

theorem good_type {g : GField} (h : FieldGood S g) (hs : g.shape ≠ .recursive) : Whole (typeText S g) := by
  unfold typeText
  split
  · rename_i e; exact absurd e hs
  · exact h.spelling.rep
  · exact h.spelling.elem

section
variable {T : Typedef} (hT : T.Good S)
include hT

theorem good_getAttr {v : Val} (hv : v.Good S) (a : Attr) : (getAttr T S v a).Good S := by
  unfold getAttr
  split
  · exact .text (good_nm hT.name)
  · exact good_list fun g hg => .field nofun (hT.fields g hg)
  · exact good_list fun g hg => .field nofun (hT.optional g hg)
  · exact good_list fun o ho => .oneof (hT.oneofs o ho)
  · exact good_list fun t ht => .nested (hT.enums t ht)
  · exact good_list fun t ht => .nested (hT.msgs t ht)
  · exact good_list fun p hp => .pair (hT.ids p hp)
  · cases hv with | field ho hg => exact .text (good_nm hg.name)
  · cases hv with | field ho hg => exact .text (good_cons hg.name (good_lit ['_']))
  · cases hv with | field ho hg => exact .text (good_nm hg.name.upper)
  · exact .bool _
  · cases hv with
    | field ho hg =>
      split
      · exact .oneof (ho _ rfl)
      · exact .none
  · exact .bool _
  · cases hv with
    | field ho hg =>
      split
      · exact .text (good_raw hg.spelling.rep)
      · exact .undef
  · cases hv with | field ho hg => exact .desc hg
  · cases hv with
    | desc hg =>
      split
      · exact .text (good_lit _)
      · exact .text (good_raw hg.typeName)
  · cases hv with | oneof ho => exact good_list fun g hg => .field (fun x e => by injection e with e; subst e; exact ho) (ho.fields g hg)
  · exact .bool _
  · exact .bool _
  · cases hv with | value hn hk => exact .text (good_nm hn)
  · cases hv with | value hn hk => exact .text (good_raw hk)
  · cases hv with | file h => exact .fileDesc h
  · cases hv with | file h => exact good_list fun t ht => .nested (h.enums t ht)
  · cases hv with | file h => exact good_list fun t ht => .nested (h.msgs t ht)
  · cases hv with | fileDesc h => exact .text (good_path h.name)
  · exact .method hv

theorem good_callMethod {v : Val} (hv : v.Good S) (a : Attr) : (callMethod T S v a).Good S := by
  unfold callMethod
  split
  · exact .text (good_nm hT.name)
  · exact good_list fun p hp => .param (hT.templates p hp).1 (hT.templates p hp).2
  · exact good_list fun p hp => .value (hT.values p hp).1 (hT.values p hp).2
  · cases hv with | field ho hg => exact .text (good_nm hg.name)
  · cases hv with
    | field ho hg =>
      split
      · exact .text (good_cons (ho _ rfl).name (good_cons trivial (good_cons trivial (good_cons hg.name (good_lit ['_'])))))
      · exact .text (good_cons hg.name (good_lit ['_']))
  · cases hv with | field ho hg => exact .text (good_nm hg.name.upper)
  · cases hv with | field ho hg => exact .text (good_default hg)
  · cases hv with
    | field ho hg =>
      split
      · exact .text (good_lit _)
      · rename_i hn
        exact .text (good_raw (good_type hg hn))
  · cases hv with
    | field ho hg =>
      split
      · exact .text (good_lit _)
      · exact .text (good_lit _)
      · exact .text (good_raw hg.spelling.short)
      · exact .text (good_raw hg.spelling.rep)
      · exact .text good_nil
  · cases hv with
    | field ho hg =>
      split
      · exact .text (good_raw (whole_cstdintType _))
      · exact .undef
  · cases hv with
    | field ho hg =>
      split
      · exact .text (good_raw hg.spelling.enum)
      · exact .undef
  · cases hv with
    | field ho hg =>
      split
      · exact .text (good_raw hg.spelling.elem)
      · exact .undef
  · exact .bool _
  · cases hv with
    | field ho hg =>
      split
      · exact .text (good_nm (ho _ rfl).name)
      · exact .undef
  · cases hv with
    | field ho hg =>
      split
      · exact .text ((good_lit _).append (good_cons (ho _ rfl).name (good_lit ['_'])))
      · exact .undef
  · cases hv with | oneof ho => exact .text (good_nm ho.name)
  · cases hv with | oneof ho => exact .text (good_cons ho.name (good_lit ['_']))
  · cases hv with | oneof ho => exact .text ((good_lit _).append (good_cons ho.name (good_lit ['_'])))
  · cases hv with | oneof ho => exact good_list fun g hg => .field (fun x e => by injection e with e; subst e; exact ho) (ho.fields g hg)
  · exact .bool _
  · cases hv with | text h => exact good_upperText h
  · cases hv with | file h => exact .text (good_path h.guard)
  · cases hv with | file h => exact good_list fun d hd => .text (good_path (h.dependencies d hd))
  · cases hv with | file h => exact good_list fun x hx => .text (good_nm (h.spaces x hx))
  · exact .undef

omit hT in
theorem good_indexVal {v i : Val} (hv : v.Good S) : (indexVal v i).Good S := by
  unfold indexVal
  split
  · cases hv with
    | param ht hn =>
      split
      · exact .text (good_raw ht)
      · split
        · exact .text (good_nm hn)
        · exact .undef
  · exact .nat _
  · cases hv with | pair h => exact .text (good_nm h)
  · exact .undef

omit hT in
theorem good_filter {v : Val} (hv : v.Good S) (f : Filter) : (applyFilter f v).Good S := by
  unfold applyFilter
  split
  · cases hv with | text h => exact .text h.indent
  · cases hv with | text h => exact good_upperText h
  · exact .text (good_lit _)
  · exact .nat _
  · cases hv with | list h => exact .list fun v hv => h v (List.mem_reverse.mp hv)
  · exact .undef

variable {R : Val → Attr → Val → Text} (hR : ∀ v a x, v.Good S → x.Good S → Good (R v a x))
include hR

omit hT in
theorem good_callWith {f x : Val} (hf : f.Good S) (hx : x.Good S) : (callWith R f x).Good S := by
  unfold callWith
  split
  · cases hf with | method hv => exact .text (hR _ _ _ hv hx)
  · exact .undef

theorem good_eval {env : Env} (he : ∀ v, (env v).Good S) : ∀ e : Ex, (eval T S R env e).Good S
  | .str s => .text (good_lit s)
  | .nat n => .nat n
  | .var v => he v
  | .attr e a => good_getAttr hT (good_eval he e) a
  | .index e i => good_indexVal (good_eval he e)
  | .call e => by
    have h := good_eval he e
    unfold eval
    split
    · rename_i v a hv
      rw [hv] at h
      cases h with | method h => exact good_callMethod hT h a
    · exact .undef
  | .callWith e x => good_callWith hR (good_eval he e) (good_eval he x)
  | .callWith2 e x _ => good_callWith hR (good_eval he e) (good_eval he x)
  | .filter e f => good_filter (good_eval he e) f
  | .isNone e => by
    unfold eval
    split <;> exact .bool _
  | .isDefined e => by
    unfold eval
    split <;> exact .bool _
  | .not e => .bool _
  | .and a b => by
    unfold eval
    split
    · exact good_eval he b
    · exact good_eval he a
  | .or a b => by
    unfold eval
    split
    · exact good_eval he a
    · exact good_eval he b
  | .eq a b => .bool _
  | .ne a b => .bool _
  | .gt a b => by
    unfold eval
    split
    · exact .bool _
    · exact .undef
  | .mem a b => .bool _
  | .cond c a b => by
    unfold eval
    split
    · exact good_eval he a
    · exact good_eval he b

omit hR hT in
theorem good_loop {f : Bool → Bool → Val → Text} (h : ∀ b c v, v.Good S → Good (f b c v)) :
    ∀ (l : List Val) (first : Bool), (∀ v ∈ l, v.Good S) → Good (loopText f first l)
  | [], _, _ => good_nil
  | v :: l, _, hl => (h _ _ _ (hl v List.mem_cons_self)).append
      (good_loop h l false fun v hv => hl v (List.mem_cons_of_mem _ hv))

omit hR hT in
theorem good_set {env : Env} (he : ∀ v, (env v).Good S) {x : Val} (hx : x.Good S) (v : Var) :
    ∀ w, (env.set v x w).Good S := by
  intro w
  unfold Env.set
  split
  · exact hx
  · exact he w

theorem good_render : ∀ (n : Nodes) {env : Env}, (∀ v, (env v).Good S) → Good (render T S R env n)
  | .nil, _, _ => good_nil
  | .text s r, _, he => (good_lit s).append (good_render r he)
  | .expr e r, _, he => (good_eval hT hR he e).show.append (good_render r he)
  | .ite c a b r, env, he => by
    refine Good.append ?_ (good_render r he)
    split
    · exact good_render a he
    · exact good_render b he
  | .loop v e b r, env, he => by
    refine Good.append ?_ (good_render r he)
    refine good_loop (fun b' c x hx => good_render b (good_set (good_set he hx v) (.loop b' c) .loop)) _ _ ?_
    have := good_eval hT hR he e
    intro x hx
    cases hv : eval T S R env e with
    | list l =>
      rw [hv] at this hx
      cases this with | list h => exact h x hx
    | _ => rw [hv] at hx; exact nomatch hx
  | .defn _ _ r, _, he => good_render r he

end

section
variable {T : Typedef} (hT : T.Good S)
include hT

theorem good_renderField {o : Option GOneof} {g : GField} (hv : (Val.field o g).Good S) (file : List Str) :
    Good (renderField T S o g file) := by
  refine good_render hT (fun _ _ _ _ _ => good_nil) _ fun v => ?_
  unfold fieldEnv
  split
  · exact hv
  · exact .environment
  · exact .undef

theorem good_renderMethod {v : Val} (hv : v.Good S) (a : Attr) : Good (renderMethod T S v a) := by
  unfold renderMethod
  split
  · exact good_renderField hT hv _
  · split
    · exact good_renderField hT hv _
    · exact good_nil
  · split
    · split
      · exact (good_renderField hT hv _).rstrip
      · exact good_renderField hT hv _
    · exact good_nil
  · cases hv with | nested h => exact h
  · exact good_nil

theorem good_renderCall {v x : Val} (hv : v.Good S) (hx : x.Good S) (a : Attr) : Good (renderCall T S v a x) := by
  unfold renderCall
  split
  · refine good_render hT (fun v a _ hv _ => good_renderMethod hT hv a) _ fun v => ?_
    unfold macroEnv
    split
    · exact hx
    · exact .environment
    · exact .undef
  · exact good_renderMethod hT hv a

omit hT in
theorem good_typedefEnv (v : Var) : (typedefEnv v).Good S := by
  unfold typedefEnv
  split
  · exact .typedef
  · exact .environment
  · exact .macros
  · exact .undef

theorem good_message : Good (messageText T S) :=
  good_render hT (fun _ a _ hv hx => good_renderCall hT hv hx a) _ fun v => good_typedefEnv v

theorem good_enum : Good (enumText T S) :=
  good_render hT (fun _ a _ hv hx => good_renderCall hT hv hx a) _ fun v => good_typedefEnv v

end

theorem good_noTypedef : noTypedef.Good noSpelling :=
  ⟨⟨by decide, by decide⟩, nofun, nofun, nofun, nofun, nofun, nofun, nofun, nofun⟩

theorem good_header {F : FileText} (h : F.Good) : Good (headerText F) := by
  refine good_render good_noTypedef (fun _ a _ hv hx => good_renderCall good_noTypedef hv hx a) _ fun v => ?_
  unfold fileEnv
  split
  · exact .file h
  · exact .environment
  · exact .undef

end EP.Gen.Jinja
