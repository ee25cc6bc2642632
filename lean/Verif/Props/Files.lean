import Verif.Proof.Files

/-!
# C74–C76: headers, enums and the syntax of files
-/

namespace EP
open Gen

/-- Every header can be included, and that compiles the headers of all files it imports, directly or not, each once and
after those that it imports; the guards are names of macros, and no header has the name of one of the library. -/
def C74_Statement (request : List ProtoReq) : Prop :=
  RequestValid request → (∀ f ∈ request, ProtoName f.name ∧ f.syntaxName ≠ "proto2".toList) →
    ∃ H, headersOf request = .ok H ∧ (∀ h ∈ H, MacroName h.guard ∧ h.name ∉ libraryHeaders) ∧
      ∀ f ∈ request, ¬ IsOptions f.name → f.name ≠ "google/protobuf/descriptor.proto".toList →
        ∃ u, includeHeader H (request.length + 1) (stem f.name ++ ".h".toList) ⟨[], []⟩ = some u ∧ u.text.Nodup ∧
          (∀ x, x ∈ u.text ↔ ∃ g, Imports request f.name g ∧ x = stem g ++ ".h".toList) ∧
          ∀ l1 l2 g, g ∈ request → u.text = l1 ++ (stem g.name ++ ".h".toList) :: l2 →
            ∀ d ∈ g.dependency, ¬ IsOptions d → stem d ++ ".h".toList ∈ l1

/-- A name without regard to upper and lower case, where a folder is the same as an underscore. -/
def loose (name : Str) : Str := name.map fun c => if c = '/' then '_' else c.toUpper

/-- Names of files for which the headers are right. -/
structure PlainFiles (request : List ProtoReq) : Prop where
  options : ∀ f ∈ request, "embedded_proto_options.proto".toList <:+: f.name → IsOptions f.name
  google : ∀ f ∈ request, "google/protobuf/descriptor.proto".toList <:+: f.name →
    f.name = "google/protobuf/descriptor.proto".toList
  distinct : ∀ f ∈ request, ∀ g ∈ request, loose f.name = loose g.name → f.name = g.name
  letters : ∀ f ∈ request, (∀ c ∈ stem f.name, c.isAlphanum ∨ c = '_' ∨ c = '/') ∧ ∃ c ∈ f.name.head?, ¬ c.isDigit
  library : ∀ f ∈ request, stem f.name ++ ".h".toList ∉ libraryHeaders

namespace Gen

theorem isOptions_iff {name : Str} (h : optionsFile <:+: name → IsOptions name) : IsOptions name ↔ optionsFile <:+: name := by
  refine ⟨?_, h⟩
  rintro (rfl | ⟨r, rfl⟩)
  · exact List.infix_rfl
  · exact ⟨r ++ ['/'], [], by rw [List.append_nil, List.append_assoc]; rfl⟩

theorem guardOf_eq {name : Str} (h : ProtoName name) : guardOf name = loose (stem name) ++ "_H".toList := by
  unfold guardOf loose upper
  rw [splitRoot_proto h, List.map_map]
  congr 1
  refine List.map_congr_left fun c _ => ?_
  show Char.toUpper (if c = '/' then '_' else c) = _
  split
  · rfl
  · rfl

theorem loose_stem {a b : Str} (ha : ProtoName a) (hb : ProtoName b) (h : loose (stem a) = loose (stem b)) :
    loose a = loose b := by
  rw [ha.eq, hb.eq]
  unfold loose at h ⊢
  rw [List.map_append, List.map_append, h]

theorem toUpper_cases (c : Char) : c.toUpper = c ∨ (c.isLower = true ∧ c.toUpper.isUpper = true) := by
  by_cases h : 'a'.val ≤ c.val ∧ c.val ≤ 'z'.val
  · right
    refine ⟨by simp [Char.isLower]; exact ⟨h.1, h.2⟩, ?_⟩
    have e : c.toUpper.val = c.val + ('A'.val - 'a'.val) := by unfold Char.toUpper; rw [dif_pos h]
    have h1 : 97 ≤ c.val.toNat := h.1
    have h2 : c.val.toNat ≤ 122 := h.2
    have en : c.toUpper.val.toNat = c.val.toNat - 32 := by
      rw [e, UInt32.toNat_add, show ('A'.val - 'a'.val).toNat = 4294967264 from rfl]
      omega
    unfold Char.isUpper
    refine decide_eq_true ⟨?_, ?_⟩
    · show 65 ≤ c.toUpper.val.toNat
      omega
    · show c.toUpper.val.toNat ≤ 90
      omega
  · left
    unfold Char.toUpper
    rw [dif_neg h]
theorem toUpper_alphanum {c : Char} (h : c.isAlphanum = true) : c.toUpper.isAlphanum = true := by
  rcases toUpper_cases c with e | ⟨_, e⟩
  · rwa [e]
  · unfold Char.isAlphanum Char.isAlpha
    rw [e]; rfl

theorem toUpper_digit {c : Char} (h : ¬ c.isDigit = true) : ¬ c.toUpper.isDigit = true := by
  rcases toUpper_cases c with e | ⟨_, e⟩
  · rwa [e]
  · intro hd
    unfold Char.isUpper at e
    unfold Char.isDigit at hd
    have h1 : 65 ≤ c.toUpper.val.toNat := (of_decide_eq_true e).1
    have h2 : c.toUpper.val.toNat ≤ 57 := of_decide_eq_true (Bool.and_eq_true_iff.mp hd).2
    omega

theorem guard_macro {name : Str} (h : ProtoName name) (hl : ∀ c ∈ stem name, c.isAlphanum ∨ c = '_' ∨ c = '/')
    (hd : ∃ c ∈ name.head?, ¬ c.isDigit) : MacroName (guardOf name) := by
  rw [guardOf_eq h]
  refine ⟨?_, ?_⟩
  · intro c hc
    rcases List.mem_append.mp hc with hc | hc
    · obtain ⟨d, hd, rfl⟩ := List.mem_map.mp hc
      split
      · exact .inr rfl
      · rename_i hs
        rcases hl d hd with hl | rfl | hl
        · exact .inl (toUpper_alphanum hl)
        · exact .inr rfl
        · exact absurd hl hs
    · exact (by decide : ∀ c ∈ "_H".toList, c.isAlphanum ∨ c = '_') c hc
  · obtain ⟨c, hc, hn⟩ := hd
    have e := h.eq
    obtain ⟨x, hx, _⟩ := h.2
    cases hst : stem name with
    | nil => rw [hst] at hx; exact nomatch hx
    | cons y ys =>
      rw [hst] at e
      rw [e] at hc
      obtain rfl := Option.some.inj hc
      refine ⟨_, rfl, ?_⟩
      show ¬ Char.isDigit (if y = '/' then '_' else y.toUpper)
      split
      · decide
      · exact toUpper_digit hn

end Gen

/-- **C74**, for files with plain names. -/
theorem C74_partial {request : List ProtoReq} (hp : PlainFiles request) : C74_Statement request := by
  intro hv hn
  have hname : ∀ f ∈ request, ProtoName f.name := fun f hf => (hn f hf).1
  have hrev : ∀ {f}, f ∈ request → f ∈ request.reverse := List.mem_reverse.mpr
  have hopt : ∀ f ∈ request, (IsOptions f.name ↔ optionsFile <:+: f.name) := fun f hf => isOptions_iff (hp.options f hf)
  obtain ⟨files, e, hfiles⟩ := fileDefinitions_spec hv (fun f hf => (hn f hf).2) hp.google
  have hdep : ∀ f ∈ request, ∀ d ∈ f.dependency, ∃ g ∈ request, g.name = d := by
    intro f hf d hd
    obtain ⟨g, hg, e⟩ := ImportsFollow.dep hv f (hrev hf) hd
    exact ⟨g, List.mem_reverse.mp hg, e⟩
  have hgo : ¬ optionsFile <:+: googleFile := by rw [← contains_iff]; decide
  have hfreq : ∀ f ∈ files, f ∈ request := fun f hf => ((hfiles f).mp hf).1
  have hincl : ∀ f ∈ request, ∀ i, i ∈ (headerOf f).includes ↔ ∃ d ∈ f.dependency, ¬ IsOptions d ∧ i = headerName d := by
    intro f hf i
    show i ∈ (f.dependency.filter fun d => !contains optionsFile d).map headerName ↔ _
    rw [List.mem_map]
    constructor
    · rintro ⟨d, hd, rfl⟩
      obtain ⟨hd, ho⟩ := List.mem_filter.mp hd
      obtain ⟨g, hg, rfl⟩ := hdep f hf d hd
      refine ⟨g.name, hd, ?_, rfl⟩
      rw [hopt g hg, ← contains_iff]
      simpa using ho
    · rintro ⟨d, hd, ho, rfl⟩
      obtain ⟨g, hg, rfl⟩ := hdep f hf d hd
      rw [hopt g hg, ← contains_iff] at ho
      exact ⟨g.name, List.mem_filter.mpr ⟨hd, by simpa using ho⟩, rfl⟩
  have hdepfile : ∀ f ∈ files, ∀ d ∈ f.dependency, ¬ IsOptions d → ∃ g ∈ files, g.name = d := by
    intro f hf d hd ho
    obtain ⟨hfr, hk⟩ := (hfiles f).mp hf
    obtain ⟨g, hg, rfl⟩ := hdep f hfr d hd
    refine ⟨g, (hfiles g).mpr ⟨hg, ?_⟩, rfl⟩
    by_cases hgg : googleFile <:+: g.name
    · have hgn := hp.google g hg hgg
      refine .inr ⟨hgn, ?_⟩
      rcases hk with hk | ⟨hk, h⟩
      · exact ⟨f, hfr, hk, (show g.name = googleFile from hgn) ▸ hd⟩
      · exact h
    · exact .inl ⟨mt (hopt g hg).mpr ho, hgg⟩
  have hinj : ∀ f ∈ request, ∀ g ∈ request, f.name = g.name → f = g := fun f hf g hg =>
    ImportsFollow.unique hv f (hrev hf) g (hrev hg)
  have hG : HeadersGood (files.map headerOf) (rankIn request.reverse) := by
    refine ⟨?_, ?_, ?_⟩
    · intro h hh h' hh' en
      obtain ⟨f, hf, rfl⟩ := List.mem_map.mp hh
      obtain ⟨g, hg, rfl⟩ := List.mem_map.mp hh'
      rw [hinj f (hfreq f hf) g (hfreq g hg) (headerName_inj (hname f (hfreq f hf)) (hname g (hfreq g hg)) en)]
    · intro h hh h' hh' en
      obtain ⟨f, hf, rfl⟩ := List.mem_map.mp hh
      obtain ⟨g, hg, rfl⟩ := List.mem_map.mp hh'
      have hf' := hfreq f hf
      have hg' := hfreq g hg
      have en : guardOf f.name = guardOf g.name := en
      rw [guardOf_eq (hname f hf'), guardOf_eq (hname g hg')] at en
      rw [hinj f hf' g hg' (hp.distinct f hf' g hg' (loose_stem (hname f hf') (hname g hg') (List.append_inj_left' en rfl)))]
    · intro h hh i hi
      obtain ⟨f, hf, rfl⟩ := List.mem_map.mp hh
      obtain ⟨d, hd, ho, rfl⟩ := (hincl f (hfreq f hf) i).mp hi
      obtain ⟨g, hg, rfl⟩ := hdepfile f hf d hd ho
      exact ⟨headerOf g, List.mem_map_of_mem hg, rfl, ImportsFollow.rank hv (fun f hf => hname f (List.mem_reverse.mp hf)) f
        (hrev (hfreq f hf)) hd⟩
  refine ⟨files.map headerOf, by unfold headersOf; rw [e]; rfl, ?_, ?_⟩
  · intro h hh
    obtain ⟨f, hf, rfl⟩ := List.mem_map.mp hh
    have hf' := hfreq f hf
    refine ⟨?_, ?_⟩
    · exact guard_macro (hname f hf') (hp.letters f hf').1 (hp.letters f hf').2
    · show headerName f.name ∉ _
      rw [headerName_eq (hname f hf')]
      exact hp.library f hf'
  · intro f hf ho hgn
    have hff : f ∈ files := (hfiles f).mpr ⟨hf, .inl ⟨mt (hopt f hf).mpr ho, fun h => hgn (hp.google f hf h)⟩⟩
    obtain ⟨u, eu, hnd, hsort, hreach⟩ := include_fresh hG (List.mem_map_of_mem (f := headerOf) hff) (n := request.length + 1)
      (Nat.lt_succ_of_le (by have := rankIn_le request.reverse (headerOf f).name; rwa [List.length_reverse] at this))
    refine ⟨u, ?_, hnd, ?_, ?_⟩
    · rw [← headerName_eq (hname f hf)]
      exact eu
    · intro x
      rw [hreach]
      constructor
      · intro hr
        suffices ∀ a, Reaches (files.map headerOf) a x → ∀ f ∈ files, headerName f.name = a → ∃ g, Imports request f.name g ∧
            x = stem g ++ ".h".toList from this _ hr f hff rfl
        clear hr
        intro a ha
        induction ha with
        | self a =>
          rintro f hf rfl
          exact ⟨f.name, .self _, headerName_eq (hname f (hfreq f hf))⟩
        | @step h i b hh hi _ ih =>
          intro f hf ea
          obtain ⟨f', hf', rfl⟩ := List.mem_map.mp hh
          obtain rfl := hinj f (hfreq f hf) f' (hfreq f' hf') (headerName_inj (hname f (hfreq f hf)) (hname f' (hfreq f' hf')) ea)
          obtain ⟨d, hd, ho, rfl⟩ := (hincl f (hfreq f hf) i).mp hi
          obtain ⟨g, hg, rfl⟩ := hdepfile f hf d hd ho
          obtain ⟨g', hi', ex⟩ := ih g hg rfl
          exact ⟨g', .step (hfreq f hf) hd ho hi', ex⟩
      · rintro ⟨g, hi, rfl⟩
        suffices ∀ a, Imports request a g → ∀ f ∈ files, f.name = a → Reaches (files.map headerOf) (headerOf f).name
            (stem g ++ ".h".toList) from this _ hi f hff rfl
        clear hi
        intro a ha
        induction ha with
        | self a =>
          rintro f hf rfl
          rw [← headerName_eq (hname f (hfreq f hf))]
          exact .self _
        | @step f' d b hf' hd ho _ ih =>
          intro f hf ea
          obtain rfl := hinj f (hfreq f hf) f' hf' ea
          obtain ⟨g, hg, rfl⟩ := hdepfile f hf d hd ho
          exact .step (List.mem_map_of_mem hf) ((hincl f hf' _).mpr ⟨g.name, hd, ho, rfl⟩) (ih g hg rfl)
    · intro l1 l2 g hg et d hd hod
      obtain ⟨g', hg', rfl⟩ := hdep g hg d hd
      rw [← headerName_eq (hname g' hg')]
      have hgf : g ∈ files := by
        have : stem g.name ++ ".h".toList ∈ u.text := et ▸ List.mem_append_right _ List.mem_cons_self
        rw [hreach] at this
        obtain ⟨h', hh', en⟩ := reaches_mem hG (List.mem_map_of_mem (f := headerOf) hff) this
        obtain ⟨k, hk, rfl⟩ := List.mem_map.mp hh'
        rw [← headerName_eq (hname g hg)] at en
        rwa [hinj g hg k (hfreq k hk) (headerName_inj (hname g hg) (hname k (hfreq k hk)) en.symm)]
      rw [← headerName_eq (hname g hg)] at et
      exact hsort l1 _ l2 et (headerOf g) (List.mem_map_of_mem hgf) rfl _ ((hincl g hg _).mpr ⟨g'.name, hd, hod, rfl⟩)

/-- Of two headers with the same guard at most one is ever compiled, whatever is included in whatever way. -/
theorem C74_collision {H : List Header} (hn : ∀ h ∈ H, ∀ h' ∈ H, h.name = h'.name → h = h') {n : Nat} {x : Str}
    {u : Compiled} (e : includeHeader H n x ⟨[], []⟩ = some u) :
    ∀ h ∈ H, ∀ h' ∈ H, h.name ∈ u.text → h'.name ∈ u.text → h.guard = h'.guard → h = h' := by
  exact fun h hh h' hh' h1 h2 eg => (include_guards hn n x ⟨[], []⟩ u
    ⟨fun _ _ h => (nomatch h), fun _ _ _ _ h => (nomatch h)⟩ e).1.2 h hh h' hh' h1 h2 eg

namespace C74Example

def str (s : String) : Str := s.toList

def file (name : String) (dependency : List String) : ProtoReq := ⟨str name, str "proto3", dependency.map str⟩

/-- The options and the descriptor they import; a diamond of user files; one that imports the descriptor itself. -/
def request : List ProtoReq :=
  [⟨str "google/protobuf/descriptor.proto", [], []⟩, file "embedded_proto_options.proto" ["google/protobuf/descriptor.proto"],
    file "lib/base.proto" ["embedded_proto_options.proto"], file "lib/left.proto" ["lib/base.proto"],
    file "lib/right_2.proto" ["embedded_proto_options.proto", "lib/base.proto"], file "top.proto" ["lib/left.proto", "lib/right_2.proto"],
    file "opt.proto" ["google/protobuf/descriptor.proto", "lib/base.proto"]]

theorem request_plain : PlainFiles request := ⟨by decide +kernel, by decide +kernel, by decide +kernel, by decide +kernel, by decide +kernel⟩

theorem request_valid : RequestValid request := by decide +kernel

example : C74_Statement request := C74_partial request_plain

/-- What that means for `top.h`. -/
example : ∃ H u, headersOf request = .ok H ∧ includeHeader H 8 (str "top.h") ⟨[], []⟩ = some u ∧
    u.text = [str "lib/base.h", str "lib/left.h", str "lib/right_2.h", str "top.h"] :=
  ⟨_, _, rfl, rfl, by decide +kernel⟩

/-- `a/b.proto` and `a_b.proto`, both imported. -/
def folders : List ProtoReq := [file "a/b.proto" [], file "a_b.proto" [], file "c.proto" ["a/b.proto", "a_b.proto"]]

/-- A file of the user that ends like the options. -/
def ownOptions : List ProtoReq := [file "my_embedded_proto_options.proto" [], file "c.proto" ["my_embedded_proto_options.proto"]]

/-- A copy of the descriptor in another folder. -/
def vendor : List ProtoReq :=
  [file "vendor/google/protobuf/descriptor.proto" [], file "c.proto" ["vendor/google/protobuf/descriptor.proto"]]

def minus : List ProtoReq := [file "my-file.proto" []]
def fields : List ProtoReq := [file "Fields.proto" []]

end C74Example
open C74Example

/-- **C74** fails: the second of two headers with the same guard is left out; a file whose name contains that of the
options gets no header; a header that is included is not made; the guard is no name of a macro; a header takes the place
of one of the library. -/
theorem C74_cases_false :
    (∃ H u, headersOf folders = .ok H ∧ includeHeader H 4 (str "c.h") ⟨[], []⟩ = some u ∧ str "a_b.h" ∉ u.text) ∧
    (∃ H, headersOf ownOptions = .ok H ∧ (∀ h ∈ H, h.name ≠ str "my_embedded_proto_options.h" ∧ h.includes = [])) ∧
    (∃ H, headersOf vendor = .ok H ∧ includeHeader H 3 (str "c.h") ⟨[], []⟩ = none) ∧
    (∃ H, headersOf minus = .ok H ∧ ∃ h ∈ H, ¬ MacroName h.guard) ∧
    (∃ H, headersOf C74Example.fields = .ok H ∧ ∃ h ∈ H, h.name ∈ libraryHeaders) :=
  ⟨⟨_, _, rfl, rfl, by decide +kernel⟩, ⟨_, rfl, by decide +kernel⟩, ⟨_, rfl, rfl⟩, ⟨_, rfl, by decide +kernel⟩,
    ⟨_, rfl, by decide +kernel⟩⟩

theorem C74_false : ¬ ∀ request, C74_Statement request := by
  intro h
  obtain ⟨H, e, _, hall⟩ := h folders (by decide +kernel) (by decide +kernel)
  obtain ⟨u, eu, _, hx, _⟩ := hall (file "c.proto" ["a/b.proto", "a_b.proto"]) (by decide +kernel) (by decide +kernel)
    (by decide +kernel)
  obtain ⟨H', u', e', eu', hn⟩ := C74_cases_false.1
  obtain rfl : H' = H := Except.ok.inj (e'.symm.trans e)
  obtain rfl : u' = u := Option.some.inj (eu'.symm.trans eu)
  exact hn ((hx _).mpr ⟨str "a_b.proto", .step (f := file "c.proto" ["a/b.proto", "a_b.proto"]) (by decide +kernel)
    (by decide +kernel) (by decide +kernel) (.self _), by decide +kernel⟩)

/-! ## C75: enums -/

/-- The declaration of every enum compiles, and its values are sent as the numbers in the declaration. -/
def C75_Statement (e : EnumDecl) : Prop :=
  e.Valid → EnumCompiles e ∧ ∀ v ∈ e.values, ScalarTy.enc .enumeration (enumeratorValue v.2) = enumEncoding v.2

/-- **C75**, exactly when: there is no negative number and no name is a keyword of C++. -/
theorem C75_exact {e : EnumDecl} (hv : e.Valid) : EnumCompiles e ↔ ∀ v ∈ e.values, 0 ≤ v.2 ∧ v.1 ∉ keywords := by
  constructor
  · intro h v hm
    have := h.2 v hm
    exact ⟨this.2.1, this.1⟩
  · intro h
    refine ⟨hv.names, fun v hm => ⟨(h v hm).2, (h v hm).1, ?_⟩⟩
    have := (hv.range v hm).2
    omega

/-- **C75**, for enums without negative numbers and keywords. -/
theorem C75_partial {e : EnumDecl} (h : ∀ v ∈ e.values, 0 ≤ v.2 ∧ v.1 ∉ keywords) : C75_Statement e := by
  intro hv
  refine ⟨(C75_exact hv).mpr h, fun v hm => ?_⟩
  have h0 := (h v hm).1
  have h1 := (hv.range v hm).2
  show Spec.varint (BitVec.ofInt 32 v.2).toNat = Spec.varint (BitVec.ofInt 64 v.2).toNat
  rw [BitVec.toNat_ofInt, BitVec.toNat_ofInt]
  congr 1
  omega

/-- `enum E { A = 0; B = 150; C = 2147483647; }` -/
example : enumEncoding 150 = [0x96, 0x01] ∧ C75_Statement ⟨"E".toList, [("A".toList, 0), ("B".toList, 150), ("C".toList, 2147483647)]⟩ :=
  ⟨by decide +kernel, C75_partial (by decide +kernel)⟩

/-- `enum E { A = 0; B = -1; }` -/
theorem C75_false : ¬ ∀ e, C75_Statement e := by
  intro h
  have := (h ⟨"E".toList, [("A".toList, 0), ("B".toList, -1)]⟩ ⟨⟨_, rfl, rfl⟩, by decide, by decide⟩).1.2 ("B".toList, -1)
    (by decide)
  exact absurd this.2.1 (by decide)

/-! ## C76: only proto3 -/

/-- A request with a file of the user in proto2 is refused. -/
def C76_Statement (request : List (ProtoReq × Syntax')) : Prop :=
  (∀ f ∈ request, f.1.syntaxName = f.2.sent) →
    (∃ f ∈ request, f.2 = .proto2 ∧ ¬ IsOptions f.1.name ∧ f.1.name ≠ "google/protobuf/descriptor.proto".toList) →
    ∃ e, headersOf (request.map (·.1)) = .error e

/-- **C76** is false, always: no request of protoc is refused. -/
theorem C76_never_false {request : List (ProtoReq × Syntax')} (h : ∀ f ∈ request, f.1.syntaxName = f.2.sent) :
    ∃ H, headersOf (request.map (·.1)) = .ok H := by
  have hs : ∀ f ∈ request.map (·.1), f.syntaxName ≠ "proto2".toList := by
    intro f hf
    obtain ⟨⟨f, s⟩, hm, rfl⟩ := List.mem_map.mp hf
    have e : f.syntaxName = s.sent := h _ hm
    show f.syntaxName ≠ _
    rw [e]
    cases s <;> decide
  obtain ⟨files, wanted, google, e, _, _, h3, _⟩ := collect_spec hs
  unfold headersOf fileDefinitions
  rw [e]
  cases wanted with
  | false => exact ⟨_, rfl⟩
  | true =>
    cases google with
    | none => exact ⟨_, rfl⟩
    | some g =>
      refine ⟨(g :: files).map headerOf, ?_⟩
      show Except.map _ (do pure ((← openFile g) :: files) : Except GenError (List ProtoReq)) = _
      rw [show openFile g = .ok g from if_neg (hs g (h3 g rfl).1)]
      rfl

theorem C76_false : ¬ ∀ request, C76_Statement request := by
  intro h
  have hs : ∀ f ∈ [((⟨"a.proto".toList, [], []⟩ : ProtoReq), Syntax'.proto2)], f.1.syntaxName = f.2.sent := by decide
  obtain ⟨e, he⟩ := h _ hs ⟨_, List.mem_cons_self, rfl, by decide, by decide⟩
  obtain ⟨H, hH⟩ := C76_never_false hs
  rw [he] at hH
  exact nomatch hH

/-- **C76**, if the descriptor says `proto2`. -/
theorem C76_partial {request : List ProtoReq} (h : ∃ f ∈ request, f.syntaxName = "proto2".toList ∧ f.Mine) :
    ∃ e, headersOf request = .error e := by
  suffices ∀ l : List ProtoReq, (∃ f ∈ l, f.syntaxName = "proto2".toList ∧ f.Mine) → ∃ e, collect l = .error e by
    obtain ⟨e, he⟩ := this request h
    exact ⟨e, by unfold headersOf fileDefinitions; rw [he]; rfl⟩
  intro l
  induction l with
  | nil => rintro ⟨_, h, _⟩; exact nomatch h
  | cons g rest ih =>
    rintro ⟨f, hf, hs, hm⟩
    unfold collect
    rcases List.mem_cons.mp hf with rfl | hf
    · have hc : (!contains optionsFile f.name && !contains googleFile f.name) = true := by
        have h1 := hm.1
        have h2 := hm.2
        rw [← contains_iff] at h1 h2
        simp [h1, h2]
      rw [if_pos hc, show openFile f = .error .valueError from if_pos hs]
      exact ⟨_, rfl⟩
    · obtain ⟨e, he⟩ := ih ⟨f, hf, hs, hm⟩
      rw [he]
      by_cases hc : (!contains optionsFile g.name && !contains googleFile g.name) = true
      · rw [if_pos hc]
        cases openFile g with
        | error e' => exact ⟨e', rfl⟩
        | ok m => exact ⟨e, rfl⟩
      · rw [if_neg hc]
        exact ⟨e, rfl⟩

example : ∃ e, headersOf [⟨"a.proto".toList, "proto2".toList, []⟩] = .error e :=
  C76_partial ⟨_, List.mem_cons_self, rfl, by unfold ProtoReq.Mine; decide +kernel⟩

end EP
