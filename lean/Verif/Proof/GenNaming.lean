import Verif.Model.GenClass

/-!
# With plain names nothing is declared twice
-/

namespace EP.Gen

/-! ## Declarations and what they are made of -/

/-- Where a name in the class comes from. -/
inductive Key where
  | type (t : Str)
  | fieldNumber
  | presence
  | presenceVar
  /-- `p ++ x ++ "_"` -/
  | var (p x : Str)
  | union (x : Str)
  | const (x : Str)
  /-- `p ++ x` -/
  | fn (p x : Str) (s : Sig)
  | fixed (n : Str) (s : Sig)
  deriving DecidableEq

def Key.decl : Key → Decl
  | .type t => .other t
  | .fieldNumber => .other "FieldNumber".toList
  | .presence => .other "presence".toList
  | .presenceVar => .other "presence_".toList
  | .var p x => .other (p ++ under x)
  | .union x => .other x
  | .const x => .other (constName x)
  | .fn p x s => .fn (p ++ x) s
  | .fixed n s => .fn n s

def fnPrefixes : List Str :=
  ["", "get_", "has_", "clear_", "set_", "mutable_", "add_", "init_", "deserialize_", "to_string_", "get_which_",
   "which_"].map String.toList

def fixedNames : List Str :=
  ["serialize", "deserialize", "clear", "to_string", "field_number_to_name", "presence"].map String.toList

def Key.Ok : Key → Prop
  | .type t => TypeName t
  | .fieldNumber => True
  | .presence => True
  | .presenceVar => True
  | .var p x => p ∈ fnPrefixes ∧ PlainName x
  | .union x => PlainName x
  | .const x => PlainName x
  | .fn p x _ => p ∈ fnPrefixes ∧ PlainName x
  | .fixed n _ => n ∈ fixedNames ∧ n ≠ "presence".toList

/-! ## Four kinds of names -/

def nameKind (s : Str) : Nat :=
  if s.all (nameChars.contains ·) then
    if s.getLast? = some '_' then 2 else 3
  else if "_NAME".toList.isSuffixOf s then 0 else 1

def Key.kind : Key → Nat
  | .const _ => 0
  | .type _ | .fieldNumber => 1
  | .var _ _ | .presenceVar => 2
  | .union _ | .fn _ _ _ | .fixed _ _ | .presence => 3

theorem prefix_chars : ∀ p ∈ fnPrefixes, ∀ c ∈ p, c ∈ nameChars := by decide +kernel

theorem kind_low {s : Str} (h : ∀ c ∈ s, c ∈ nameChars) : nameKind s = if s.getLast? = some '_' then 2 else 3 := by
  unfold nameKind
  rw [if_pos]
  rw [List.all_eq_true]
  intro c hc
  rw [List.contains_iff_mem]
  exact h c hc

theorem kind_capital {s : Str} {c : Char} (hc : c ∈ s) (h : c ∉ nameChars) :
    nameKind s = if "_NAME".toList.isSuffixOf s then 0 else 1 := by
  unfold nameKind
  rw [if_neg]
  rw [List.all_eq_true]
  intro hn
  have := hn c hc
  rw [List.contains_iff_mem] at this
  exact h this

theorem getLast?_append_ne {p x : Str} (h : x ≠ []) : (p ++ x).getLast? = x.getLast? := by
  rw [List.getLast?_append]
  cases hx : x.getLast? with
  | none => exact absurd (List.getLast?_eq_none_iff.mp hx) h
  | some a => rfl

theorem PlainName.chars_append {p x : Str} (hp : p ∈ fnPrefixes) (h : PlainName x) : ∀ c ∈ p ++ x, c ∈ nameChars := by
  intro c hc
  rcases List.mem_append.mp hc with hc | hc
  · exact prefix_chars p hp c hc
  · exact h.chars c hc

theorem fixed_kind : ∀ n ∈ fixedNames, nameKind n = 3 := by decide +kernel

theorem Key.kind_eq (k : Key) (h : k.Ok) : nameKind k.decl.name = k.kind := by
  cases k with
  | type t =>
    obtain ⟨c, hc, hn⟩ := h.capital
    refine (kind_capital hc hn).trans ?_
    rw [if_neg]
    · rfl
    · rw [List.isSuffixOf_iff_suffix]
      exact h.suffix
  | fieldNumber => decide +kernel
  | presence => decide +kernel
  | presenceVar => decide +kernel
  | var p x =>
    show nameKind (p ++ under x) = 2
    have hc : ∀ c ∈ p ++ under x, c ∈ nameChars := by
      intro c hc
      unfold under at hc
      rw [← List.append_assoc] at hc
      rcases List.mem_append.mp hc with hc | hc
      · exact h.2.chars_append h.1 c hc
      · rw [List.mem_singleton] at hc
        subst hc
        decide
    rw [kind_low hc, if_pos]
    unfold under
    rw [← List.append_assoc, List.getLast?_append]
    rfl
  | union x =>
    show nameKind x = 3
    rw [kind_low h.chars, if_neg h.last]
  | const x =>
    show nameKind (constName x) = 0
    have : 'N' ∈ constName x := List.mem_append_right _ (by decide)
    rw [kind_capital this (by decide), if_pos]
    rw [List.isSuffixOf_iff_suffix]
    exact ⟨_, rfl⟩
  | fn p x s =>
    show nameKind (p ++ x) = 3
    rw [kind_low (h.2.chars_append h.1), getLast?_append_ne h.2.nonempty, if_neg h.2.last]
  | fixed n s => exact fixed_kind n h.1

/-! ## Which names are the same -/

theorem prefixes_table : ∀ p ∈ fnPrefixes, ∀ q ∈ fnPrefixes, p <+: q → p = q ∨ q.drop p.length ∈ namePrefixes ∨
    q.drop p.length = "get_which_".toList := by decide +kernel

theorem append_inj_of {p q x y : Str} (hp : p ∈ fnPrefixes) (hq : q ∈ fnPrefixes) (hx : PlainName x)
    (hy : PlainName y) (h : p ++ x = q ++ y) : p = q ∧ x = y := by
  have key : ∀ {p q x y : Str}, p ∈ fnPrefixes → q ∈ fnPrefixes → PlainName x → ∀ a, q = p ++ a → x = a ++ y →
      p = q ∧ x = y := by
    intro p q x y hp hq hx a e1 e2
    rcases prefixes_table p hp q hq ⟨a, e1.symm⟩ with h | h | h
    · have : a = [] := by
        rw [← h] at e1
        exact List.self_eq_append_right.mp e1
      subst this
      exact ⟨h, e2⟩
    · rw [e1, List.drop_left] at h
      exact absurd ⟨y, e2.symm⟩ (hx.noPrefix a h)
    · rw [e1, List.drop_left] at h
      refine absurd ?_ (hx.noPrefix "get_".toList (by decide))
      rw [e2, h]
      exact ⟨"which_".toList ++ y, rfl⟩
  rcases List.append_eq_append_iff.mp h with ⟨a, h1, h2⟩ | ⟨a, h1, h2⟩
  · exact key hp hq hx a h1 h2
  · have := key hq hp hy a h1 h2
    exact ⟨this.1.symm, this.2.symm⟩

theorem fixed_table : ∀ n ∈ fixedNames, ∀ p ∈ fnPrefixes, p <+: n → p = [] := by decide +kernel

theorem fixed_reserved : ∀ n ∈ fixedNames, n ∈ nameReserved := by decide +kernel

theorem fixed_ne {n p x : Str} (hn : n ∈ fixedNames) (hp : p ∈ fnPrefixes) (hx : PlainName x) : p ++ x ≠ n := by
  intro h
  have := fixed_table n hn p hp ⟨x, h⟩
  subst this
  rw [List.nil_append] at h
  rw [h] at hx
  exact hx.reserved (fixed_reserved n hn)

theorem upper_table : ∀ a ∈ nameChars, ∀ b ∈ nameChars, a.toUpper = b.toUpper → a = b := by decide +kernel

theorem upper_inj : ∀ {x y : Str}, (∀ c ∈ x, c ∈ nameChars) → (∀ c ∈ y, c ∈ nameChars) → upper x = upper y → x = y
  | [], [], _, _, _ => rfl
  | [], _ :: _, _, _, h => by simp [upper] at h
  | _ :: _, [], _, _, h => by simp [upper] at h
  | a :: x, b :: y, hx, hy, h => by
    unfold upper at h
    rw [List.map_cons, List.map_cons] at h
    injection h with h1 h2
    rw [upper_table a (hx a List.mem_cons_self) b (hy b List.mem_cons_self) h1,
      upper_inj (fun c hc => hx c (List.mem_cons_of_mem _ hc)) (fun c hc => hy c (List.mem_cons_of_mem _ hc)) h2]

theorem constName_inj {x y : Str} (hx : PlainName x) (hy : PlainName y) (h : constName x = constName y) : x = y :=
  upper_inj hx.chars hy.chars (List.append_cancel_right h)

theorem under_inj {x y : Str} (h : under x = under y) : x = y := List.append_cancel_right h

theorem presenceVar_ne {p x : Str} (hp : p ∈ fnPrefixes) (hx : PlainName x) : p ++ under x ≠ "presence_".toList := by
  intro h
  have : (p ++ x) ++ ['_'] = "presence".toList ++ ['_'] := by
    rw [List.append_assoc]
    exact h
  exact fixed_ne (by decide) hp hx (List.append_cancel_right this)

/-- The name of a oneof used as the name of a type, and the name of the function `x()`. -/
def Key.sameName : Key → Key → Prop
  | .fn p x _, .union y => p = [] ∧ x = y
  | .union y, .fn p x _ => p = [] ∧ x = y
  | _, _ => False

theorem clashes_name {a b : Decl} (h : a.clashes b = true) : a.name = b.name := by
  unfold Decl.clashes at h
  split at h
  · rw [Bool.and_eq_true] at h
    exact LawfulBEq.eq_of_beq h.1
  · exact LawfulBEq.eq_of_beq h

theorem nil_mem : ([] : Str) ∈ fnPrefixes := by decide

/-- Two declarations clash only if they have the same origin. -/
theorem Key.clash {a b : Key} (ha : a.Ok) (hb : b.Ok) (h : a.decl.clashes b.decl = true) : a = b ∨ a.sameName b := by
  have hn := clashes_name h
  have hk : a.kind = b.kind := by rw [← a.kind_eq ha, ← b.kind_eq hb, hn]
  cases a <;> cases b <;> first | exact absurd hk (by simp only [Key.kind]; decide) | skip
  all_goals first | exact .inl rfl | skip
  case type.type t t' =>
    have : t = t' := hn
    rw [this]
    exact .inl rfl
  case type.fieldNumber t => exact absurd hn ha.fieldNumber
  case fieldNumber.type t => exact absurd hn.symm hb.fieldNumber
  case presence.union x =>
    have : x = "presence".toList := hn.symm
    exact absurd (show [] ++ x = _ from this) (fixed_ne (by decide) nil_mem hb)
  case presence.fn p x s => exact absurd hn.symm (fixed_ne (by decide) hb.1 hb.2)
  case presence.fixed n s => exact absurd hn.symm hb.2
  case presenceVar.var p x => exact absurd hn.symm (presenceVar_ne hb.1 hb.2)
  case var.presenceVar p x => exact absurd hn (presenceVar_ne ha.1 ha.2)
  case var.var p x q y =>
    have hn : p ++ under x = q ++ under y := hn
    unfold under at hn
    rw [← List.append_assoc, ← List.append_assoc] at hn
    obtain ⟨rfl, rfl⟩ := append_inj_of ha.1 hb.1 ha.2 hb.2 (List.append_cancel_right hn)
    exact .inl rfl
  case union.union x y =>
    have : x = y := hn
    rw [this]
    exact .inl rfl
  case union.presence x => exact absurd (show [] ++ x = _ from hn) (fixed_ne (by decide) nil_mem ha)
  case union.fn x p y s =>
    obtain ⟨h1, h2⟩ := append_inj_of nil_mem hb.1 ha hb.2 (show [] ++ x = p ++ y from hn)
    exact .inr ⟨h1.symm, h2.symm⟩
  case union.fixed x n s => exact absurd (show [] ++ x = _ from hn) (fixed_ne hb.1 nil_mem ha)
  case const.const x y =>
    rw [constName_inj ha hb hn]
    exact .inl rfl
  case fn.presence p x s => exact absurd hn (fixed_ne (by decide) ha.1 ha.2)
  case fn.union p x s y =>
    obtain ⟨h1, h2⟩ := append_inj_of ha.1 nil_mem ha.2 hb (show p ++ x = [] ++ y from hn)
    exact .inr ⟨h1, h2⟩
  case fn.fn p x s q y s' =>
    obtain ⟨rfl, rfl⟩ := append_inj_of ha.1 hb.1 ha.2 hb.2 hn
    have h : ((p ++ x == p ++ x) && (s == s')) = true := h
    rw [Bool.and_eq_true] at h
    rw [LawfulBEq.eq_of_beq h.2]
    exact .inl rfl
  case fn.fixed p x s n s' => exact absurd hn (fixed_ne hb.1 ha.1 ha.2)
  case fixed.presence n s => exact absurd hn ha.2
  case fixed.union n s x => exact absurd (show [] ++ x = _ from hn.symm) (fixed_ne ha.1 nil_mem hb)
  case fixed.fn n s p x s' => exact absurd hn.symm (fixed_ne ha.1 hb.1 hb.2)
  case fixed.fixed n s n' s' =>
    have h : ((n == n') && (s == s')) = true := h
    rw [Bool.and_eq_true] at h
    rw [LawfulBEq.eq_of_beq h.1, LawfulBEq.eq_of_beq h.2]
    exact .inl rfl

/-- Distinct origins, no clashes. -/
theorem pairwise_of_keys {ks : List Key} (hok : ∀ k ∈ ks, k.Ok) (hn : ks.Nodup)
    (hs : ∀ a ∈ ks, ∀ b ∈ ks, ¬ a.sameName b) : (ks.map Key.decl).Pairwise fun a b => a.clashes b = false := by
  rw [List.pairwise_map]
  refine hn.imp_of_mem ?_
  intro a b ha hb hab
  cases h : a.decl.clashes b.decl with
  | false => rfl
  | true =>
    rcases Key.clash (hok a ha) (hok b hb) h with e | e
    · exact absurd e hab
    · exact absurd e (hs a ha b hb)

/-! ## The declarations of the rendered class -/

/-- The functions of a field: what is before the name, and the parameters. -/
def fieldSigs (g : GField) : List (Str × Sig) :=
  match g.shape with
  | .recursive => [("clear_".toList, .mutable), ("set_".toList, .value), ("get_".toList, .const), ([], .const)]
  | .repeated =>
    [([], .constAt), ("clear_".toList, .mutable), ("set_".toList, .setAt), ("set_".toList, .value),
     ("add_".toList, .value), ("mutable_".toList, .mutable), ("mutable_".toList, .mutableAt), ("get_".toList, .const),
     ([], .const)]
  | .single =>
    if g.desc.proto3Optional then
      [("has_".toList, .const), ("clear_".toList, .mutable), ("set_".toList, .value)] ++
      (if g.desc.type = .enum then [] else [("mutable_".toList, .mutable)]) ++
      [("get_".toList, .const), ([], .const)]
    else
      [("clear_".toList, .mutable), ("set_".toList, .value)] ++
      (if g.desc.type = .enum then [] else [("mutable_".toList, .mutable)]) ++
      [("get_".toList, .const), ([], .const)]

def altSigs (g : GField) : List (Str × Sig) :=
  match g.shape with
  | .recursive => [("clear_".toList, .mutable), ("set_".toList, .value), ("get_".toList, .const), ([], .const)]
  | _ =>
    [("has_".toList, .const), ("clear_".toList, .mutable), ("set_".toList, .value)] ++
    (match g.desc.type with
      | .scalar _ | .enum => []
      | _ => [("mutable_".toList, .mutable)]) ++
    [("get_".toList, .const), ([], .const)]

def oneofSigs : List (Str × Sig) :=
  [("get_which_".toList, .const), ("init_".toList, .id), ("clear_".toList, .mutable), ("deserialize_".toList, .des)]

def fnKeys (x : Str) (l : List (Str × Sig)) : List Key := l.map fun p => .fn p.1 x p.2

def funDecl (f : Str × Body) : Decl := .fn f.1 f.2.sig

theorem fieldFuns_keys (g : GField) : (fieldFuns g).map funDecl = (fnKeys g.desc.name (fieldSigs g)).map Key.decl := by
  unfold fieldFuns fieldSigs fnKeys
  cases g.shape with
  | recursive => rfl
  | repeated => rfl
  | single =>
    dsimp only
    split <;> split <;> rfl

theorem altFuns_keys (alloc : Bool) (o : Str) (g : GField) :
    (altFuns alloc o g).map funDecl = (fnKeys g.desc.name (altSigs g)).map Key.decl := by
  unfold altFuns altSigs fnKeys
  cases g.shape with
  | recursive => rfl
  | repeated => cases g.desc.type <;> rfl
  | single => cases g.desc.type <;> rfl

theorem oneofFuns_keys (alloc : Bool) (o : GOneof) :
    (oneofFuns alloc o).map funDecl = (fnKeys o.name oneofSigs).map Key.decl := rfl

theorem fieldSigs_nodup (g : GField) : (fieldSigs g).Nodup := by
  unfold fieldSigs
  split
  · decide +kernel
  · decide +kernel
  · split <;> split <;> decide +kernel

theorem altSigs_nodup (g : GField) : (altSigs g).Nodup := by
  unfold altSigs
  split
  · decide +kernel
  · split <;> decide +kernel

theorem fieldSigs_prefix (g : GField) : ∀ p ∈ fieldSigs g, p.1 ∈ fnPrefixes := by
  unfold fieldSigs
  split
  · decide +kernel
  · decide +kernel
  · split <;> split <;> decide +kernel

theorem altSigs_prefix (g : GField) : ∀ p ∈ altSigs g, p.1 ∈ fnPrefixes := by
  unfold altSigs
  split
  · decide +kernel
  · split <;> decide +kernel

theorem oneofSigs_prefix : ∀ p ∈ oneofSigs, p.1 ∈ fnPrefixes := by decide +kernel

theorem fnKeys_nodup {x : Str} {l : List (Str × Sig)} (h : l.Nodup) : (fnKeys x l).Nodup := by
  unfold fnKeys List.Nodup
  rw [List.pairwise_map]
  refine h.imp ?_
  intro a b hab e
  injection e with e1 _ e2
  exact hab (Prod.ext e1 e2)

/-- The names of the fields and oneofs are plain and distinct. -/
structure Named (name : Str) (nested : List Str) (m : GMessage) : Prop where
  types : ∀ t ∈ name :: nested, TypeName t
  typesDistinct : (name :: nested).Nodup
  plain : ∀ g ∈ m.fields ++ m.oneofs.flatMap (·.fields), PlainName g.desc.name
  plainOneofs : ∀ o ∈ m.oneofs, PlainName o.name
  distinct : ((m.fields ++ m.oneofs.flatMap (·.fields)).map (·.desc.name) ++ m.oneofs.map (·.name)).Nodup
  ids : (m.fieldIds.map (·.2)).Perm ((m.fields ++ m.oneofs.flatMap (·.fields)).map fun g => upper g.desc.name)
  optional : m.optionalFields = m.fields.filter (·.desc.proto3Optional)

section
variable (name : Str) (nested : List Str) (m : GMessage)

def typeKeys : List Key := (name :: nested).map .type ++ [.fieldNumber]

def presenceKeys : List Key := if m.optionalFields = [] then [] else [.presence, .presenceVar]

def varKeys : List Key := (m.fields.filter fun g => g.shape != .recursive).map fun g => .var [] g.desc.name

def unionKeys : List Key :=
  m.oneofs.flatMap fun o => [.union o.name, .var "which_".toList o.name, .var [] o.name, .fn "to_string_".toList o.name .string4]

def constKeys : List Key := (m.fields ++ m.oneofs.flatMap (·.fields)).map fun g => .const g.desc.name

def funKeys : List Key :=
  (m.fields.flatMap fun g => fnKeys g.desc.name (fieldSigs g)) ++
  m.oneofs.flatMap fun o => fnKeys o.name oneofSigs ++ o.fields.flatMap fun g => fnKeys g.desc.name (altSigs g)

def fixedKeys : List Key :=
  [.fixed "serialize".toList .constBuffer, .fixed "deserialize".toList .buffer, .fixed "clear".toList .mutable,
   .fixed "field_number_to_name".toList .id, .fixed "to_string".toList .string, .fixed "to_string".toList .string4]

def classKeys : List Key :=
  typeKeys name nested ++ presenceKeys m ++ varKeys m ++ unionKeys m ++ constKeys m ++ funKeys m ++ fixedKeys

omit name nested m in
theorem append_congr {α : Type} {a b c d : List α} (h : a = c) (h' : b = d) : a ++ b = c ++ d := by rw [h, h']

theorem declared_keys (alloc : Bool) (E : Types) :
    (render alloc E name m).declared nested = (classKeys name nested m).map Key.decl := by
  unfold classKeys Class.declared
  simp only [List.map_append]
  refine append_congr (append_congr (append_congr (append_congr (append_congr (append_congr ?_ ?_) ?_) ?_) ?_) ?_) ?_
  · simp only [typeKeys, List.map_append, List.map_map]
    rfl
  · unfold presenceKeys
    by_cases h : m.optionalFields = []
    · rw [if_pos h, if_pos (show (render alloc E name m).presence = [] by show m.optionalFields.map _ = _; rw [h]; rfl)]
      rfl
    · rw [if_neg h, if_neg (show ¬ (render alloc E name m).presence = [] from fun e => h (List.map_eq_nil_iff.mp e))]
      rfl
  · show List.map Decl.other (List.map _ _) = _
    unfold varKeys
    rw [List.map_map, List.map_map]
    rfl
  · show (List.flatMap _ (List.map _ _)) = _
    unfold unionKeys
    rw [List.flatMap_map, List.map_flatMap]
    rfl
  · show List.map _ (List.map _ _) = _
    unfold constKeys
    rw [List.map_map, List.map_map]
    rfl
  · show List.map funDecl (_ ++ _) = _
    unfold funKeys
    rw [List.map_append, List.map_append, List.map_flatMap, List.map_flatMap, List.map_flatMap, List.map_flatMap]
    simp only [List.map_append, List.map_flatMap, fieldFuns_keys, altFuns_keys, oneofFuns_keys]
  · rfl

variable {name nested m}

theorem Named.ok (H : Named name nested m) : ∀ k ∈ classKeys name nested m, k.Ok := by
  have fns : ∀ {x : Str} {l : List (Str × Sig)}, PlainName x → (∀ p ∈ l, p.1 ∈ fnPrefixes) → ∀ k ∈ fnKeys x l, k.Ok := by
    intro x l hx hl k hk
    obtain ⟨p, hp, rfl⟩ := List.mem_map.mp hk
    exact ⟨hl p hp, hx⟩
  intro k hk
  unfold classKeys at hk
  simp only [List.mem_append] at hk
  rcases hk with (((((hk | hk) | hk) | hk) | hk) | hk) | hk
  · unfold typeKeys at hk
    rcases List.mem_append.mp hk with hk | hk
    · obtain ⟨t, ht, rfl⟩ := List.mem_map.mp hk
      exact H.types t ht
    · rw [List.mem_singleton.mp hk]
      trivial
  · unfold presenceKeys at hk
    split at hk
    · exact nomatch hk
    · simp only [List.mem_cons, List.not_mem_nil, or_false] at hk
      rcases hk with rfl | rfl <;> trivial
  · obtain ⟨g, hg, rfl⟩ := List.mem_map.mp hk
    exact ⟨nil_mem, H.plain g (List.mem_append_left _ (List.mem_filter.mp hg).1)⟩
  · obtain ⟨o, ho, hk⟩ := List.mem_flatMap.mp hk
    have := H.plainOneofs o ho
    simp only [List.mem_cons, List.not_mem_nil, or_false] at hk
    rcases hk with rfl | rfl | rfl | rfl
    · exact this
    · exact ⟨by decide +kernel, this⟩
    · exact ⟨nil_mem, this⟩
    · exact ⟨by decide +kernel, this⟩
  · obtain ⟨g, hg, rfl⟩ := List.mem_map.mp hk
    exact H.plain g hg
  · rcases List.mem_append.mp hk with hk | hk
    · obtain ⟨g, hg, hk⟩ := List.mem_flatMap.mp hk
      exact fns (H.plain g (List.mem_append_left _ hg)) (fieldSigs_prefix g) k hk
    · obtain ⟨o, ho, hk⟩ := List.mem_flatMap.mp hk
      rcases List.mem_append.mp hk with hk | hk
      · exact fns (H.plainOneofs o ho) oneofSigs_prefix k hk
      · obtain ⟨g, hg, hk⟩ := List.mem_flatMap.mp hk
        exact fns (H.plain g (List.mem_append_right _ (List.mem_flatMap.mpr ⟨o, ho, hg⟩))) (altSigs_prefix g) k hk
  · unfold fixedKeys at hk
    simp only [List.mem_cons, List.not_mem_nil, or_false] at hk
    rcases hk with rfl | rfl | rfl | rfl | rfl | rfl <;> exact ⟨by decide +kernel, by decide +kernel⟩

/-- Where the key of a function in the class comes from. -/
theorem mem_funKeys {k : Key} (h : k ∈ funKeys m) :
    (∃ g ∈ m.fields ++ m.oneofs.flatMap (·.fields), ∃ p s, k = .fn p g.desc.name s) ∨
    ∃ o ∈ m.oneofs, ∃ p ∈ oneofSigs, k = .fn p.1 o.name p.2 := by
  rcases List.mem_append.mp h with hk | hk
  · obtain ⟨g, hg, hk⟩ := List.mem_flatMap.mp hk
    obtain ⟨p, _, rfl⟩ := List.mem_map.mp hk
    exact .inl ⟨g, List.mem_append_left _ hg, _, _, rfl⟩
  · obtain ⟨o, ho, hk⟩ := List.mem_flatMap.mp hk
    rcases List.mem_append.mp hk with hk | hk
    · obtain ⟨p, hp, rfl⟩ := List.mem_map.mp hk
      exact .inr ⟨o, ho, p, hp, rfl⟩
    · obtain ⟨g, hg, hk⟩ := List.mem_flatMap.mp hk
      obtain ⟨p, _, rfl⟩ := List.mem_map.mp hk
      exact .inl ⟨g, List.mem_append_right _ (List.mem_flatMap.mpr ⟨o, ho, hg⟩), _, _, rfl⟩

theorem Named.ne (H : Named name nested m) {g : GField} (hg : g ∈ m.fields ++ m.oneofs.flatMap (·.fields))
    {o : GOneof} (ho : o ∈ m.oneofs) : g.desc.name ≠ o.name :=
  (List.nodup_append.mp H.distinct).2.2 _ (List.mem_map.mpr ⟨g, hg, rfl⟩) _ (List.mem_map.mpr ⟨o, ho, rfl⟩)

theorem Named.fields (H : Named name nested m) :
    (m.fields ++ m.oneofs.flatMap (·.fields)).Pairwise fun g g' => g.desc.name ≠ g'.desc.name :=
  List.pairwise_map.mp (List.nodup_append.mp H.distinct).1

theorem Named.oneofs (H : Named name nested m) : m.oneofs.Pairwise fun o o' => o.name ≠ o'.name :=
  List.pairwise_map.mp (List.nodup_append.mp H.distinct).2.1

theorem Named.sameName (H : Named name nested m) :
    ∀ a ∈ classKeys name nested m, ∀ b ∈ classKeys name nested m, ¬ a.sameName b := by
  have key : ∀ p x s y, Key.fn p x s ∈ classKeys name nested m → Key.union y ∈ classKeys name nested m →
      ¬ (p = [] ∧ x = y) := by
    intro p x s y h1 h2 ⟨e1, e2⟩
    subst e1 e2
    unfold classKeys typeKeys presenceKeys varKeys unionKeys constKeys fixedKeys at h1 h2
    simp only [List.mem_append] at h1 h2
    have ho : ∃ o ∈ m.oneofs, o.name = x := by
      rcases h2 with (((((h | h) | h) | h) | h) | h) | h
      · simp at h
      · split at h <;> simp at h
      · simp at h
      · simpa [eq_comm] using h
      · simp at h
      · rcases mem_funKeys h with ⟨_, _, _, _, e⟩ | ⟨_, _, _, _, e⟩ <;> exact nomatch e
      · simp at h
    obtain ⟨o, ho, rfl⟩ := ho
    rcases h1 with (((((h | h) | h) | h) | h) | h) | h
    · simp at h
    · split at h <;> simp at h
    · simp at h
    · simp at h
    · simp at h
    · rcases mem_funKeys h with ⟨g, hg, _, _, e⟩ | ⟨_, _, q, hq, e⟩
      · injection e with _ e _
        exact H.ne hg ho e.symm
      · injection e with e _ _
        exact absurd e.symm ((by decide +kernel : ∀ q ∈ oneofSigs, q.1 ≠ []) q hq)
    · simp at h
  intro a ha b hb h
  cases a <;> cases b <;> first | exact h | skip
  · exact key _ _ _ _ hb ha h
  · exact key _ _ _ _ ha hb h

theorem Named.nodup_fun (H : Named name nested m) : (funKeys m).Nodup := by
  have disj : ∀ {x y : Str} {l l' : List (Str × Sig)}, x ≠ y → ∀ a ∈ fnKeys x l, ∀ b ∈ fnKeys y l', a ≠ b := by
    intro x y l l' hxy a ha b hb e
    obtain ⟨p, _, rfl⟩ := List.mem_map.mp ha
    obtain ⟨q, _, rfl⟩ := List.mem_map.mp hb
    injection e with _ e _
    exact hxy e
  have hf := List.pairwise_append.mp H.fields
  unfold funKeys List.Nodup
  rw [List.pairwise_append]
  refine ⟨?_, ?_, ?_⟩
  · rw [List.pairwise_flatMap]
    exact ⟨fun g _ => fnKeys_nodup (fieldSigs_nodup g), hf.1.imp fun h => disj h⟩
  · rw [List.pairwise_flatMap]
    have h1 := List.pairwise_flatMap.mp hf.2.1
    refine ⟨?_, (h1.2.and H.oneofs).imp_of_mem ?_⟩
    · intro o ho
      rw [List.pairwise_append, List.pairwise_flatMap]
      refine ⟨fnKeys_nodup (by decide +kernel), ⟨fun g _ => fnKeys_nodup (altSigs_nodup g), (h1.1 o ho).imp fun h => disj h⟩, ?_⟩
      intro a ha b hb
      obtain ⟨g, hg, hb⟩ := List.mem_flatMap.mp hb
      exact disj (Ne.symm (H.ne (List.mem_append_right _ (List.mem_flatMap.mpr ⟨o, ho, hg⟩)) ho)) a ha b hb
    · intro o o' ho ho' h a ha b hb
      rcases List.mem_append.mp ha with ha | ha <;> rcases List.mem_append.mp hb with hb | hb
      · exact disj h.2 a ha b hb
      · obtain ⟨g, hg, hb⟩ := List.mem_flatMap.mp hb
        exact disj (Ne.symm (H.ne (List.mem_append_right _ (List.mem_flatMap.mpr ⟨o', ho', hg⟩)) ho)) a ha b hb
      · obtain ⟨g, hg, ha⟩ := List.mem_flatMap.mp ha
        exact disj (H.ne (List.mem_append_right _ (List.mem_flatMap.mpr ⟨o, ho, hg⟩)) ho') a ha b hb
      · obtain ⟨g, hg, ha⟩ := List.mem_flatMap.mp ha
        obtain ⟨g', hg', hb⟩ := List.mem_flatMap.mp hb
        exact disj (h.1 g hg g' hg') a ha b hb
  · intro a ha b hb
    obtain ⟨g, hg, ha⟩ := List.mem_flatMap.mp ha
    obtain ⟨o, ho, hb⟩ := List.mem_flatMap.mp hb
    rcases List.mem_append.mp hb with hb | hb
    · exact disj (H.ne (List.mem_append_left _ hg) ho) a ha b hb
    · obtain ⟨g', hg', hb⟩ := List.mem_flatMap.mp hb
      exact disj (hf.2.2 g hg g' (List.mem_flatMap.mpr ⟨o, ho, hg'⟩)) a ha b hb

omit name nested m in
def Key.tag : Key → Nat
  | .type _ | .fieldNumber => 0
  | .presence | .presenceVar => 1
  | .var _ _ => 2
  | .union _ => 3
  | .const _ => 4
  | .fn _ _ _ => 5
  | .fixed _ _ => 6

/-- The keys in the list are of these sorts. -/
def Tagged (l : List Key) (ts : List Nat) : Prop := ∀ k ∈ l, k.tag ∈ ts

theorem Tagged.append {l l' : List Key} {ts ts' : List Nat} (h : Tagged l ts) (h' : Tagged l' ts') :
    Tagged (l ++ l') (ts ++ ts') := by
  intro k hk
  rcases List.mem_append.mp hk with hk | hk
  · exact List.mem_append_left _ (h k hk)
  · exact List.mem_append_right _ (h' k hk)

theorem Tagged.disjoint {l l' : List Key} {ts ts' : List Nat} (h : Tagged l ts) (h' : Tagged l' ts')
    (hd : ∀ t ∈ ts, t ∉ ts') : ∀ a ∈ l, ∀ b ∈ l', a ≠ b := by
  intro a ha b hb e
  subst e
  exact hd _ (h a ha) (h' a hb)

theorem tagged_type : Tagged (typeKeys name nested) [0] := by
  intro k hk
  rcases List.mem_append.mp hk with hk | hk
  · obtain ⟨t, _, rfl⟩ := List.mem_map.mp hk
    exact List.mem_cons_self
  · rw [List.mem_singleton.mp hk]
    exact List.mem_cons_self

theorem tagged_presence : Tagged (presenceKeys m) [1] := by
  intro k hk
  unfold presenceKeys at hk
  split at hk
  · exact nomatch hk
  · simp only [List.mem_cons, List.not_mem_nil, or_false] at hk
    rcases hk with rfl | rfl <;> exact List.mem_cons_self

theorem tagged_var : Tagged (varKeys m) [2] := by
  intro k hk
  obtain ⟨g, _, rfl⟩ := List.mem_map.mp hk
  exact List.mem_cons_self

theorem tagged_union : Tagged (unionKeys m) [2, 3, 5] := by
  intro k hk
  obtain ⟨o, _, hk⟩ := List.mem_flatMap.mp hk
  simp only [List.mem_cons, List.not_mem_nil, or_false] at hk
  rcases hk with rfl | rfl | rfl | rfl <;> simp [Key.tag]

theorem tagged_const : Tagged (constKeys m) [4] := by
  intro k hk
  obtain ⟨g, _, rfl⟩ := List.mem_map.mp hk
  exact List.mem_cons_self

theorem tagged_fun : Tagged (funKeys m) [5] := by
  intro k hk
  rcases mem_funKeys hk with ⟨_, _, _, _, rfl⟩ | ⟨_, _, _, _, rfl⟩ <;> exact List.mem_cons_self

theorem tagged_fixed : Tagged fixedKeys [6] := by
  unfold Tagged
  decide +kernel

theorem disjoint_append {α : Type} {l l' l'' : List α} (h : ∀ a ∈ l, ∀ b ∈ l'', a ≠ b) (h' : ∀ a ∈ l', ∀ b ∈ l'', a ≠ b) :
    ∀ a ∈ l ++ l', ∀ b ∈ l'', a ≠ b := fun a ha =>
  (List.mem_append.mp ha).elim (h a) (h' a)

theorem Named.nodup (H : Named name nested m) : (classKeys name nested m).Nodup := by
  have hf := List.pairwise_append.mp H.fields
  have t0 := tagged_type (name := name) (nested := nested)
  have t1 := tagged_presence (m := m)
  have t2 := tagged_var (m := m)
  have t3 := tagged_union (m := m)
  have t4 := tagged_const (m := m)
  have t5 := tagged_fun (m := m)
  unfold classKeys
  rw [List.nodup_append, List.nodup_append, List.nodup_append, List.nodup_append, List.nodup_append, List.nodup_append]
  refine ⟨⟨⟨⟨⟨⟨?_, ?_, ?_⟩, ?_, ?_⟩, ?_, ?_⟩, ?_, ?_⟩, H.nodup_fun, ?_⟩, by decide +kernel, ?_⟩
  · unfold typeKeys
    rw [List.nodup_append]
    refine ⟨?_, by decide, by simp⟩
    unfold List.Nodup
    rw [List.pairwise_map]
    exact H.typesDistinct.imp fun h e => h (by injection e)
  · unfold presenceKeys
    split <;> decide
  · exact t0.disjoint t1 (by decide)
  · unfold varKeys List.Nodup
    rw [List.pairwise_map]
    refine (hf.1.filter _).imp ?_
    intro a b h e
    injection e with _ e
    exact h e
  · exact (t0.append t1).disjoint t2 (by decide)
  · unfold unionKeys List.Nodup
    rw [List.pairwise_flatMap]
    refine ⟨?_, H.oneofs.imp ?_⟩
    · intro o _
      simp
    · intro o o' h
      simp [h]
  · refine disjoint_append ((t0.append t1).disjoint t3 (by decide)) ?_
    intro a ha b hb e
    subst e
    obtain ⟨g, hg, rfl⟩ := List.mem_map.mp ha
    obtain ⟨o, ho, hb⟩ := List.mem_flatMap.mp hb
    have := H.ne (List.mem_append_left _ (List.mem_filter.mp hg).1) ho
    simp [this] at hb
  · unfold constKeys List.Nodup
    rw [List.pairwise_map]
    refine H.fields.imp ?_
    intro a b h e
    injection e with e
    exact h e
  · exact (((t0.append t1).append t2).append t3).disjoint t4 (by decide)
  · refine disjoint_append (disjoint_append (((t0.append t1).append t2).disjoint t5 (by decide)) ?_) (t4.disjoint t5 (by decide))
    intro a ha b hb e
    subst e
    obtain ⟨o, ho, ha⟩ := List.mem_flatMap.mp ha
    simp only [List.mem_cons, List.not_mem_nil, or_false] at ha
    rcases ha with rfl | rfl | rfl | rfl
    · rcases mem_funKeys hb with ⟨_, _, _, _, e⟩ | ⟨_, _, _, _, e⟩ <;> exact nomatch e
    · rcases mem_funKeys hb with ⟨_, _, _, _, e⟩ | ⟨_, _, _, _, e⟩ <;> exact nomatch e
    · rcases mem_funKeys hb with ⟨_, _, _, _, e⟩ | ⟨_, _, _, _, e⟩ <;> exact nomatch e
    · rcases mem_funKeys hb with ⟨g, hg, _, _, e⟩ | ⟨_, _, q, hq, e⟩
      · injection e with _ e _
        exact H.ne hg ho e.symm
      · injection e with e _ _
        exact absurd e.symm ((by decide +kernel : ∀ q ∈ oneofSigs, q.1 ≠ "to_string_".toList) q hq)
  · exact (((((t0.append t1).append t2).append t3).append t4).append t5).disjoint tagged_fixed (by decide)

/-! ## The whole class -/

theorem Named.distinct' (H : Named name nested m) (alloc : Bool) (E : Types) : (render alloc E name m).Distinct nested where
  scope := by
    rw [declared_keys]
    exact pairwise_of_keys H.ok H.nodup H.sameName
  enumerators := by
    have e : (render alloc E name m).enumerators.map (·.1) = notSet :: m.fieldIds.map (·.2) := by
      show List.map _ (_ :: List.map _ _) = _
      rw [List.map_cons, List.map_map]
      rfl
    rw [e, List.nodup_cons]
    constructor
    · intro h
      obtain ⟨g, hg, e⟩ := List.mem_map.mp (H.ids.mem_iff.mp h)
      have e : upper g.desc.name = upper "not_set".toList := e
      have := upper_inj (H.plain g hg).chars (by decide) e
      exact (H.plain g hg).reserved (by rw [this]; decide +kernel)
    · refine H.ids.nodup_iff.mpr ?_
      unfold List.Nodup
      rw [List.pairwise_map]
      refine H.fields.imp_of_mem ?_
      intro a b ha hb h e
      exact h (upper_inj (H.plain a ha).chars (H.plain b hb).chars e)
  presence := by
    show (m.optionalFields.map _).Nodup
    rw [H.optional]
    unfold List.Nodup
    rw [List.pairwise_map]
    refine ((List.pairwise_append.mp H.fields).1.filter _).imp_of_mem ?_
    intro a b ha hb h e
    exact h (upper_inj (H.plain a (List.mem_append_left _ (List.mem_filter.mp ha).1)).chars
      (H.plain b (List.mem_append_left _ (List.mem_filter.mp hb).1)).chars e)
  members := by
    intro u hu
    obtain ⟨o, ho, rfl⟩ := List.mem_map.mp hu
    unfold List.Nodup
    rw [List.pairwise_map]
    have := (List.pairwise_flatMap.mp (List.pairwise_append.mp H.fields).2.1).1 o ho
    exact (this.filter _).imp fun h e => h (under_inj e)

theorem keyword_table : ∀ n ∈ keywords, ∀ p ∈ fnPrefixes, p <+: n → p = [] := by decide +kernel

theorem inherited_table : ∀ n ∈ nameInherited, ∀ p ∈ fnPrefixes, p <+: n → p = [] ∨ n.drop p.length = "check_type".toList := by
  decide +kernel

theorem keyword_kind : ∀ n ∈ keywords, nameKind n = 3 := by decide +kernel

theorem inherited_kind : ∀ n ∈ nameInherited, nameKind n = 3 := by decide +kernel

theorem Key.not_keyword {k : Key} (h : k.Ok) : k.decl.name ∉ keywords := by
  intro hk
  have hkind := (keyword_kind _ hk).symm.trans (k.kind_eq h)
  cases k with
  | fn p x s =>
    have := keyword_table _ hk p h.1 ⟨x, rfl⟩
    subst this
    exact h.2.keyword hk
  | union x => exact h.keyword hk
  | presence => exact absurd hk (by decide +kernel)
  | fixed n s => exact absurd hk ((by decide +kernel : ∀ n ∈ fixedNames, n ∉ keywords) n h.1)
  | _ => exact absurd hkind (by simp only [Key.kind]; decide)

theorem Key.not_inherited {k : Key} (h : k.Ok) : k.decl.name ∉ nameInherited := by
  intro hk
  have hkind := (inherited_kind _ hk).symm.trans (k.kind_eq h)
  cases k with
  | fn p x s =>
    rcases inherited_table _ hk p h.1 ⟨x, rfl⟩ with e | e
    · subst e
      exact h.2.inherited hk
    · have e : (p ++ x).drop p.length = _ := e
      rw [List.drop_left] at e
      exact h.2.reserved (by rw [e]; decide +kernel)
  | union x => exact h.inherited hk
  | presence => exact absurd hk (by decide +kernel)
  | fixed n s => exact absurd hk ((by decide +kernel : ∀ n ∈ fixedNames, n ∉ nameInherited) n h.1)
  | _ => exact absurd hkind (by simp only [Key.kind]; decide)

theorem upper_keyword_table : ∀ k ∈ keywords, ∃ c ∈ k, ∀ d ∈ nameChars, d.toUpper ≠ c := by decide +kernel

theorem upper_not_keyword {x : Str} (h : PlainName x) : upper x ∉ keywords := by
  intro hk
  obtain ⟨c, hc, hd⟩ := upper_keyword_table _ hk
  obtain ⟨d, hdx, e⟩ := List.mem_map.mp hc
  exact hd d (h.chars d hdx) e

theorem Named.compiles (H : Named name nested m) (alloc : Bool) (E : Types) : (render alloc E name m).Compiles nested where
  distinct := H.distinct' alloc E
  keyword := by
    intro d hd
    rw [declared_keys] at hd
    obtain ⟨k, hk, rfl⟩ := List.mem_map.mp hd
    exact Key.not_keyword (H.ok k hk)
  enumerators := by
    intro e he
    rcases List.mem_cons.mp he with rfl | he
    · decide +kernel
    · obtain ⟨p, hp, rfl⟩ := List.mem_map.mp he
      obtain ⟨g, hg, e⟩ := List.mem_map.mp (H.ids.mem_iff.mp (List.mem_map.mpr ⟨p, hp, rfl⟩))
      show p.2 ∉ keywords
      rw [← e]
      exact upper_not_keyword (H.plain g hg)
  hidden := by
    intro d hd
    rw [declared_keys] at hd
    obtain ⟨k, hk, rfl⟩ := List.mem_map.mp hd
    exact Key.not_inherited (H.ok k hk)

end

end EP.Gen
