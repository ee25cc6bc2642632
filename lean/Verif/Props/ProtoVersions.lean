import Verif.Proof.Evolved
import Verif.Props.Instance
import Verif.Props.TooLarge

/-!
# Two versions of `.proto` files: C92

C56, C57, C89 and C90 are about two versions of a declaration.  Here the two versions are of the `.proto` files, and the
programs use the classes generated from them.
-/

namespace EP
open Gen Spec

/-- What is left of a value of the newer type for the older one. -/
def ElemTy.Older.shownAs {s t : ElemTy} (m : t.Older) (e : m.old = s) (v : t.Val) : s.Val := e ▸ m.shown v

/-- A value of the older type as one of the newer. -/
def ElemTy.Older.liftedAs {s t : ElemTy} (m : t.Older) (e : m.old = s) (v : s.Val) : t.Val := m.lifted (e ▸ v)

/-- A class that the other claims find nothing wrong with: `own` is defined in the files as `m`, its template parameters
are given the values `args`, and it compiles (C47, C49, C67, C68, C77). -/
structure Usable (files : List (Str × List MsgDesc)) (P : Str → List Str) (own : Str) (m : MsgDesc) (args : List Nat) : Prop where
  ordered : Ordered files
  counted : Counted files
  distinguished : Distinguished files
  unshadowed : Unshadowed files takenNames
  noOwn : NoOwn files
  lengths : ∀ own m f, Defined files own m → f ∈ m.fields → f.maxLength < 2147483648
  templates : templates files = .ok P
  defined : Defined files own m
  enum : ∀ f ∈ m.fields, f.oneofIndex ≠ none → f.proto3Optional = false → f.type ≠ .enum
  count : args.length = (P own).length
  good : ∀ a ∈ args, GoodLength a
  names : PlainNames m.name (m.nested.map (·.name) ++ m.enums) m.fields m.oneofs

/-- The class and the types and lengths of its members. -/
structure IsClass (files : List (Str × List MsgDesc)) (P : Str → List Str) (own : Str) (m : MsgDesc) (args : List Nat)
    (E : Types) (K : Class) : Prop where
  message : ∃ g, mkMessage own m.fields m.oneofs = .ok g ∧ K = render false E m.name g
  type : instantiate files P (allClasses files).length own args = some (.msg K.fs K.os)
  implements : Implements E K m.fields m.oneofs

theorem Usable.isClass {files : List (Str × List MsgDesc)} {P : Str → List Str} {own : Str} {m : MsgDesc} {args : List Nat}
    (h : Usable files P own m args) : ∃ E K, IsClass files P own m args E K := by
  obtain ⟨g, E, e1, e2, e3⟩ := C77_implements_partial h.counted h.distinguished h.unshadowed h.noOwn h.ordered h.lengths
    h.templates h.defined h.enum h.count h.good
  exact ⟨E, render false E m.name g, ⟨g, e1, rfl⟩, e2, e3 _ ((mkMessage_named (h.ordered.fields _ _ h.defined) h.names e1).compiles false E)⟩

section
variable {old new : List (Str × List MsgDesc)} {P P' : Str → List Str} {own : Str} {l m : MsgDesc} {args args' : List Nat}

/-- **C92**: an instance of a class from older files is an older version of any instance of the class from newer files;
whatever the lengths. -/
theorem C92_types (hN : NewerFiles old new) (hv : ∀ own m, Defined old own m → FieldsValid m.fields m.oneofs)
    (hv' : ∀ own m, Defined new own m → FieldsValid m.fields m.oneofs) {n n' : Nat} {S T : ElemTy}
    (h : instantiate old P n own args = some S) (h' : instantiate new P' n' own args' = some T) :
    ∃ o : T.Older, o.old = S :=
  instantiate_older hN hv hv' n n' h h'

end

section
variable {fs fs' : Fields} {os os' : Oneofs}
local notation "S" => ElemTy.msg fs os
local notation "T" => ElemTy.msg fs' os'

theorem older_receiver {β : Type} [ReadBuffer β] (M : ReadModel β) (o : (T).Older) (e : o.old = S) (h : (T).WF) (h' : (S).WF)
    (v : (T).Val) (b : β) (fuel : Nat) (hb : M.Inv b) (hv : M.view b = (T).encode v) (hf : (M.view b).length < fuel) :
    ((S).Fits (o.shownAs e v) ∧ ∃ b' z, (S).cls.deserialize fuel b (S).cls.init = .ok (.noErrors, b', z) ∧
      M.view b' = [] ∧ (S).abs z = o.shownAs e v) ∨
    (¬ (S).Fits (o.shownAs e v) ∧ ∃ b' z, (S).cls.deserialize fuel b (S).cls.init = .ok (.arrayFull, b', z)) := by
  cases o with
  | msg f o =>
    have e : ElemTy.msg f.old o.old = ElemTy.msg fs os := e
    cases e
    exact C90_versions M f o readable_enc h h' v _ b fuel (Or.inl rfl) hb hv hf

theorem newer_receiver {β : Type} [ReadBuffer β] (M : ReadModel β) (o : (T).Older) (e : o.old = S) (h : (T).WF)
    (v : (S).Val) (b : β) (fuel : Nat) (hb : M.Inv b) (hv : M.view b = (S).encode v) (hf : (M.view b).length < fuel) :
    ((T).Fits (o.liftedAs e v) ∧ ∃ b' z, (T).cls.deserialize fuel b (T).cls.init = .ok (.noErrors, b', z) ∧
      M.view b' = [] ∧ (T).abs z = o.liftedAs e v) ∨
    (¬ (T).Fits (o.liftedAs e v) ∧ ∃ b' z, (T).cls.deserialize fuel b (T).cls.init = .ok (.arrayFull, b', z)) := by
  cases o with
  | msg f o =>
    have e : ElemTy.msg f.old o.old = ElemTy.msg fs os := e
    cases e
    have e : (T).encode ((ElemTy.Older.msg f o).lifted v) = (ElemTy.msg f.old o.old).encode v :=
      (ElemTy.Older.msg f o).encode_lifted v
    exact C90_encodings M fs' os' readable_enc h _ _ b fuel (Or.inl rfl) hb (hv.trans e.symm) hf

end

section
variable (K K' : Class)
local notation "R" => ElemTy.msg (Class.fs K) (Class.os K)
local notation "Q" => ElemTy.msg (Class.fs K') (Class.os K')

/-- What a program with the class `K` receives of what one with the class `K'` sends: `seen v` of the value `v` if this
fits, otherwise `ARRAY_FULL`. -/
def Receives (made : K'.Obj → Prop) (seen : (ElemTy.msg K'.fs K'.os).Val → (ElemTy.msg K.fs K.os).Val) : Prop :=
  ∀ (ω : Type) [WriteBuffer ω] (W : WriteModel ω) (x : K'.Obj) (w w' : ω) (c : List Byte) (room : Nat), made x →
    W.Rep w c room → ((Q).encode ((Q).canon ((Q).abs x))).length < 2 ^ 32 → Class.runSerialize K' x w = .ok (.noErrors, w') →
    ∃ bs room', W.Rep w' (c ++ bs) room' ∧
      ∀ (β : Type) [ReadBuffer β] (M : ReadModel β) (b : β) (fuel : Nat), M.Inv b → M.view b = bs → bs.length < fuel →
        ((R).Fits (seen ((Q).canon ((Q).abs x))) ∧ ∃ b' z, Class.runDeserialize K fuel b (Class.new K) = .ok (.noErrors, b', z) ∧
          M.view b' = [] ∧ (R).abs z = seen ((Q).canon ((Q).abs x))) ∨
        (¬ (R).Fits (seen ((Q).canon ((Q).abs x))) ∧
          ∃ b' z, Class.runDeserialize K fuel b (Class.new K) = .ok (.arrayFull, b', z))

end

section
variable {old new : List (Str × List MsgDesc)} {P P' : Str → List Str} {own : Str} {l m : MsgDesc} {args args' : List Nat}
  {E E' : Types} {K K' : Class}
local notation "S" => ElemTy.msg (Class.fs K) (Class.os K)
local notation "T" => ElemTy.msg (Class.fs K') (Class.os K')

/-- **C92**.  Two versions of `.proto` files, with classes generated from both: there is a way in which the members of
the older class are among those of the newer such that what is sent with either is received with the other accordingly. -/
theorem C92_receives_partial (hN : NewerFiles old new) (hU : Usable old P own l args) (hU' : Usable new P' own m args')
    (hK : IsClass old P own l args E K) (hK' : IsClass new P' own m args' E' K') :
    ∃ (o : (T).Older) (e : o.old = S),
      Receives K K' (Made K' m.fields m.oneofs) (o.shownAs e) ∧ Receives K' K (Made K l.fields l.oneofs) (o.liftedAs e) := by
  obtain ⟨o, e⟩ := C92_types hN hU.ordered.fields hU'.ordered.fields hK.type hK'.type
  refine ⟨o, e, ?_, ?_⟩
  · intro ω _ W x w w' c room hx hw hl hr
    have hx := hK'.implements.reach hx
    rw [hK'.implements.serialize x w hx] at hr
    have ha := C13_serialize_partial W _ _ x w c room hK'.implements.wf hx hw hl
    rw [hr] at ha
    rcases ha with ⟨_, ha⟩ | ⟨ha, _⟩
    · refine ⟨_, _, ha, fun β _ M b fuel hb hv hf => ?_⟩
      have hn : (S).Reach (Class.new K) := by
        rw [hK.implements.new]
        exact .init
      rw [hK.implements.deserialize ⟨β, M, b, hb⟩ fuel _ hn, hK.implements.new]
      exact older_receiver M o e hK'.implements.wf hK.implements.wf _ b fuel hb hv (hv ▸ hf)
    · exact nomatch ha
  · intro ω _ W x w w' c room hx hw hl hr
    have hx := hK.implements.reach hx
    rw [hK.implements.serialize x w hx] at hr
    have ha := C13_serialize_partial W _ _ x w c room hK.implements.wf hx hw hl
    rw [hr] at ha
    rcases ha with ⟨_, ha⟩ | ⟨ha, _⟩
    · refine ⟨_, _, ha, fun β _ M b fuel hb hv hf => ?_⟩
      have hn : (T).Reach (Class.new K') := by
        rw [hK'.implements.new]
        exact .init
      rw [hK'.implements.deserialize ⟨β, M, b, hb⟩ fuel _ hn, hK'.implements.new]
      exact newer_receiver M o e hK'.implements.wf _ b fuel hb hv (hv ▸ hf)
    · exact nomatch ha

end

namespace C92Example
open C49Example C77Example

/-- `Grown`, computed. -/
def grown {α β : Type} (r : α → β → Bool) : List α → List β → Bool
  | [], [] => true
  | [], _ :: m => grown r [] m
  | _ :: _, [] => false
  | a :: l, b :: m => (r a b && grown r l m) || grown r (a :: l) m

theorem grown_sound {α β : Type} {r : α → β → Bool} {R : α → β → Prop} (h : ∀ a b, r a b = true → R a b) :
    ∀ (l : List α) (m : List β), grown r l m = true → Grown R l m
  | [], [], _ => .nil
  | [], _ :: m, e => .new (grown_sound h [] m (by rw [grown] at e; exact e))
  | _ :: _, [], e => by rw [grown] at e; exact nomatch e
  | a :: l, b :: m, e => by
    rw [grown, Bool.or_eq_true, Bool.and_eq_true] at e
    rcases e with ⟨e1, e2⟩ | e
    · exact .keep (h a b e1) (grown_sound h l m e2)
    · exact .new (grown_sound h (a :: l) m e)

def sameField (f g : FieldDesc) : Bool :=
  decide (f.number = g.number ∧ f.repeated = g.repeated ∧ f.type = g.type ∧ f.typeName = g.typeName)

theorem sameField_sound (f g : FieldDesc) (h : sameField f g = true) : SameField f g :=
  have ⟨h1, h2, h3, h4⟩ := of_decide_eq_true h
  ⟨h1, h2, h3, h4⟩

def keptField (f g : FieldDesc) : Bool := sameField f g && (!f.proto3Optional || g.proto3Optional)

theorem keptField_sound (f g : FieldDesc) (h : keptField f g = true) : KeptField f g := by
  rw [keptField, Bool.and_eq_true] at h
  refine ⟨sameField_sound f g h.1, fun e => ?_⟩
  rw [e] at h
  exact h.2

theorem newerFiles_of {old new : List (Str × List MsgDesc)}
    (h : ∀ d ∈ allDefs old, ∀ e ∈ allDefs new, d.1 = e.1 →
      grown keptField (loose d.2) (loose e.2) = true ∧ grown (grown sameField) (groups d.2) (groups e.2) = true) :
    NewerFiles old new := fun own l m hl hm =>
  have ⟨h1, h2⟩ := h (own, l) (mem_allDefs.mpr hl) (own, m) (mem_allDefs.mpr hm) rfl
  ⟨grown_sound keptField_sound _ _ h1, grown_sound (grown_sound sameField_sound) _ _ h2⟩

def inOneof (i : Nat) (f : FieldDesc) : FieldDesc := { f with oneofIndex := some i }
def optional (i : Nat) (f : FieldDesc) : FieldDesc := { f with oneofIndex := some i, proto3Optional := true }

/-- `message Part { int32 x = 1; }
message M { int32 a = 1; repeated Part part = 3; oneof pick { int32 b = 4; } }` -/
def oldM : MsgDesc := .mk "M".toList
  [field "a" 1 (.scalar .int32), field "part" 3 .message ".Part" true, inOneof 0 (field "b" 4 (.scalar .int32))]
  ["pick".toList] [] []
def older : List (Str × List MsgDesc) := [([], [msg "Part" [field "x" 1 (.scalar .int32)], oldM])]

/-- `message Part { int32 x = 1; string label = 2; }  message Extra { bytes data = 1 [maxLength 4]; }
message M { oneof other { Extra e = 7; } optional int32 first = 1; Extra extra = 2; repeated Part part = 3;
oneof choice { string s = 5; int32 b = 4; } }`: `a` is called `first` and is optional, `pick` is called `choice`. -/
def newM : MsgDesc := .mk "M".toList
  [inOneof 0 (field "e" 7 .message ".Extra"), optional 2 (field "first" 1 (.scalar .int32)),
    field "extra" 2 .message ".Extra", field "part" 3 .message ".Part" true,
    inOneof 1 (field "s" 5 .string), inOneof 1 (field "b" 4 (.scalar .int32))]
  ["other".toList, "choice".toList, "_first".toList] [] []
def newer : List (Str × List MsgDesc) :=
  [([], [msg "Part" [field "x" 1 (.scalar .int32), field "label" 2 .string],
    msg "Extra" [field "data" 1 .bytes (maxLength := 4)], newM])]

example : NewerFiles older newer := newerFiles_of (by decide +kernel)

/-- Not the other way round, and not with another type, or with fewer `optional`s. -/
example : ¬ grown keptField (loose newM) (loose oldM) ∧
    ¬ NewerMessage oldM (.mk "M".toList [field "a" 1 .string] [] [] []) := by
  refine ⟨by decide +kernel, fun h => ?_⟩
  have h : Grown KeptField [field "a" 1 (.scalar .int32), field "part" 3 .message ".Part" true] [field "a" 1 .string] := h.fields
  cases h with
  | keep h _ => exact nomatch h.type
  | new h => exact nomatch h

theorem ordered_files {files : List (Str × List MsgDesc)} (h1 : ∀ d ∈ allDefs files, FieldsValid d.2.fields d.2.oneofs)
    (h2 : (allClasses files).Nodup)
    (h3 : ∀ d ∈ allDefs files, ∀ f ∈ d.2.fields, f.type = .message → f.typeName ≠ d.1 →
      [f.typeName, d.1].isSublist (allClasses files) = true) : Ordered files where
  fields own m h := h1 (own, m) (mem_allDefs.mpr h)
  distinct := h2
  ordered own m f h hf ht hne := List.isSublist_iff_sublist.mp (h3 (own, m) (mem_allDefs.mpr h) f hf ht hne)

theorem olderOrdered : Ordered older := ordered_files (by decide +kernel) (by decide +kernel) (by decide +kernel)
theorem newerOrdered : Ordered newer := ordered_files (by decide +kernel) (by decide +kernel) (by decide +kernel)

theorem usable_of {files : List (Str × List MsgDesc)} {own : Str} {m : MsgDesc} {args : List Nat} (ho : Ordered files)
    {P : Str → List Str} (hP : templates files = .ok P)
    (h1 : ∀ d ∈ allDefs files, ∀ f ∈ d.2.fields, f.type = .message → f.typeName ≠ d.1 → f.repeated = true → f.maxLength ≠ 0 →
      needs files (allClasses files).length f.typeName = [])
    (h2 : ∀ own ∈ allClasses files, ∀ p ∈ needs files (allClasses files).length own,
      ∀ q ∈ needs files (allClasses files).length own, p.render own = q.render own → p = q)
    (h3 : Unshadowed files takenNames)
    (h4 : ∀ d ∈ allDefs files, ∀ f ∈ d.2.fields, f.typeName ≠ d.1)
    (h5 : ∀ d ∈ allDefs files, ∀ f ∈ d.2.fields, f.maxLength < 2147483648)
    (h6 : (own, m) ∈ allDefs files)
    (h7 : ∀ f ∈ m.fields, f.oneofIndex ≠ none → f.proto3Optional = false → f.type ≠ .enum)
    (h8 : args.length = (P own).length) (h9 : ∀ a ∈ args, GoodLength a)
    (h10 : PlainNames m.name (m.nested.map (·.name) ++ m.enums) m.fields m.oneofs) : Usable files P own m args where
  ordered := ho
  counted := counted_of ho h1
  distinguished := distinguished_of ho h2
  unshadowed := h3
  noOwn := noOwn_of h4
  lengths _ _ f hm hf := h5 _ (mem_allDefs.mpr hm) f hf
  templates := hP
  defined := mem_allDefs.mp h6
  enum := h7
  count := h8
  good := h9
  names := h10

/-- The template parameters. -/
def params (files : List (Str × List MsgDesc)) : Str → List Str := (templates files).toOption.getD fun _ => []

theorem params_ok {files : List (Str × List MsgDesc)} (h : (templates files).toOption.isSome = true) :
    templates files = .ok (params files) := by
  rw [params]
  match templates files, h with
  | .ok P, _ => rfl

/-- The classes `M<2>` of the older files and `M<3, 8, 10>` of the newer. -/
theorem olderUsable : Usable older (params older) ".M".toList oldM [2] :=
  usable_of olderOrdered (params_ok (by decide +kernel)) (by decide +kernel) (by decide +kernel)
    (unshadowed_of olderOrdered (by decide +kernel) (by decide +kernel)) (by decide +kernel) (by decide +kernel)
    (List.mem_of_getElem? (i := 1) rfl) (by decide +kernel) (by decide +kernel) (by simp [GoodLength]) (by decide +kernel)

theorem newerUsable : Usable newer (params newer) ".M".toList newM [3, 8, 10] :=
  usable_of newerOrdered (params_ok (by decide +kernel)) (by decide +kernel) (by decide +kernel)
    (unshadowed_of newerOrdered (by decide +kernel) (by decide +kernel)) (by decide +kernel) (by decide +kernel)
    (List.mem_of_getElem? (i := 2) rfl) (by decide +kernel) (by decide +kernel) (by simp [GoodLength]) (by decide +kernel)

/-- The conditions of `C92_receives_partial` are met. -/
example : ∃ E K E' K' o e, IsClass older (params older) ".M".toList oldM [2] E K ∧
    IsClass newer (params newer) ".M".toList newM [3, 8, 10] E' K' ∧
    Receives K K' (Made K' newM.fields newM.oneofs) (ElemTy.Older.shownAs o e) ∧
    Receives K' K (Made K oldM.fields oldM.oneofs) (ElemTy.Older.liftedAs o e) := by
  obtain ⟨E, K, hK⟩ := olderUsable.isClass
  obtain ⟨E', K', hK'⟩ := newerUsable.isClass
  obtain ⟨o, e, h⟩ := C92_receives_partial (newerFiles_of (by decide +kernel)) olderUsable newerUsable hK hK'
  exact ⟨E, K, E', K', o, e, hK, hK', h⟩

/-- The types of the two classes. -/
example : instantiate older (params older) 3 ".M".toList [2] =
      some (.msg (.plain 1 (.scalar .int32) (.repeated 3 2 (.msg (.plain 1 (.scalar .int32) .nil) .nil) .nil))
        (.cons (.cons 4 (.scalar .int32) .nil) .nil)) ∧
    instantiate newer (params newer) 3 ".M".toList [3, 8, 10] =
      some (.msg (.optional 1 (.scalar .int32) (.plain 2 (.msg (.plain 1 (.str 4) .nil) .nil)
          (.repeated 3 3 (.msg (.plain 1 (.scalar .int32) (.plain 2 (.str 8) .nil)) .nil) .nil)))
        (.cons (.cons 7 (.msg (.plain 1 (.str 4) .nil) .nil) .nil)
          (.cons (.cons 5 (.str 10) (.cons 4 (.scalar .int32) .nil)) .nil))) := by
  decide +kernel

end C92Example
end EP
