import Verif.Proof.GenMade
import Verif.Proof.GenNumbers
import Verif.Proof.GenDecide
import Verif.Props.Generator
import Verif.Props.Safety

/-!
# The generated class: C67–C71

The templates (TypeDefMsg.h, TypeOneof.h, Field*.h), instantiated for a message, give a class in which everything
is referred to by name (`Gen.render`).  The theorems of the other files are about the class of the declaration;
these relate the two.
-/

namespace EP
open Gen Spec

section
variable (E : Types) (own name : Str) (nested : List Str) (fields : List FieldDesc) (oneofs : List Str)

/-- What is called a message is one. -/
def MessagesAre : Prop := ∀ f ∈ fields, f.type = .message → (E.message f).isMsg = true

instance : Decidable (MessagesAre E fields) := by unfold MessagesAre; infer_instance

/-- No field of the type of the message itself; no enum in a oneof. -/
structure Sound : Prop where
  recursive : ∀ f ∈ fields, f.typeName ≠ own
  enum : ∀ f ∈ fields, f.oneofIndex ≠ none → f.proto3Optional = false → f.type ≠ .enum

/-! ## C67 -/

/-- **C67**.  If the generated class compiles, each of its functions does what the declaration says. -/
def C67_Statement : Prop :=
  FieldsValid fields oneofs → E.Good fields → MessagesAre E fields → ∀ m, mkMessage own fields oneofs = .ok m →
    (render false E name m).Compiles nested → Implements E (render false E name m) fields oneofs

/-- **C67** for messages without a field of their own type or an enum in a oneof. -/
theorem C67_implements_partial (hs : Sound own fields) : C67_Statement E own name nested fields oneofs := by
  intro h hE hm m e hC
  have key : ∀ o ∈ m.oneofs, ∀ g ∈ o.fields, g.desc.type ≠ .enum := by
    obtain ⟨m', e', _, _, hp, ho, _⟩ := mkMessage_spec (own := own) h
    rw [e] at e'
    injection e' with e'
    subst e'
    obtain ⟨os, e1, _, e3, _⟩ := mkOneofs_spec (own := own) h oneofs 0 (by omega)
    have hos : m.oneofs = os := by
      unfold mkMessage at e
      rw [e1] at e
      injection e with e
      subst e
      rfl
    intro o hoo g hg
    have hoo' := hoo
    rw [hos] at hoo'
    rw [ho o hoo] at hg
    obtain ⟨f, hf, rfl⟩ := List.mem_map.mp hg
    obtain ⟨h1, h2⟩ := List.mem_filter.mp hf
    have h2 : f.oneofIndex = some o.index := by simpa using h2
    exact hs.enum f h1 (by rw [h2]; simp) ((e3 o hoo').2.2 f h1 h2)
  rw [render_alloc key] at hC ⊢
  exact (implements h hs.recursive hm hE e hC.distinct).1

section
variable {E own name nested fields oneofs} {m : GMessage} (hs : Sound own fields) (h : FieldsValid fields oneofs)
  (hE : E.Good fields) (hm : MessagesAre E fields) (e : mkMessage own fields oneofs = .ok m)
  (hC : (render false E name m).Compiles nested)

local notation "K" => render false E name m
local notation "T" => ElemTy.msg (Class.fs (render false E name m)) (Class.os (render false E name m))

include hs h hE hm e hC

/-- Any object a program makes with the functions of the class is one the other theorems are about. -/
theorem C67_objects_partial {x : Class.Obj K} (hx : Made K fields oneofs x) : (T).WF ∧ (T).Reach x :=
  have hI := C67_implements_partial E own name nested fields oneofs hs h hE hm m e hC
  ⟨hI.wf, hI.reach hx⟩

/-- C17 for the generated class: what one object writes, a new object reads. -/
theorem C67_round_trip_partial {ω : Type} [WriteBuffer ω] (W : WriteModel ω) {x : Class.Obj K} (w w' : ω)
    (c : List Byte) (room : Nat) (hx : Made K fields oneofs x) (hw : W.Rep w c room)
    (hl : ((T).encode ((T).canon ((T).abs x))).length < 2 ^ 32)
    (hr : Class.runSerialize K x w = .ok (.noErrors, w')) :
    ∃ bs room', W.Rep w' (c ++ bs) room' ∧
      ∀ (β : Type) [ReadBuffer β] (M : ReadModel β) (b : β) (fuel : Nat), M.Inv b → M.view b = bs → bs.length < fuel →
        ∃ b' z, Class.runDeserialize K fuel b (Class.new K) = .ok (.noErrors, b', z) ∧ M.view b' = [] ∧
          (T).abs z = (T).canon ((T).abs x) := by
  have hI := C67_implements_partial E own name nested fields oneofs hs h hE hm m e hC
  have hx := hI.reach hx
  rw [hI.serialize x w hx] at hr
  obtain ⟨bs, room', h1, h2⟩ := C17_round_trip_partial W (K).fs (K).os x (T).cls.init w w' c room hI.wf hx (.inl rfl) hw hl hr
  refine ⟨bs, room', h1, fun β _ M b fuel hb hv hf => ?_⟩
  have hn : (T).Reach (Class.new K) := by
    rw [hI.new]
    exact .init
  rw [hI.deserialize ⟨β, M, b, hb⟩ fuel _ hn, hI.new]
  exact h2 β M b fuel hb hv hf

/-! ## C69 -/

/-- **C69** for messages without a field of their own type or an enum in a oneof. -/
theorem C69_no_ub_partial {P : Class.Obj K → Prop} {x : Class.Obj K} (hP : ∀ z, P z → Made K fields oneofs z)
    (hx : Made K fields oneofs x) : ¬ Use K fields oneofs P x .ub := fun hu =>
  have hI := C67_implements_partial E own name nested fields oneofs hs h hE hm m e hC
  (hI.called hu (fun z hz => hI.reach (hP z hz)) (hI.reach hx)).no_ub hI.wf (hI.reach hx)

/-- Nor has writing, provided the encoding is shorter than `2^32` bytes; whatever the buffer. -/
theorem C69_serialize_partial {ω : Type} [WriteBuffer ω] (W : WriteModel ω) {x : Class.Obj K} (w : ω) (c : List Byte)
    (room : Nat) (hx : Made K fields oneofs x) (hw : W.Rep w c room)
    (hl : ((T).encode ((T).canon ((T).abs x))).length < 2 ^ 32) : ∃ r, Class.runSerialize K x w = .ok r := by
  have hI := C67_implements_partial E own name nested fields oneofs hs h hE hm m e hC
  have hx := hI.reach hx
  rw [hI.serialize x w hx]
  exact (C13_serialize_partial W (K).fs (K).os x w c room hI.wf hx hw hl).exists.imp fun r h => h.1

end

/-! ## An enum in a oneof

The enum of a oneof is never constructed (`oneof_allocation_required`), which is why `Sound` excludes it above.  All else
being as generated, a class that does construct it is right without that restriction: the missing construction is the
only thing wrong with such a message. -/

section
variable {E own name nested fields oneofs} {m : GMessage} (hr : ∀ f ∈ fields, f.typeName ≠ own)
  (h : FieldsValid fields oneofs) (hE : E.Good fields) (hm : MessagesAre E fields)
  (e : mkMessage own fields oneofs = .ok m) (hC : (render false E name m).Compiles nested)

include hr h hE hm e hC

/-- **C67** for messages without a field of their own type, of the class that constructs every member. -/
theorem C67_constructed_partial : Implements E (render true E name m) fields oneofs :=
  have hd : (render true E name m).declared nested = (render false E name m).declared nested :=
    (declared_keys name nested m true E).trans (declared_keys name nested m false E).symm
  (implements h hr hm hE e ⟨hd ▸ hC.distinct.scope, hC.distinct.enumerators, hC.distinct.presence,
    hC.distinct.members⟩).1

/-- **C69** of the class that constructs every member. -/
theorem C69_constructed_partial {P : Class.Obj (render true E name m) → Prop} {x : Class.Obj (render true E name m)}
    (hP : ∀ z, P z → Made (render true E name m) fields oneofs z) (hx : Made (render true E name m) fields oneofs x) :
    ¬ Use (render true E name m) fields oneofs P x .ub := fun hu =>
  have hI := C67_constructed_partial hr h hE hm e hC
  (hI.called hu (fun z hz => hI.reach (hP z hz)) (hI.reach hx)).no_ub hI.wf (hI.reach hx)

end

/-- **C69**.  Whatever functions of a generated class a program calls: no undefined behaviour. -/
def C69_Statement : Prop :=
  FieldsValid fields oneofs → E.Good fields → MessagesAre E fields → ∀ m, mkMessage own fields oneofs = .ok m →
    (render false E name m).Compiles nested →
    ∀ (P : Class.Obj (render false E name m) → Prop) x, (∀ z, P z → Made (render false E name m) fields oneofs z) →
      Made (render false E name m) fields oneofs x → ¬ Use (render false E name m) fields oneofs P x .ub

/-! ## C68 -/

/-- The characters of an identifier in a `.proto` file. -/
def identChars : List Char := "abcdefghijklmnopqrstuvwxyzABCDEFGHIJKLMNOPQRSTUVWXYZ_0123456789".toList

/-- What protoc asks of the names in a message: identifiers, and no two the same. -/
structure ProtoNames : Prop where
  ident : ∀ x ∈ name :: nested ++ fields.map (·.name) ++ oneofs, x ≠ [] ∧ (∀ c ∈ x, c ∈ identChars) ∧
    ∀ c ∈ x.head?, c ∉ "0123456789".toList
  distinct : (nested ++ fields.map (·.name) ++ oneofs).Nodup

instance : Decidable (ProtoNames name nested fields oneofs) :=
  decidable_of_iff ((∀ x ∈ name :: nested ++ fields.map (·.name) ++ oneofs, x ≠ [] ∧ (∀ c ∈ x, c ∈ identChars) ∧
    ∀ c ∈ x.head?.toList, c ∉ "0123456789".toList) ∧ (nested ++ fields.map (·.name) ++ oneofs).Nodup)
    ⟨fun ⟨h1, h2⟩ => ⟨fun x hx => ⟨(h1 x hx).1, (h1 x hx).2.1, fun c hc => (h1 x hx).2.2 c (by simpa using hc)⟩, h2⟩,
      fun h => ⟨fun x hx => ⟨(h.ident x hx).1, (h.ident x hx).2.1, fun c hc => (h.ident x hx).2.2 c (by simpa using hc)⟩,
        h.distinct⟩⟩

/-- **C68**.  The generated class declares nothing twice, uses no keyword as a name and hides no inherited function. -/
def C68_Statement : Prop :=
  FieldsValid fields oneofs → ProtoNames name nested fields oneofs → ∀ m, mkMessage own fields oneofs = .ok m →
    (render false E name m).Compiles nested

/-- **C68** for names in the usual style: fields and oneofs in lower case with no underscore at the end, not
beginning with a word the templates put before names, and not one of a few words. -/
theorem C68_compiles_partial (hN : PlainNames name nested fields oneofs) :
    C68_Statement E own name nested fields oneofs := fun h _ _ e =>
  (mkMessage_named h hN e).compiles false E

end

/-- The message of `C47Example`. -/
example : PlainNames "M".toList ["Part".toList] C47Example.fields ["x".toList, "_o".toList] := by decide +kernel
example : ProtoNames "M".toList ["Part".toList] C47Example.fields ["x".toList, "_o".toList] := by decide +kernel

namespace C68Example
open C47Example

/-- A valid message whose class does not compile. -/
def Refused (name : String) (nested : List String) (fields : List FieldDesc) (oneofs : List String) : Prop :=
  FieldsValid fields (oneofs.map String.toList) ∧
  ProtoNames name.toList (nested.map String.toList) fields (oneofs.map String.toList) ∧
  ∃ m, mkMessage ".M".toList fields (oneofs.map String.toList) = .ok m ∧
    ¬ (render false types name.toList m).Compiles (nested.map String.toList)

def member (f : FieldDesc) : FieldDesc := { f with oneofIndex := some 0 }
def optional (f : FieldDesc) : FieldDesc := { f with oneofIndex := some 0, proto3Optional := true }

end C68Example

open C68Example C47Example in
/-- C68 is false: two names that differ in case; `not_set`; `has_x` beside an optional `x`; `presence` beside an
optional field; a field with the name of the message; a nested type with the name of the message; `which_o` beside a
oneof `o`; a keyword; a name ending in an underscore; `get_x` beside `x`; the name of an inherited function; a oneof
`check_type`. -/
theorem C68_names_false :
    Refused "M" [] [field "a" 1, field "A" 2] [] ∧
    Refused "M" [] [field "not_set" 1] [] ∧
    Refused "M" [] [optional (field "x" 1), field "has_x" 2] ["_x"] ∧
    Refused "M" [] [optional (field "x" 1), field "presence" 2] ["_x"] ∧
    Refused "m" [] [field "m" 1] [] ∧
    Refused "M" ["M"] [field "x" 1] [] ∧
    Refused "M" [] [member (field "x" 1), field "which_o" 2] ["o"] ∧
    Refused "M" [] [field "class" 1] [] ∧
    Refused "M" [] [field "x" 1, field "x_" 2] [] ∧
    Refused "M" [] [field "x" 1, field "get_x" 2] [] ∧
    Refused "M" [] [field "serialized_size" 1] [] ∧
    Refused "M" [] [member (field "x" 1)] ["check_type"] := by
  refine ⟨?_, ?_, ?_, ?_, ?_, ?_, ?_, ?_, ?_, ?_, ?_, ?_⟩ <;>
    exact ⟨by decide +kernel, by decide +kernel, _, rfl, by decide +kernel⟩

theorem C68_false : ¬ ∀ E own name nested fields oneofs, C68_Statement E own name nested fields oneofs := fun h =>
  have ⟨hv, hp, m, e, hn⟩ := C68_names_false.1
  hn (h _ _ _ _ _ _ hv hp m e)

namespace C67Example
open C47Example

def M : Str := "M".toList
def oneofs : List Str := ["x".toList, "_o".toList]

theorem sound : Sound ".M".toList fields := ⟨by decide, by decide⟩

theorem good : types.Good fields where
  message := fun _ _ _ => trivial
  length := by decide
  repLength := by decide
  maxLength := by decide

/-- The message of `C47Example`. -/
def msg : GMessage :=
  match mkMessage ".M".toList fields oneofs with
  | .ok m => m
  | .error _ => ⟨[], [], [], []⟩

abbrev K : Class := render false types M msg

example : FieldsValid fields oneofs := by decide
example : MessagesAre types fields := by decide
theorem made : mkMessage ".M".toList fields oneofs = .ok msg := rfl
theorem compiles : K.Compiles ["Part".toList] := by decide +kernel

/-- `b = 7`, `o = 5` and one element of `r`, all received. -/
def bytes : List Byte := [0x38, 0x07, 0x28, 0x05, 0x12, 0x01, 0x41]

def source : Source := ⟨ReadFixed, ReadFixed.model 8 (by omega), ReadFixed.holding 8 bytes, ReadFixed.holding_inv _ _ _ (by decide)⟩

/-- A made object: received, then `set_a(z.get_a())`, `clear_o()` and `clear_x()`. -/
example : ∃ x y z u : K.Obj, (K.runDeserialize 9 source.buf K.new).object = .ok x ∧
    K.callTest "has_o".toList x = .ok true ∧ K.callWhich "get_which_x".toList x = .ok 7 ∧
    K.runSet "a".toList x K.new = .ok y ∧ K.runCall "clear_o".toList y = .ok z ∧ K.callTest "has_o".toList z = .ok false ∧
    K.runCall "clear_x".toList z = .ok u ∧ K.callWhich "get_which_x".toList u = .ok 0 ∧ Made K fields oneofs u := by
  refine ⟨_, _, _, _, rfl, rfl, rfl, rfl, rfl, rfl, rfl, rfl, ?_⟩
  have h0 : Made K fields oneofs K.new := .new
  have h1 := Made.use (fun z h => h) h0 (.deserialize source 9) rfl
  have h2 := Made.use (fun z h => h) h1 (.set (f := field "a" 3) (by decide) h0 rfl) rfl
  have h3 := Made.use (fun z h => h) h2 (.clearField
    (f := { field "o" 5 with oneofIndex := some 1, proto3Optional := true }) (by decide)) rfl
  exact Made.use (fun z h => h) h3 (.clearOneof (f := { field "b" 7 with oneofIndex := some 0 }) (i := 0) (o := "x".toList)
    (by decide) rfl rfl rfl) rfl

/-- An enum in a oneof: `message M { oneof o { E e = 1; } }`. -/
def enumField : FieldDesc := { field "e" 1 .enum with oneofIndex := some 0, typeName := ".E".toList }

def enumMsg : GMessage :=
  match mkMessage ".M".toList [enumField] ["o".toList] with
  | .ok m => m
  | .error _ => ⟨[], [], [], []⟩

abbrev KE : Class := render false types M enumMsg

def enumSource : Source :=
  ⟨ReadFixed, ReadFixed.model 8 (by omega), ReadFixed.holding 8 [0x08, 0x01], ReadFixed.holding_inv _ _ _ (by decide)⟩

theorem enumGood : types.Good [enumField] where
  message := fun _ _ _ => trivial
  length := by decide
  repLength := by decide
  maxLength := by decide

/-- Receiving the enum: the member is used before it is constructed. -/
theorem enum_ub : KE.runDeserialize 9 enumSource.buf KE.new = .ub := rfl

/-- `message M { M next = 1; }` -/
def recursiveMsg : GMessage :=
  match mkMessage ".M".toList [recursiveField] [] with
  | .ok m => m
  | .error _ => ⟨[], [], [], []⟩

end C67Example

open C67Example C47Example in
/-- C67 is false: a field of the type of the message itself is left out. -/
theorem C67_recursive_false : ¬ ∀ E own name nested fields oneofs, C67_Statement E own name nested fields oneofs := by
  intro h
  have hI := h ⟨fun _ => .msg .nil .nil, fun _ => 1, fun _ => 1⟩ ".M".toList M [] [recursiveField] [] (by decide)
    ⟨fun _ _ _ => by simp [ElemTy.WF, Fields.WF, Oneofs.WF, Fields.numbers, Oneofs.numbers], by decide, by decide, by decide⟩
    (by decide) recursiveMsg rfl (by decide +kernel)
  exact absurd hI.numbers.length_eq (by decide)

open C67Example C47Example in
/-- C67 is false: an enum in a oneof is not constructed before it is used. -/
theorem C67_enum_false : ¬ ∀ E own name nested fields oneofs, C67_Statement E own name nested fields oneofs := by
  intro h
  have hI := h types ".M".toList M [] [enumField] ["o".toList] (by decide) enumGood (by decide) enumMsg rfl (by decide +kernel)
  have := hI.deserialize enumSource 9 KE.new (by rw [hI.new]; exact .init)
  exact nomatch enum_ub.symm.trans this

open C67Example C47Example in
/-- C69 is false: an enum in a oneof is not constructed before it is used. -/
theorem C69_enum_false : ¬ ∀ E own name nested fields oneofs, C69_Statement E own name nested fields oneofs := by
  intro h
  refine h types ".M".toList M [] [enumField] ["o".toList] (by decide) enumGood (by decide) enumMsg rfl (by decide +kernel)
    (fun _ => False) KE.new (fun _ h => h.elim) .new ?_
  have := Use.deserialize (K := KE) (fields := [enumField]) (oneofs := ["o".toList]) (P := fun _ => False) (x := KE.new)
    enumSource 9
  rw [show (KE.runDeserialize 9 enumSource.buf KE.new).object = .ub from rfl] at this
  exact this

open C67Example C47Example in
/-- The same message, the enum constructed: the class is right, and it decodes what is undefined above. -/
example : Implements types (render true types M enumMsg) [enumField] ["o".toList] :=
  C67_constructed_partial (own := ".M".toList) (nested := []) (by decide) (by decide) enumGood (by decide) rfl
    (by decide +kernel)

open C67Example C47Example in
example : ∃ r, (render true types M enumMsg).runDeserialize 9 enumSource.buf (Class.new _) = .ok r := ⟨_, rfl⟩

/-! ## C70 -/

/-- **C70**.  A record of a field is stored or passed over: what follows it is decoded as usual.  (In particular: of a
field of the type of the message itself.) -/
def C70_Statement (E : Types) (own name : Str) (nested : List Str) (fields : List FieldDesc) (oneofs : List Str) : Prop :=
  FieldsValid fields oneofs → ∀ m, mkMessage own fields oneofs = .ok m → (render false E name m).Compiles nested →
    ∀ f ∈ fields, f.type = .message → f.typeName = own → ∀ (src : Source) (fuel : Nat) (tg len payload : List Byte),
      Varint 32 tg (8 * f.number + 2) → Varint 32 len payload.length → src.M.view src.buf = tg ++ len ++ payload →
      (src.M.view src.buf).length < fuel →
      ∃ b y, Class.runDeserialize (render false E name m) fuel src.buf (Class.new _) = .ok (.noErrors, b, y)

/-- What the class does instead: after the tag of a field of its own type nothing is consumed, so that the length and
the payload are taken for tags. -/
theorem C70_tag_only {E own name nested fields oneofs} {m : GMessage} (h : FieldsValid fields oneofs)
    (e : mkMessage own fields oneofs = .ok m) (hC : (render false E name m).Compiles nested) {f : FieldDesc}
    (hf : f ∈ fields) (ht : f.typeName = own) (hi : f.oneofIndex = none) {β : Type} [ReadBuffer β] (fuel k : Nat)
    (wt : WireType) (b b' : β) (x : Class.Obj (render false E name m))
    (hb : deserializeTag b = .ok (.ok (wt, f.number), b')) :
    tagLoop (fun n wt b o => Class.step (render false E name m) fuel n wt b o (Class.cases (render false E name m))) (k + 1) b x =
      tagLoop (fun n wt b o => Class.step (render false E name m) fuel n wt b o (Class.cases (render false E name m))) k b' x := by
  conv => lhs; unfold tagLoop
  rw [hb, Res.ok_bind]
  dsimp only
  rw [step_left_out h e hC.distinct fuel wt b' x hf ht hi, Res.ok_bind]
  exact if_pos rfl

open C67Example C47Example in
/-- C70 is false: `message M { M next = 1; }` does not accept an empty `next`. -/
theorem C70_false : ¬ ∀ E own name nested fields oneofs, C70_Statement E own name nested fields oneofs := by
  intro h
  obtain ⟨b, y, hd⟩ := h types ".M".toList M [] [recursiveField] [] (by decide) recursiveMsg rfl (by decide +kernel)
    recursiveField (by decide) rfl rfl
    ⟨ReadFixed, ReadFixed.model 8 (by omega), ReadFixed.holding 8 [0x0A, 0x00], ReadFixed.holding_inv _ _ _ (by decide)⟩ 9
    [0x0A] [0x00] [] ⟨by show IsVarint 5 [0x0A]; decide, by decide⟩ ⟨by show IsVarint 5 [0x00]; decide, by decide⟩ rfl (by decide)
  have e : Class.runDeserialize (render false types M recursiveMsg) 9 (ReadFixed.holding 8 [0x0A, 0x00]) (Class.new _) =
    .ok (.invalidFieldId, _, _) := rfl
  rw [e] at hd
  exact nomatch hd

/-! ## C71 -/

/-- **C71**.  `field_number_to_name` of any class that compiles: the declared name of the field with that number, and
for any other number a text that says so. -/
theorem C71_names {E own name nested fields oneofs} {m : GMessage} (h : FieldsValid fields oneofs)
    (e : mkMessage own fields oneofs = .ok m) (hC : (render false E name m).Compiles nested) (n : Nat) :
    (∀ f ∈ fields, f.number = n → Class.fieldNumberToName (render false E name m) n = .ok f.name) ∧
    ((∀ f ∈ fields, f.number ≠ n) →
      Class.fieldNumberToName (render false E name m) n = .ok "Invalid FieldNumber".toList) :=
  fieldNumberToName_declared h e hC.distinct n

open C67Example C47Example in
example : K.fieldNumberToName 4 = .ok "c".toList := (C71_names valid made compiles 4).1 _ (by decide : { field "c" 4 .bytes with oneofIndex := some 0 } ∈ fields) rfl

end EP
