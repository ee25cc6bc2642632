import Verif.Spec.Names
import Verif.Spec.Value

/-!
# Headers and what including them does

The part of the C++ preprocessor for headers with an include guard, and the files of a request of protoc.
-/

namespace EP.Gen

/-- A file of the request: `FileDescriptorProto` as far as the other files are concerned. -/
structure ProtoReq where
  name : Str
  syntaxName : Str
  dependency : List Str
  deriving DecidableEq, Repr

/-- Names are distinct, and every file comes before those it imports. -/
def ImportsFollow : List ProtoReq → Prop
  | [] => True
  | f :: rest => ImportsFollow rest ∧ (∀ g ∈ rest, g.name ≠ f.name) ∧
      ∀ d ∈ f.dependency, ∃ g ∈ rest, g.name = d

instance decidableImportsFollow : (l : List ProtoReq) → Decidable (ImportsFollow l)
  | [] => .isTrue trivial
  | _ :: rest =>
    have := decidableImportsFollow rest
    by unfold ImportsFollow; infer_instance

/-- What protoc has checked: names are distinct, and every file comes after those it imports. -/
def RequestValid (request : List ProtoReq) : Prop := ImportsFollow request.reverse

instance (request : List ProtoReq) : Decidable (RequestValid request) := decidableImportsFollow _

/-- The file with the options of Embedded Proto, in any folder. -/
def IsOptions (name : Str) : Prop :=
  name = "embedded_proto_options.proto".toList ∨ "/embedded_proto_options.proto".toList <:+ name

instance (name : Str) : Decidable (IsOptions name) := by unfold IsOptions; infer_instance

/-- A file imports another, directly or not; the options do not count. -/
inductive Imports (request : List ProtoReq) : Str → Str → Prop where
  | self (a) : Imports request a a
  | step {f : ProtoReq} {d b} : f ∈ request → d ∈ f.dependency → ¬ IsOptions d → Imports request d b →
      Imports request f.name b

/-- A header: its name, the macro of its guard, the headers it includes. -/
structure Header where
  name : Str
  guard : Str
  includes : List Str
  deriving DecidableEq, Repr

/-- The macros that are defined, and the headers whose text has been compiled, in this order. -/
structure Compiled where
  guards : List Str
  text : List Str
  deriving DecidableEq, Repr

/-- `#include "name"`; `none` if a header does not exist.  The number bounds the depth of nesting. -/
def includeHeader (H : List Header) : Nat → Str → Compiled → Option Compiled
  | 0, _, _ => none
  | n + 1, name, u =>
    match H.find? fun h => h.name == name with
    | none => none
    | some h =>
      if h.guard ∈ u.guards then some u
      else (h.includes.foldlM (fun u i => includeHeader H n i u) { u with guards := h.guard :: u.guards }).map
        fun u => { u with text := u.text ++ [h.name] }

/-- A name for a macro: letters, digits and underscores, no digit at the beginning. -/
def MacroName (s : Str) : Prop := (∀ c ∈ s, c.isAlphanum ∨ c = '_') ∧ ∃ c ∈ s.head?, ¬ c.isDigit

instance (s : Str) : Decidable (MacroName s) :=
  match s with
  | [] => .isFalse (by simp [MacroName])
  | c :: s => decidable_of_iff ((∀ x ∈ c :: s, x.isAlphanum ∨ x = '_') ∧ ¬ c.isDigit) (by simp [MacroName])

/-- The name of a file without `.proto`. -/
def stem (name : Str) : Str := name.take (name.length - 6)

/-- A name that ends in `.proto`, where the last part of the path is something before that. -/
def ProtoName (name : Str) : Prop :=
  ".proto".toList <:+ name ∧ ∃ c ∈ (stem name).reverse.takeWhile (· != '/'), c ≠ '.'

instance (name : Str) : Decidable (ProtoName name) := by unfold ProtoName; infer_instance

/-- The headers of the library that generated headers include. -/
def libraryHeaders : List Str :=
  ["MessageInterface.h", "WireFormatter.h", "Fields.h", "MessageSizeCalculator.h", "ReadBufferSection.h",
    "RepeatedFieldFixedSize.h", "FieldStringBytes.h", "Errors.h", "Defines.h"].map String.toList

/-! ## Enums -/

/-- `EnumDescriptorProto`: names and numbers. -/
structure EnumDecl where
  name : Str
  values : List (Str × Int)
  deriving DecidableEq, Repr

/-- What protoc has checked about an enum of a proto3 file. -/
structure EnumDecl.Valid (e : EnumDecl) : Prop where
  first : ∃ v ∈ e.values.head?, v.2 = 0
  names : (e.values.map (·.1)).Nodup
  range : ∀ v ∈ e.values, -2 ^ 31 ≤ v.2 ∧ v.2 < 2 ^ 31

/-- The encoding of an enum with this number: a varint of its 64 bits. -/
def enumEncoding (n : Int) : List Byte := Spec.varint (BitVec.ofInt 64 n).toNat

/-! ## Syntax -/

inductive Syntax' where
  | proto2 | proto3
  deriving DecidableEq, Repr

/-- What protoc puts in `FileDescriptorProto.syntax` of a request: nothing for proto2. -/
def Syntax'.sent : Syntax' → Str
  | .proto2 => []
  | .proto3 => "proto3".toList

end EP.Gen
