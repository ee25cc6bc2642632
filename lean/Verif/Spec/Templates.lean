import Verif.Spec.Header

/-!
# Template parameters

The lengths that are not given in the proto file are template parameters of the generated classes.  Which ones
a class needs is described by the way to the field the length is for.
-/

namespace EP.Gen

/-- The last component of a full name. -/
def simple (t : Str) : Str := (t.reverse.takeWhile (· ≠ '.')).reverse

/-- A length a class needs: the maximum length of a string or bytes field, the maximum number of elements of a
repeated field, or one needed by the type of a field. -/
inductive Path where
  | length (f : FieldDesc)
  | count (f : FieldDesc)
  | inside (f : FieldDesc) (p : Path)
  deriving DecidableEq

/-- The class of the message `own` needs the length.  `defs own m`: the message `own` is defined as `m`.
Fields of the type of the message itself are no members of the class. -/
def Needs (defs : Str → MsgDesc → Prop) : Str → Path → Prop
  | own, .length f => ∃ m, defs own m ∧ f ∈ m.fields ∧ f.typeName ≠ own ∧ (f.type = .string ∨ f.type = .bytes) ∧
      f.maxLength = 0
  | own, .count f => ∃ m, defs own m ∧ f ∈ m.fields ∧ f.typeName ≠ own ∧ f.repeated = true ∧ f.maxLength = 0
  | own, .inside f p => ∃ m, defs own m ∧ f ∈ m.fields ∧ f.typeName ≠ own ∧ f.type = .message ∧ Needs defs f.typeName p

/-- The name of the parameter: the names of class and field, and what it is for or its name in the class of
the field. -/
def Path.render : Str → Path → Str
  | own, .length f => simple own ++ '_' :: (f.name ++ "_LENGTH".toList)
  | own, .count f => simple own ++ '_' :: (f.name ++ "_REP_LENGTH".toList)
  | own, .inside f p => simple own ++ '_' :: (f.name ++ '_' :: p.render f.typeName)

/-- `own` is defined as `m` in one of the files, given by their packages and messages. -/
def Defined (files : List (Str × List MsgDesc)) (own : Str) (m : MsgDesc) : Prop :=
  ∃ f ∈ files, ∃ scope, At f.1 f.2 scope m ∧ own = dot scope m.name

mutual
/-- The classes for a message in the order in which their definitions are complete. -/
def MsgDesc.classes (ns : Str) : MsgDesc → List Str
  | .mk name _ _ _ nested => classes (dot ns name) nested ++ [dot ns name]
def classes (ns : Str) : List MsgDesc → List Str
  | [] => []
  | m :: ms => m.classes ns ++ classes ns ms
end

/-- ... of all files -/
def allClasses : List (Str × List MsgDesc) → List Str
  | [] => []
  | f :: fs => classes f.1 f.2 ++ allClasses fs

/-- The messages are valid, their names distinct, and every message type is complete before it is used. -/
structure Ordered (files : List (Str × List MsgDesc)) : Prop where
  fields : ∀ own m, Defined files own m → FieldsValid m.fields m.oneofs
  distinct : (allClasses files).Nodup
  ordered : ∀ own m f, Defined files own m → f ∈ m.fields → f.type = .message → f.typeName ≠ own →
    [f.typeName, own].Sublist (allClasses files)

/-- No class that needs a length is the type of a repeated field with a maximum length. -/
def Counted (files : List (Str × List MsgDesc)) : Prop :=
  ∀ own m f, Defined files own m → f ∈ m.fields → f.type = .message → f.typeName ≠ own → f.repeated = true →
    f.maxLength ≠ 0 → ∀ p, ¬ Needs (Defined files) f.typeName p

/-- No two lengths of a class have the same name. -/
def Distinguished (files : List (Str × List MsgDesc)) : Prop :=
  ∀ own p q, Needs (Defined files) own p → Needs (Defined files) own q → p.render own = q.render own → p = q

/-- A file that is valid, whose names do not confuse the generator (see C48), and whose message types are defined
in it or among `prior`. -/
structure FileOK (prior : List Str) (f : FileDesc) : Prop where
  valid : f.Valid
  clear : f.Clear
  noOuter : f.NoOuter
  fields : ∀ scope m, At f.package f.messages scope m → FieldsValid m.fields m.oneofs
  types : ∀ scope m fd, At f.package f.messages scope m → fd ∈ m.fields → fd.type = .message →
    fd.typeName ≠ dot scope m.name → fd.typeName ∈ prior ∨ fd.typeName ∈ classes f.package f.messages

/-- Files as protoc passes them on: after those they import. -/
def FilesOK : List Str → List FileDesc → Prop
  | _, [] => True
  | prior, f :: fs => FileOK prior f ∧ FilesOK (prior ++ classes f.package f.messages) fs

end EP.Gen
