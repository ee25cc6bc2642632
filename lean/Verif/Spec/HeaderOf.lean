import Verif.Spec.HeaderText

/-!
# The class declaration for a message

What the header should declare, as a tree.
-/

namespace EP.Gen.Cpp

open Template Jinja

variable (S : Spelling)

/-- `x_`, or `o_.x_` in a oneof. -/
def placeOf (o : Option GOneof) (g : GField) : Place :=
  match o with
  | some o => .alt (under o.name) (under g.desc.name)
  | none => .var (under g.desc.name)

/-- The type in the interface. -/
def valueType (g : GField) : List Tok :=
  match g.desc.type with
  | .scalar s => [.raw (cstdintType s)]
  | .enum => [.raw (S.enum g.desc)]
  | _ => [.raw (elemType S g.desc)]

/-- What is done before a member is changed. -/
def before (o : Option GOneof) (g : GField) : List CStmt :=
  match o with
  | some o =>
    [.ite (.whichNot (upper g.desc.name) (whichName o.name)) [.callId (initName o.name) (upper g.desc.name)] []]
  | none => if g.desc.proto3Optional then [.act (.setBit (upper g.desc.name))] else []

/-- A class has a destructor, which is called by its name, or by `destroy_at` for scalars; enums are cleared. -/
def destroyAct (v : Place) (g : GField) : CAct :=
  match g.desc.type with
  | .scalar _ => .destroyAt v
  | .enum => .clear v
  | .message => .destroy v [.raw (S.short g.desc)]
  | .string => .destroy v [.id (chars! "FieldString")]
  | .bytes => .destroy v [.id (chars! "FieldBytes")]

/-- `has_x` and `clear_x`. -/
def hasClear (o : Option GOneof) (g : GField) : List CFn :=
  let x := g.desc.name
  let v := placeOf o g
  match o with
  | some o =>
    [{ head := cpp! "inline bool", name := hasName x, body := .test (.whichIs (upper x) (whichName o.name)) },
     { head := cpp! "inline void", name := clearName x
       body := .run [.ite (.whichIs (upper x) (whichName o.name))
         [.setWhich (whichName o.name) notSet, destroyAct S v g] []] }]
  | none =>
    if g.desc.proto3Optional then
      [{ head := cpp! "inline bool", name := hasName x, body := .test (.bit (upper x)) },
       { head := cpp! "inline void", name := clearName x
         body := .run [.act (.clearBit (upper x)), .act (.clear v)] }]
    else [{ head := cpp! "inline void", name := clearName x, body := .run [.act (.clear v)] }]

/-- What a single field declares. -/
def singleField (o : Option GOneof) (g : GField) : CField :=
  let x := g.desc.name
  let v := placeOf o g
  let t := valueType S g
  let suffix := match g.desc.type with
    | .scalar _ | .enum => cpp! ".get()"
    | _ => []
  { line := none
    const := (constName x, x)
    funs := hasClear S o g
    set := [{ head := cpp! "inline void", name := setName x
              body := match g.desc.type with
                | .string | .bytes => .value t (chars! "rhs") false (before o g ++ [.act (.set v (chars! "rhs"))])
                | _ => .value t (chars! "value") true (before o g ++ [.act (.assign v (chars! "value"))]) }]
    mutable := match g.desc.type, o with
      | .enum, _ => []
      | .scalar _, some _ => []
      | _, _ => [{ head := cpp! "inline" ++ t ++ cpp! "&", name := mutableName x, body := .ref (before o g) v suffix }]
    swap := match g.desc.type with
      | .string | .bytes => true
      | _ => false
    get :=
      [{ head := cpp! "inline const" ++ t ++ cpp! "&", name := getName x, body := .get v suffix },
       match g.desc.type with
       | .scalar _ | .enum => { head := cpp! "inline" ++ t, name := x, body := .get v suffix }
       | .message => { head := cpp! "inline const" ++ t ++ cpp! "&", name := x, body := .get v [] }
       | .string => { head := cpp! "inline const char*", name := x, body := .get v (cpp! ".get_const()") }
       | .bytes => { head := cpp! "inline const uint8_t*", name := x, body := .get v (cpp! ".get_const()") }] }

def repeatedField (g : GField) : CField :=
  let x := g.desc.name
  let v := Place.var (under x)
  let e : List Tok := [.raw (elemType S g.desc)]
  let t : List Tok := [.raw (repType S g.desc)]
  { line := none
    const := (constName x, x)
    funs :=
      [{ head := cpp! "inline const" ++ e ++ cpp! "&", name := x, body := .at v },
       { head := cpp! "inline void", name := clearName x, body := .run [.act (.clear v)] },
       { head := cpp! "inline void", name := setName x, body := .setAt e v },
       { head := cpp! "inline void", name := setName x
         body := .value t (chars! "values") false [.act (.assign v (chars! "values"))] },
       { head := cpp! "inline void", name := addName x, body := .add e v },
       { head := cpp! "inline" ++ t ++ cpp! "&", name := mutableName x, body := .ref [] v [] },
       { head := cpp! "inline" ++ e ++ cpp! "&", name := mutableName x, body := .refAt v },
       { head := cpp! "inline const" ++ t ++ cpp! "&", name := getName x, body := .get v [] },
       { head := cpp! "inline const" ++ t ++ cpp! "&", name := x, body := .get v [] }]
    set := [], mutable := [], swap := false, get := [] }

/-- A field of the type of the message itself is left out. -/
def recursiveField (g : GField) : CField :=
  let x := g.desc.name
  { line := some (chars! "warning \"You have a recursive inclusion with the field: '" ++ (x ++ chars! "'. Embedded Proto is unable to determine the template parameters in this case. We could only generate this message by leaving it out.\""))
    const := (constName x, x)
    funs :=
      [{ head := cpp! "inline void", name := clearName x, body := .run [] },
       { head := cpp! "inline void", name := setName x, body := .value (cpp! "uint8_t") (chars! "value") true [] },
       { head := cpp! "inline const uint8_t", name := getName x, body := .zero },
       { head := cpp! "inline uint8_t", name := x, body := .zero }]
    set := [], mutable := [], swap := false, get := [] }

def fieldOf (o : Option GOneof) (g : GField) : CField :=
  match g.shape with
  | .recursive => recursiveField g
  | .repeated => repeatedField S g
  | .single => singleField S o g

/-- The default value of a scalar or an enum, as it is written. -/
def zeroOf (g : GField) : Str :=
  match g.desc.type with
  | .scalar s => defaultValue s
  | .enum => chars! "static_cast<" ++ S.enum g.desc ++ chars! ">(0)"
  | _ => []

def serOf (o : Option GOneof) (g : GField) : Str × Option SerField :=
  (zeroOf S g, Gen.serField (placeOf o g) o.isSome g)

/-- The statements after a `case` of `deserialize`. -/
def desOf (o : Option GOneof) (g : GField) : List Des :=
  match g.shape with
  | .recursive => []
  | _ => (if g.desc.proto3Optional then [.setBit (upper g.desc.name)] else []) ++ [.field (placeOf o g)]

/-- In `operator=`. -/
def assignOf (g : GField) : CStmt :=
  let x := g.desc.name
  if g.desc.proto3Optional then
    .ite (.rhsHas (hasName x)) [.callSet (setName x) (getName x)] [.call (clearName x)]
  else .act (.callSet (setName x) (getName x))

def varOf (g : GField) : CVar where
  type := typeText S g
  name := under g.desc.name
  init := match g.shape, g.desc.type with
    | .single, .scalar _ | .single, .enum => some (zeroOf S g)
    | _, _ => none

/-- In `clear_o`. -/
def releaseAct (o : GOneof) (g : GField) : CAct :=
  match g.desc.type with
  | .enum => .reset (placeOf (some o) g) (zeroOf S g)
  | _ => .destroyAt (placeOf (some o) g)

def oneofOf (o : GOneof) : COneof where
  name := o.name
  which := whichName o.name
  var := under o.name
  members := o.fields.map fun g => (elemType S g.desc, under g.desc.name)
  getWhich := { head := cpp! "FieldNumber", name := getWhichName o.name, body := .getWhich (whichName o.name) }
  fields := o.fields.map (fieldOf S (some o))
  assign := o.fields.map fun g => (upper g.desc.name, .callSet (setName g.desc.name) (getName g.desc.name))
  getName := getWhichName o.name
  initName := initName o.name
  clearName := clearName o.name
  init :=
    if o.fields.any allocationRequired then
      some ((o.fields.filter allocationRequired).map fun g =>
        (upper g.desc.name, .new (placeOf (some o) g) (elemType S g.desc)))
    else none
  clear := o.fields.map fun g => (upper g.desc.name, releaseAct S o g)
  serialize := o.fields.map fun g => (upper g.desc.name, serOf S (some o) g)
  desName := deserializeName o.name
  des := o.fields.map fun g => (upper g.desc.name, desOf (some o) g)
  showName := toStringName o.name
  shown := (showOneof o).cases

/-- The class; `enums` and `classes` are the nested ones. -/
def classOf (T : Typedef) (enums classes : List (List Tok)) : CClass where
  templates := T.templates.map fun p => [.raw p.1, .id p.2]
  name := T.name
  enums := enums
  classes := classes
  enumerators := T.m.fieldIds.map fun p => (p.2, p.1)
  assign := T.m.fields.map assignOf
  fields := T.m.fields.map (fieldOf S none)
  oneofs := T.m.oneofs.map (oneofOf S)
  serialize := T.m.fields.map (serOf S none)
  cases := T.m.fields.map fun g => (upper g.desc.name, desOf none g)
  clear := T.m.fields.map fun g => .call (clearName g.desc.name)
  names := (T.m.fields ++ T.m.oneofs.flatMap (·.fields)).map fun g => (upper g.desc.name, constName g.desc.name)
  shows := showFields true T.m.fields ++ showOneofs (T.m.fields.length == 0) T.m.oneofs
  presence := T.m.optionalFields.map fun g => upper g.desc.name
  vars := (T.m.fields.filter fun g => g.shape != .recursive).map (varOf S)

/-- The declaration of an enum; `values` are names and numbers. -/
def enumOf (name : Str) (values : List (Str × Str)) : List Tok :=
  cpp! "enum class" ++ [.id name] ++ cpp! ": uint32_t {" ++
    sep (cpp! ",") (values.map fun v => [.id v.1] ++ cpp! "=" ++ [.raw v.2]) ++ cpp! "};"

/-- A line of the preprocessor. -/
def directive (s : Str) : List Tok := [.line s]

/-- The headers of the library that a header with messages needs. -/
def libraryHeaders : List Str :=
  [chars! "MessageInterface.h", chars! "WireFormatter.h", chars! "Fields.h", chars! "MessageSizeCalculator.h",
   chars! "ReadBufferSection.h", chars! "RepeatedFieldFixedSize.h", chars! "FieldStringBytes.h", chars! "Errors.h",
   chars! "Defines.h", chars! "limits"]

/-- The header of a file; `enums` and `classes` are the definitions in it. -/
def fileOf (guard : Str) (dependencies spaces : List Str) (enums classes : List (List Tok)) : List Tok :=
  directive (chars! "ifndef " ++ guard) ++ directive (chars! "define " ++ guard) ++ directive (chars! "include <cstdint>") ++
    (if classes.isEmpty then [] else libraryHeaders.flatMap fun h => directive (chars! "include <" ++ h ++ chars! ">")) ++
    dependencies.flatMap (fun d => directive (chars! "include \"" ++ d ++ chars! "\"")) ++
    spaces.flatMap (fun x => cpp! "namespace" ++ [.id x] ++ cpp! "{") ++ enums.flatten ++ classes.flatten ++
    spaces.flatMap (fun _ => cpp! "}") ++ directive (chars! "endif // " ++ guard)

end EP.Gen.Cpp
