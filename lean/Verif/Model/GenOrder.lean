import Verif.Model.GenMessage

/-!
# The generator: the order of the definitions in a header

/repo/generator/EmbeddedProto/ProtoFile.py:39-134, TypeDefinitions.py:178-194.  The function `toposort_flatten`
is that of the Python package `toposort` (not part of /repo); it is modelled after its documentation: "Items
with no dependencies come first, then the items that only depend on those, and so on; within a set they are
sorted; self dependencies are ignored; items that only appear as a dependency have none".
-/

namespace EP.Gen

/-! ## toposort -/

section
variable {α : Type} [DecidableEq α]

/-- The items of a dictionary from items to sets of items. -/
abbrev Deps (α : Type) := List (α × List α)

def keys (d : Deps α) : List α := d.map (·.1)

def dedup : List α → List α
  | [] => []
  | a :: l => if a ∈ l then dedup l else a :: dedup l

/-- Without self dependencies and with the items that appear only as dependency. -/
def closeDeps (d : Deps α) : Deps α :=
  let d := d.map fun p => (p.1, p.2.filter (· ≠ p.1))
  d ++ ((dedup (d.flatMap (·.2))).filter (· ∉ keys d)).map (·, [])

/-- The items without dependencies. -/
def free (d : Deps α) : List α := (d.filter (·.2.isEmpty)).map (·.1)

/-- What is left when the items `done` are taken out. -/
def peel (done : List α) (d : Deps α) : Deps α :=
  (d.filter (·.1 ∉ done)).map fun p => (p.1, p.2.filter (· ∉ done))

/-- The loop of `toposort`, and `toposort_flatten`.  Each round takes out at least one item: `d.length` rounds
are enough. -/
def rounds (le : α → α → Bool) : Nat → Deps α → Except GenError (List α)
  | 0, d => if d.isEmpty then .ok [] else .error .circular
  | n + 1, d =>
    if (free d).isEmpty then
      if d.isEmpty then .ok [] else .error .circular
    else do
      let l ← rounds le n (peel (free d) d)
      pure (sortBy le (free d) ++ l)

def toposort (le : α → α → Bool) (d : Deps α) : Except GenError (List α) :=
  rounds le (closeDeps d).length (closeDeps d)

end

/-! ## Dependencies -/

/-- `type_name` after `FieldErrorRecursive.__init__` (Field.py:577) has overwritten it in fields of the
message's own type. -/
def seenType (own : Str) (f : FieldDesc) : Str :=
  if f.typeName = own then "FieldErrorRecursive".toList else f.typeName

/-- The names in the loop over `msg.field`, ProtoFile.py:60-63. -/
def fieldDeps (own : Str) (locals : List Str) (fields : List FieldDesc) : List Str :=
  ((fields.filter fun f => f.type == .message || f.type == .enum).map (seenType own)).filter (· ∉ locals)

mutual
/-- The value of the message in the dictionary: its namespace, dependencies of nested messages on other
namespaces (ProtoFile.py:46-53) and the types of its fields. -/
def msgDeps (ns : Str) : MsgDesc → List Str
  | .mk name fields _ enums nested =>
    let own := dot ns name
    let locals := nested.map (fun m => dot own m.name) ++ enums.map (dot own)
    ns :: (outerDeps own nested ++ fieldDeps own locals fields)
def outerDeps (own : Str) : List MsgDesc → List Str
  | [] => []
  | m :: ms => (msgDeps own m).filter (fun t => !own.isPrefixOf t) ++ outerDeps own ms
end

mutual
/-- `toposort_add_msg` — ProtoFile.py:39-69: the items added to the dictionary, that of the message itself
last.  (The names are distinct, so that no item is overwritten; sets are lists here.)  -/
def addMsg (ns : Str) : MsgDesc → Deps Str
  | .mk name fields oneofs enums nested =>
    addMsgs (dot ns name) nested ++ enums.map (fun e => (dot (dot ns name) e, [dot ns name])) ++
      [(dot ns name, msgDeps ns (.mk name fields oneofs enums nested))]
/-- ... of all nested messages -/
def addMsgs (ns : Str) : List MsgDesc → Deps Str
  | [] => []
  | m :: ms => addMsg ns m ++ addMsgs ns ms
end

/-! ## Sorting the definitions -/

/-- `s.replace(old, '')`; the number counts characters still to be left out. -/
def removeAll (old : Str) : Str → Nat → Str
  | [], _ => []
  | _ :: s, k + 1 => removeAll old s k
  | c :: s, 0 => if old.isPrefixOf (c :: s) then removeAll old s (old.length - 1) else c :: removeAll old s 0

/-- `sorted_index`: that of the last fitting name, 0 if there is none — ProtoFile.py:113-117,
TypeDefinitions.py:182-186. -/
def sortedIndex (scope name : Str) : List Str → Nat → Nat → Nat
  | [], _, r => r
  | n :: order, i, r => sortedIndex scope name order (i + 1) (if removeAll (scope ++ ['.']) n 0 = name then i else r)

/-- Sorting by `sorted_index`. -/
def sortHere (order : List Str) (scope : Str) (ms : List MsgDesc) : List MsgDesc :=
  sortBy (fun a b => sortedIndex scope a.name order 0 0 ≤ sortedIndex scope b.name order 0 0) ms

mutual
/-- `sort_nested_msg_definitions` — TypeDefinitions.py:179-194.  (The index only depends on the name: whether
what is nested deeper is sorted before or after makes no difference.) -/
def sortMsg (order : List Str) (ns : Str) : MsgDesc → MsgDesc
  | .mk name fields oneofs enums nested =>
    .mk name fields oneofs enums (sortHere order (dot ns name) (sortMsgs order (dot ns name) nested))
def sortMsgs (order : List Str) (ns : Str) : List MsgDesc → List MsgDesc
  | [] => []
  | m :: ms => sortMsg order ns m :: sortMsgs order ns ms
end

/-- `ProtoFile.__init__` — ProtoFile.py:97-134: the message definitions in the order of the header.
(`message_order.remove(my_scope)` takes out the first occurrence; the package is always there.  Without package
`my_scope` is empty.) -/
def FileDesc.order (f : FileDesc) : Except GenError (List MsgDesc) := do
  let order ← toposort strLe (addMsgs f.package f.messages)
  let order := if f.package.isEmpty then order else order.erase f.package
  pure (sortHere order f.package (sortMsgs order f.package f.messages))

end EP.Gen
