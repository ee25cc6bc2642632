import Verif.Spec.Bounded

/-!
# A list in an array

What repeated fields, strings and bytes really do: an array of `cap` cells, the first `len` of which are shown.  The others
keep what was there before.
-/

namespace EP.Spec

structure Shelf (V : Type) where
  len : Nat
  cells : List V
  deriving DecidableEq

variable {V : Type}

/-- What a user sees. -/
def Shelf.shown (s : Shelf V) : List V := s.cells.take s.len

/-- A new array. -/
def Shelf.new (cap : Nat) (d : V) : Shelf V := ⟨0, List.replicate cap d⟩

inductive ShelfOp (V : Type) where
  | add (v : V)
  | set (i : Nat) (v : V)
  /-- write over the first cells, if there are enough -/
  | replace (vs : List V)
  /-- as many as there are cells for, and one more with the value `d`, if there is a cell for it -/
  | truncate (vs : List V)
  /-- all cells of another one -/
  | copy (s : Shelf V)
  | touch (i : Nat)
  | clear

/-- Result and new array. -/
def ShelfOp.run (cap : Nat) (d : V) : ShelfOp V → Shelf V → Error × Shelf V
  | .add v, s => if s.len < cap then (.noErrors, ⟨s.len + 1, s.cells.set s.len v⟩) else (.arrayFull, s)
  | .set i v, s => (.noErrors, ⟨max s.len (min i (cap - 1) + 1), s.cells.set (min i (cap - 1)) v⟩)
  | .replace vs, s => if vs.length ≤ cap then (.noErrors, ⟨vs.length, vs ++ s.cells.drop vs.length⟩) else (.arrayFull, s)
  | .truncate vs, s => (.noErrors, ⟨min vs.length cap, (vs ++ [d]).take cap ++ s.cells.drop (min (vs.length + 1) cap)⟩)
  | .copy t, _ => (.noErrors, t)
  | .touch i, s => (.noErrors, ⟨max s.len (min i (cap - 1) + 1), s.cells⟩)
  | .clear, _ => (.noErrors, Shelf.new cap d)

def ShelfOp.runAll (cap : Nat) (d : V) : List (ShelfOp V) → Shelf V → List Error × Shelf V
  | [], s => ([], s)
  | o :: os, s =>
    let r := o.run cap d s
    let q := runAll cap d os r.2
    (r.1 :: q.1, q.2)

/-- What the operation should do to the list. -/
def ShelfOp.op : ShelfOp V → ListOp V
  | .add v => .add v
  | .set i v => .set i v
  | .replace vs => .replace vs
  | .truncate vs => .truncate vs
  | .copy s => .copy s.shown
  | .touch i => .touch i
  | .clear => .clear

/-- The cells that come into view without having been written. -/
def ShelfOp.uncovered (cap : Nat) : ShelfOp V → Shelf V → List V
  | .set i _, s => (s.cells.take (min i (cap - 1))).drop s.len
  | .touch i, s => (s.cells.take (min i (cap - 1) + 1)).drop s.len
  | _, _ => []

/-- The operation uncovers nothing but default values. -/
def ShelfOp.Clean (cap : Nat) (d : V) (o : ShelfOp V) (s : Shelf V) : Prop := ∀ v ∈ o.uncovered cap s, v = d

/-- All operations do. -/
def ShelfOp.AllClean (cap : Nat) (d : V) : List (ShelfOp V) → Shelf V → Prop
  | [], _ => True
  | o :: os, s => o.Clean cap d s ∧ AllClean cap d os (o.run cap d s).2

/-- Every operation does to what is shown what it should. -/
def ShelfOp.AllRight (cap : Nat) (d : V) : List (ShelfOp V) → Shelf V → Prop
  | [], _ => True
  | o :: os, s => (o.run cap d s).2.shown = (o.op.run cap d s.shown).2 ∧ AllRight cap d os (o.run cap d s).2

end EP.Spec
