import Verif.Model.Basic

/-!
# Lists of bounded length

What the operations of `RepeatedFieldFixedSize` and of the string and bytes fields mean for a list of at
most `cap` elements, with `d` the default element.  An index at or beyond the end makes the list longer,
as the comments in FieldStringBytes.h:73-80 describe: it stands for the last possible index if it is too
large, and the new elements that are not given a value are default.
-/

namespace EP.Spec

inductive ListOp (V : Type) where
  | add (v : V)
  | set (i : Nat) (v : V)
  /-- replace the contents, if they fit -/
  | replace (vs : List V)
  /-- replace the contents by as many of the elements as fit -/
  | truncate (vs : List V)
  /-- replace the contents together with the unused storage -/
  | copy (vs : List V)
  /-- look at element `i`, making the list longer until there is one -/
  | touch (i : Nat)
  | clear

variable {V : Type}

/-- The list with default elements appended until there is an element `k`. -/
def grow (d : V) (l : List V) (k : Nat) : List V := l ++ List.replicate (k + 1 - l.length) d

/-- The list with element `k` set to `v`, after default elements were appended until there is one. -/
def setGrow (d : V) (l : List V) (k : Nat) (v : V) : List V :=
  (grow d l k).set k v

/-- Result and new contents. -/
def ListOp.run (cap : Nat) (d : V) : ListOp V → List V → Error × List V
  | .add v, l => if l.length < cap then (.noErrors, l ++ [v]) else (.arrayFull, l)
  | .set i v, l => (.noErrors, setGrow d l (min i (cap - 1)) v)
  | .replace vs, l => if vs.length ≤ cap then (.noErrors, vs) else (.arrayFull, l)
  | .truncate vs, _ => (.noErrors, vs.take cap)
  | .copy vs, _ => (.noErrors, vs)
  | .touch i, l => (.noErrors, grow d l (min i (cap - 1)))
  | .clear, _ => (.noErrors, [])

/-- All results and the final contents. -/
def ListOp.runAll (cap : Nat) (d : V) : List (ListOp V) → List V → List Error × List V
  | [], l => ([], l)
  | o :: os, l =>
    let r := o.run cap d l
    let q := runAll cap d os r.2
    (r.1 :: q.1, q.2)

/-- The part of the storage that may have been used since the last `clear`, after the operation has left
the list with length `n`. -/
def ListOp.peak (cap : Nat) (o : ListOp V) (peak n : Nat) : Nat :=
  match o with
  | .clear => 0
  | .copy _ => cap
  | _ => max peak n

/-- The operation does not leave a gap beyond the end of a list that was longer before. -/
def ListOp.Tame (cap : Nat) (l : List V) (peak : Nat) : ListOp V → Prop
  | .set i _ => min i (cap - 1) ≤ l.length ∨ peak ≤ l.length
  | .touch i => min i (cap - 1) < l.length ∨ peak ≤ l.length
  | _ => True

/-- No operation reaches beyond the end of the list after it was made shorter without `clear`. -/
def ListOp.AllTame (cap : Nat) (d : V) : List (ListOp V) → List V → Nat → Prop
  | [], _, _ => True
  | o :: os, l, p =>
    o.Tame cap l p ∧ AllTame cap d os (o.run cap d l).2 (o.peak cap p (o.run cap d l).2.length)

end EP.Spec
