import Verif.Model.Basic

/-!
# The protobuf wire format, independent of the code

From the protobuf encoding specification: base-128 varints, zigzag, little endian fixed width
values, tags, length-delimited records.  Everything is stated on `Nat`, `Int` and byte lists.
-/

namespace EP.Spec

/-- The base-128 varint of a natural number: 7 bits per byte, least significant group first, top
bit set on all bytes but the last. -/
def varint (n : Nat) : List Byte :=
  if n < 128 then [BitVec.ofNat 8 n]
  else BitVec.ofNat 8 (n % 128 + 128) :: varint (n / 128)
termination_by n
decreasing_by omega

/-- The continuation bit. -/
def cont (b : Byte) : Bool := 128 ≤ b.toNat

/-- The number denoted by a string of 7-bit groups. -/
def groups : List Byte → Nat
  | [] => 0
  | b :: bs => b.toNat % 128 + 128 * groups bs

/-- A byte string that is one varint of at most `k` bytes: a continuation bit on all bytes but the
last, none on the last. -/
def IsVarint : Nat → List Byte → Prop
  | 0, _ => False
  | _ + 1, [] => False
  | k + 1, b :: bs => if cont b then IsVarint k bs else bs = []

/-- A varint that ends in a zero group (other than the single byte 0) could be shorter. -/
def Redundant (bs : List Byte) : Prop := 1 < bs.length ∧ bs.getLast? = some 0

/-- Longest varint for a `w` bit value. -/
def maxVarint (w : Nat) : Nat := (w + 6) / 7

/-- `bs` is some (not necessarily shortest) varint whose value, reduced to `w` bits, is `n`. -/
def Varint (w : Nat) (bs : List Byte) (n : Nat) : Prop :=
  IsVarint (maxVarint w) bs ∧ n = groups bs % 2 ^ w

/-- Protobuf zigzag. -/
def zigzag (i : Int) : Nat := if 0 ≤ i then (2 * i).toNat else (-2 * i - 1).toNat

/-- `k` bytes little endian. -/
def littleEndian : Nat → Nat → List Byte
  | 0, _ => []
  | k + 1, n => BitVec.ofNat 8 n :: littleEndian k (n / 256)

/-- Value of little endian bytes. -/
def ofLittleEndian : List Byte → Nat
  | [] => 0
  | b :: bs => b.toNat + 256 * ofLittleEndian bs

/-- Number of a wire type in the protobuf specification. -/
def wireNumber : WireType → Nat
  | .varint => 0
  | .fixed64 => 1
  | .lengthDelimited => 2
  | .startGroup => 3
  | .endGroup => 4
  | .fixed32 => 5

/-- The tag of a record. -/
def tag (num : Nat) (wt : WireType) : List Byte := varint (8 * num + wireNumber wt)

/-- Length prefixed bytes. -/
def lenDelim (bs : List Byte) : List Byte := varint bs.length ++ bs

end EP.Spec
