import Verif.Spec.Stream

/-!
# Malformed input

Which byte strings make a decoder report which error, and what the value is afterwards.  `bs` are
always all the bytes up to the end of the enclosing (sub)message, and `K` is what is asserted of the
value left behind: `Fail … u e K` reads "decoding `bs` into the value `u` reports `e` and leaves a
value satisfying `K`".
-/

namespace EP
open Spec

/-- The input ends inside a varint. -/
def CutVarint (k : Nat) (bs : List Byte) : Prop := bs.length < k ∧ ∀ b ∈ bs, cont b = true

/-- The first `k` bytes all announce another one. -/
def LongVarint (k : Nat) (bs : List Byte) : Prop :=
  ∃ q r, bs = q ++ r ∧ q.length = k ∧ ∀ b ∈ q, cont b = true

/-- No varint for a `w` bit value can be read. -/
def BadVarint (w : Nat) (bs : List Byte) (e : Error) : Prop :=
  (CutVarint (maxVarint w) bs ∧ e = .endOfBuffer) ∨
  (LongVarint (maxVarint w) bs ∧ e = .overlongVarint)

/-- No scalar can be read. -/
def ScalarTy.Bad : ScalarTy → List Byte → Error → Prop
  | .uint32, bs, e | .enumeration, bs, e => BadVarint 32 bs e
  | .int32, bs, e | .int64, bs, e | .uint64, bs, e | .sint32, bs, e | .sint64, bs, e =>
    BadVarint 64 bs e
  | .boolean, bs, e => bs = [] ∧ e = .endOfBuffer
  | .fixed32, bs, e | .sfixed32, bs, e | .floatfixed, bs, e => bs.length < 4 ∧ e = .endOfBuffer
  | .fixed64, bs, e | .sfixed64, bs, e | .doublefixed, bs, e => bs.length < 8 ∧ e = .endOfBuffer

/-- A record with an unknown number whose payload cannot be read. -/
def UnknownBad : WireType → List Byte → Error → Prop
  | .varint, bs, e => BadVarint 64 bs e
  | .fixed64, bs, e => bs.length < 8 ∧ e = .endOfBuffer
  | .fixed32, bs, e => bs.length < 4 ∧ e = .endOfBuffer
  | .lengthDelimited, bs, e => BadVarint 32 bs e
  | _, _, _ => False

/-- A string or bytes field of maximum length `cap`: the length cannot be read, is too large, or
bytes are missing. -/
def StrFail (cap : Nat) (bs : List Byte) (u : List Byte) (e : Error) (K : List Byte → Prop) : Prop :=
  (BadVarint 32 bs e ∧ K u) ∨
  ∃ p r n, bs = p ++ r ∧ Varint 32 p n ∧
    ((cap < n ∧ e = .arrayFull ∧ K u) ∨ (n ≤ cap ∧ r.length < n ∧ e = .endOfBuffer ∧ K r))

/-- A length-delimited block: its length cannot be read, or its contents (the announced number of
bytes, or as many as there are) fail by `B`. -/
def BlockFail {V : Type} (B : List Byte → V → Error → (V → Prop) → Prop) (bs : List Byte) (u₀ u : V)
    (e : Error) (K K' : V → Prop) : Prop :=
  (BadVarint 32 bs e ∧ K u₀) ∨ ∃ p r n, bs = p ++ r ∧ Varint 32 p n ∧ B (r.take n) u e K'

/-- A packed array: after the elements `ys` comes something that is no element (other than the end of
the data), or an element for which there is no more room. -/
def PackedFail {V : Type} (P : List Byte → V → Prop) (Bad : List Byte → Error → Prop) (cap : Nat)
    (bs : List Byte) (u : List V) (e : Error) (K : List V → Prop) : Prop :=
  ∃ p r n good rem ys, bs = p ++ r ∧ Varint 32 p n ∧ r.take n = good ++ rem ∧ Packed P good ys ∧
    u.length + ys.length ≤ cap ∧ K (u ++ ys) ∧
    ((Bad rem e ∧ e ≠ .endOfBuffer) ∨
     (u.length + ys.length = cap ∧ e = .arrayFull ∧ ∃ c rem' y, rem = c ++ rem' ∧ P c y))

/-- A record that is not acceptable: its tag cannot be read, has no valid wire type or number 0, or its
payload fails. -/
def RecordFail {U V : Type} (known : List Nat)
    (F : Nat → WireType → List Byte → U → Error → (U → Prop) → Prop)
    (O : Nat → WireType → List Byte → V → Error → (V → Prop) → Prop) (bs : List Byte) (u : U × V)
    (e : Error) (K : U × V → Prop) : Prop :=
  (LongVarint 5 bs ∧ e = .overlongVarint ∧ K u) ∨
  ∃ t r n, bs = t ++ r ∧ Varint 32 t n ∧
    ((6 ≤ n % 8 ∧ e = .invalidWiretype ∧ K u) ∨
     ∃ num wt, n = 8 * num + wireNumber wt ∧
      ((num = 0 ∧ e = .invalidFieldId ∧ K u) ∨
       F num wt r u.1 e (fun y => K (y, u.2)) ∨
       O num wt r u.2 e (fun y => K (u.1, y)) ∨
       (0 < num ∧ num ∉ known ∧ UnknownBad wt r e ∧ K u)))

/-- Well formed records followed by a record that is not acceptable. -/
def StreamFail {V : Type} (Step : List Byte → V → V → Prop)
    (Bad : List Byte → V → Error → (V → Prop) → Prop) (bs : List Byte) (u : V) (e : Error)
    (K : V → Prop) : Prop :=
  ∃ pre bad v, bs = pre ++ bad ∧ Stream Step pre u v ∧ Bad bad v e K

/-- A field: wrong wire type, or a payload that fails. -/
def CheckFail {V : Type} (wire : WireType) (isMsg : Bool)
    (B : List Byte → V → Error → (V → Prop) → Prop) (wt : WireType) (bs : List Byte) (u : V) (e : Error)
    (K : V → Prop) : Prop :=
  (wt ≠ wire ∧ e = .invalidWiretype ∧ K u) ∨
  (wt = wire ∧ if isMsg then BlockFail B bs u u e K K else B bs u e K)

/-- An array of strings or messages: no room, or a new element that fails.  A message element for which
not even the length can be read is not added; any other failing element is. A string element may show
what the array held at this place before (`old`). -/
def ElementFail {V : Type} (isMsg : Bool) (d : V) (cap : Nat)
    (B : List Byte → V → Error → (V → Prop) → Prop) (bs : List Byte) (u : List V) (e : Error)
    (K : List V → Prop) : Prop :=
  (u.length = cap ∧ e = .arrayFull ∧ K u) ∨
  (u.length < cap ∧
    if isMsg then BlockFail B bs d d e (fun _ => K u) (fun y => K (u ++ [y]))
    else ∀ old, B bs old e (fun y => K (u ++ [y])))

mutual
/-- The contents of an element of this type (for messages: without the length prefix) fail. -/
def ElemTy.BodyFail : (t : ElemTy) → List Byte → t.Val → Error → (t.Val → Prop) → Prop
  | .scalar s, bs, u, e, K => s.Bad bs e ∧ K u
  | .str cap, bs, u, e, K => StrFail cap bs u e K
  | .msg fs os, bs, u, e, K =>
    StreamFail (RecordStep (fs.numbers ++ os.numbers) fs.Record os.Record)
      (RecordFail (fs.numbers ++ os.numbers) fs.Fail os.Fail) bs u e K
/-- A record with number `num` and wire type `wt` for one of the fields fails. -/
def Fields.Fail : (fs : Fields) → (num : Nat) → WireType → List Byte → fs.Val → Error →
    (fs.Val → Prop) → Prop
  | .nil, _, _, _, _, _, _ => False
  | .plain n t rest, num, wt, bs, u, e, K =>
    (num = n ∧ CheckFail t.wire t.isMsg t.BodyFail wt bs u.1 e (fun y => K (y, u.2))) ∨
    rest.Fail num wt bs u.2 e (fun y => K (u.1, y))
  | .optional n t rest, num, wt, bs, u, e, K =>
    (num = n ∧ CheckFail t.wire t.isMsg t.BodyFail wt bs (u.1.getD t.dflt) e
      (fun y => K (some y, u.2))) ∨
    rest.Fail num wt bs u.2 e (fun y => K (u.1, y))
  | .repeated n cap t rest, num, wt, bs, u, e, K =>
    (num = n ∧ CheckFail .lengthDelimited false (if t.isScalar then
          PackedFail (fun b y => t.Payload b t.dflt y)
            (fun b e => t.BodyFail b t.dflt e (fun _ => True)) cap
        else ElementFail t.isMsg t.dflt cap t.BodyFail) wt bs u.1 e (fun y => K (y, u.2))) ∨
    rest.Fail num wt bs u.2 e (fun y => K (u.1, y))
/-- A record for one of the members of a oneof fails. -/
def Alts.Fail : (a : Alts) → (num : Nat) → WireType → List Byte → Option a.Val → Error → Prop
  | .nil, _, _, _, _, _ => False
  | .cons n t rest, num, wt, bs, u, e =>
    (num = n ∧ CheckFail t.wire t.isMsg t.BodyFail wt bs (leftD t.dflt u) e (fun _ => True)) ∨
    rest.Fail num wt bs (rightOf u) e
/-- … and the oneof is unset. -/
def Oneofs.Fail : (os : Oneofs) → (num : Nat) → WireType → List Byte → os.Val → Error →
    (os.Val → Prop) → Prop
  | .nil, _, _, _, _, _, _ => False
  | .cons a rest, num, wt, bs, u, e, K =>
    (a.Fail num wt bs u.1 e ∧ K (none, u.2)) ∨
    rest.Fail num wt bs u.2 e (fun y => K (u.1, y))
end

/-- A message with fields `fs` and oneofs `os`: a sequence of well formed records followed by a bad
one.  Decoding `bs` into `u` reports `e` and leaves a value satisfying `K`. -/
def RecordsFail (fs : Fields) (os : Oneofs) (bs : List Byte) (u : fs.Val × os.Val) (e : Error)
    (K : fs.Val × os.Val → Prop) : Prop :=
  (ElemTy.msg fs os).BodyFail bs u e K

end EP
