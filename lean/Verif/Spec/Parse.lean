import Verif.Spec.Held

/-!
# A reference decoder

A recursive descent decoder on lists of bytes: for any bytes at all, which error is reported and what
the object holds afterwards.  It knows nothing about buffers, indices, sections, presence bits or
unions.  `clip` says that skipping more bytes than there are stops at the end of the data; without it
the outcome of doing so is left open (`overrun`).
-/

namespace EP
open Spec

/-- Reads a value from the front; the bytes after it are known also after an error. -/
abbrev Reader (α : Type) := List Byte → Except Error α × List Byte

/-- Change the value read. -/
def Reader.map {α γ : Type} (f : α → γ) (r : Reader α) : Reader γ := fun bs =>
  match r bs with
  | (.ok a, rest) => (.ok (f a), rest)
  | (.error e, rest) => (.error e, rest)

/-- A varint of at most `k` bytes. -/
def readVarint : Nat → Reader Nat
  | 0, bs => (.error .overlongVarint, bs)
  | _ + 1, [] => (.error .endOfBuffer, [])
  | k + 1, b :: bs =>
    if cont b then (readVarint k).map (fun n => b.toNat % 128 + 128 * n) bs else (.ok b.toNat, bs)

/-- `k` bytes, little endian. -/
def readFixed (k : Nat) : Reader Nat := fun bs =>
  if bs.length < k then (.error .endOfBuffer, []) else (.ok (ofLittleEndian (bs.take k)), bs.drop k)

/-- The integer with a given zigzag number. -/
def unzigzag (n : Nat) : Int := if n % 2 = 0 then (n / 2 : Nat) else -(n / 2 : Nat) - 1

/-- A scalar. -/
def ScalarTy.read : (s : ScalarTy) → Reader s.Val
  | .int32 => (readVarint 10).map (BitVec.ofNat 32)
  | .int64 => (readVarint 10).map (BitVec.ofNat 64)
  | .uint32 => (readVarint 5).map (BitVec.ofNat 32)
  | .uint64 => (readVarint 10).map (BitVec.ofNat 64)
  | .enumeration => (readVarint 5).map (BitVec.ofNat 32)
  | .sint32 => (readVarint 10).map fun n => BitVec.ofInt 32 (unzigzag (n % 2 ^ 32))
  | .sint64 => (readVarint 10).map fun n => BitVec.ofInt 64 (unzigzag (n % 2 ^ 64))
  | .boolean => (readFixed 1).map fun n => n != 0
  | .fixed32 => (readFixed 4).map (BitVec.ofNat 32)
  | .sfixed32 => (readFixed 4).map (BitVec.ofNat 32)
  | .floatfixed => (readFixed 4).map (BitVec.ofNat 32)
  | .fixed64 => (readFixed 8).map (BitVec.ofNat 64)
  | .sfixed64 => (readFixed 8).map (BitVec.ofNat 64)
  | .doublefixed => (readFixed 8).map (BitVec.ofNat 64)

/-- The length of a length-delimited record. -/
def readLen : Reader Nat := (readVarint 5).map (· % 2 ^ 32)

/-- The wire type with a given number; there is none for 6 and 7. -/
def wireType? (n : Nat) : Option WireType :=
  [WireType.varint, .fixed64, .lengthDelimited, .startGroup, .endGroup, .fixed32].find? fun wt =>
    wireNumber wt == n

/-- A tag: field number and wire type. -/
def readTag : Reader (Nat × Option WireType) :=
  (readVarint 5).map fun n => (n % 2 ^ 32 / 8, wireType? (n % 8))

/-- Outcome of decoding part of a message. -/
inductive Parse (α : Type) where
  /-- decoded, with these bytes left -/
  | ok (v : α) (rest : List Byte)
  /-- refused; `v` is what is held then -/
  | fail (e : Error) (v : α)
  /-- an unknown field is longer than the data, and what follows depends on the buffer -/
  | overrun

/-- Embed what is held into something larger. -/
def Parse.map {α γ : Type} (f : α → γ) : Parse α → Parse γ
  | .ok v rest => .ok (f v) rest
  | .fail e v => .fail e (f v)
  | .overrun => .overrun

/-- Decode the next `n` bytes (or as many as there are) separately.  With `n` bytes there, skipping
cannot leave them. -/
def window {α : Type} (clip : Bool) (n : Nat) (bs : List Byte) (f : Bool → List Byte → Parse α) : Parse α :=
  match f (clip || decide (n ≤ bs.length)) (bs.take n) with
  | .ok v _ => .ok v (bs.drop n)
  | r => r

/-- Skip an unknown field.  Groups are not recognised: only the tag is dropped. -/
def skipField (clip : Bool) (wt : WireType) (bs : List Byte) : Parse Unit :=
  let drop {α : Type} (r : Except Error α × List Byte) : Parse Unit :=
    match r with
    | (.ok _, rest) => .ok () rest
    | (.error e, _) => .fail e ()
  match wt with
  | .varint => drop (readVarint 10 bs)
  | .fixed64 => drop (readFixed 8 bs)
  | .fixed32 => drop (readFixed 4 bs)
  | .startGroup => .ok () bs
  | .endGroup => .ok () bs
  | .lengthDelimited =>
    match readLen bs with
    | (.error e, _) => .fail e ()
    | (.ok n, rest) => if n ≤ rest.length ∨ clip then .ok () (rest.drop n) else .overrun

/-- Records up to the end of the data.  `k` bounds their number. -/
def parseLoop {α : Type} (record : Nat → WireType → List Byte → α → Parse α) :
    Nat → List Byte → α → Parse α
  | 0, _, _ => .overrun
  | k + 1, bs, u =>
    match readTag bs with
    | (.error .endOfBuffer, _) => .ok u []
    | (.error e, _) => .fail e u
    | (.ok (_, none), _) => .fail .invalidWiretype u
    | (.ok (num, some wt), rest) =>
      match record num wt rest u with
      | .ok v rest => parseLoop record k rest v
      | r => r

/-- Elements up to the end of the data; the first list is the array so far, the second the places
left.  An element that is cut off ends the field without error. -/
def parsePacked {H : Type} (read : Reader H) : List Byte → List H → List H → Parse (List H × List H)
  | bs, xs, hs =>
    match read bs with
    | (.error .endOfBuffer, _) => .ok (xs, hs) []
    | (.error e, _) => .fail e (xs, hs)
    | (.ok y, rest) =>
      match hs with
      | [] => .fail .arrayFull (xs, [])
      | _ :: hs => parsePacked read rest (xs ++ [y]) hs

/-- A packed field.  A length that cannot be read counts as 0. -/
def parseScalars {H : Type} (read : Reader H) (bs : List Byte) (u : List H × List H) :
    Parse (List H × List H) :=
  match readLen bs with
  | (.ok n, rest) => window true n rest fun _ w => parsePacked read w u.1 u.2
  | (.error _, rest) => window true 0 rest fun _ w => parsePacked read w u.1 u.2

/-- One more element of an array of strings or messages, decoded into the first place left.  The
element becomes part of the array even if it is refused, but for a message whose length cannot be
read. -/
def parseElem {H : Type} (isMsg : Bool) (parse : List Byte → H → Parse H) (bs : List Byte)
    (u : List H × List H) : Parse (List H × List H) :=
  match u.2 with
  | [] => .fail .arrayFull u
  | h :: hs =>
    match isMsg, readLen bs with
    | true, (.error e, _) => .fail e u
    | _, _ => (parse bs h).map fun y => (u.1 ++ [y], hs)

/-- A string of at most `cap` bytes.  What is there of a string that is cut off is kept. -/
def parseStr (cap : Nat) (bs u : List Byte) : Parse (List Byte) :=
  match readLen bs with
  | (.error e, _) => .fail e u
  | (.ok n, rest) =>
    if cap < n then .fail .arrayFull u
    else if rest.length < n then .fail .endOfBuffer rest
    else .ok (rest.take n) (rest.drop n)

/-- A scalar. -/
def parseScalar {H : Type} (read : Reader H) (bs : List Byte) (u : H) : Parse H :=
  match read bs with
  | (.ok v, rest) => .ok v rest
  | (.error e, _) => .fail e u

/-- The record of a field with the wrong wire type is refused. -/
def expect {α : Type} (want wt : WireType) (u : α) (r : Parse α) : Parse α :=
  if wt = want then r else .fail .invalidWiretype u

mutual
/-- The value of a singular field, decoded into `u`. -/
def ElemTy.parse : (t : ElemTy) → (clip : Bool) → List Byte → t.Held → Parse t.Held
  | .scalar s, _, bs, u => parseScalar s.read bs u
  | .str cap, _, bs, u => parseStr cap bs u
  | .msg fs os, clip, bs, u =>
    match readLen bs with
    | (.error e, _) => .fail e u
    | (.ok n, rest) => window clip n rest fun clip w =>
      parseLoop (fun num wt bs u =>
        match fs.parse clip num wt bs u.1 with
        | some r => r.map fun v => (v, u.2)
        | none =>
          match os.parse clip num wt bs u.2 with
          | some r => r.map fun v => (u.1, v)
          | none => if num = 0 then .fail .invalidFieldId u else (skipField clip wt bs).map fun _ => u)
        (w.length + 1) w u
/-- The record of a field; `none` if there is no such field. -/
def Fields.parse : (fs : Fields) → (clip : Bool) → (num : Nat) → WireType → List Byte → fs.Held →
    Option (Parse fs.Held)
  | .nil, _, _, _, _, _ => none
  | .plain n t rest, clip, num, wt, bs, u =>
    if num = n then some ((expect t.wire wt u.1 (t.parse clip bs u.1)).map fun y => (y, u.2))
    else (rest.parse clip num wt bs u.2).map (Parse.map fun v => (u.1, v))
  | .optional n t rest, clip, num, wt, bs, u =>
    if num = n then
      some ((expect t.wire wt (u.1.getD t.fresh) (t.parse clip bs (u.1.getD t.fresh))).map
        fun y => (some y, u.2))
    else (rest.parse clip num wt bs u.2).map (Parse.map fun v => (u.1, v))
  | .repeated n _ t rest, clip, num, wt, bs, u =>
    if num = n then
      some ((expect .lengthDelimited wt u.1 (match t with
        | .scalar s => parseScalars s.read bs u.1
        | .str cap => parseElem false (fun bs u => parseStr cap bs u) bs u.1
        | .msg fs os => parseElem true (fun bs u => (ElemTy.msg fs os).parse clip bs u) bs u.1)).map
        fun y => (y, u.2))
    else (rest.parse clip num wt bs u.2).map (Parse.map fun v => (u.1, v))
/-- The record of a member of a oneof. -/
def Alts.parse : (a : Alts) → (clip : Bool) → (num : Nat) → WireType → List Byte → Option a.Held →
    Option (Parse a.Held)
  | .nil, _, _, _, _, _ => none
  | .cons n t rest, clip, num, wt, bs, u =>
    if num = n then
      some ((expect t.wire wt (leftD t.fresh u) (t.parse clip bs (leftD t.fresh u))).map Sum.inl)
    else (rest.parse clip num wt bs (rightOf u)).map (Parse.map Sum.inr)
/-- The record of a member of any oneof; afterwards nothing is set if it is refused. -/
def Oneofs.parse : (os : Oneofs) → (clip : Bool) → (num : Nat) → WireType → List Byte → os.Held →
    Option (Parse os.Held)
  | .nil, _, _, _, _, _ => none
  | .cons a rest, clip, num, wt, bs, u =>
    match a.parse clip num wt bs u.1 with
    | some (.ok y bs) => some (.ok (some y, u.2) bs)
    | some (.fail e _) => some (.fail e (none, u.2))
    | some .overrun => some .overrun
    | none => (rest.parse clip num wt bs u.2).map (Parse.map fun v => (u.1, v))
end

/-- One record of a message. -/
def parseRecord (fs : Fields) (os : Oneofs) (clip : Bool) (num : Nat) (wt : WireType) (bs : List Byte)
    (u : fs.Held × os.Held) : Parse (fs.Held × os.Held) :=
  match fs.parse clip num wt bs u.1 with
  | some r => r.map fun v => (v, u.2)
  | none =>
    match os.parse clip num wt bs u.2 with
    | some r => r.map fun v => (u.1, v)
    | none => if num = 0 then .fail .invalidFieldId u else (skipField clip wt bs).map fun _ => u

/-- A whole message. -/
def parseMessage (fs : Fields) (os : Oneofs) (clip : Bool) (bs : List Byte) (u : fs.Held × os.Held) :
    Parse (fs.Held × os.Held) :=
  parseLoop (parseRecord fs os clip) (bs.length + 1) bs u

end EP
