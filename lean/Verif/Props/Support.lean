import Verif.Proof.BufferModels
import Verif.Proof.Reach

/-!
# Concrete buffers, declarations and objects used in examples and counter-examples
-/

namespace EP

instance Spec.decIsVarint : (k : Nat) → (bs : List Byte) → Decidable (Spec.IsVarint k bs)
  | 0, _ => .isFalse id
  | _ + 1, [] => .isFalse id
  | k + 1, b :: bs => by
    unfold Spec.IsVarint
    have := Spec.decIsVarint k bs
    exact inferInstance

instance (w : Nat) (bs : List Byte) (n : Nat) : Decidable (Spec.Varint w bs n) := by
  unfold Spec.Varint
  exact inferInstance

/-- A `ReadBufferFixedSize` of capacity `cap` into which `bs` was stored through `get_data()` and
`set_bytes_written()`. -/
def ReadFixed.holding (cap : Nat) (bs : List Byte) : ReadFixed :=
  ⟨cap, bs ++ List.replicate (cap - bs.length) 0, bs.length, 0⟩

/-- `holding` is what the API calls produce. -/
theorem ReadFixed.holding_eq (cap : Nat) (bs : List Byte) (h : bs.length ≤ cap) :
    ((ReadFixed.new cap).writeData bs).get?.map (fun b => b.setBytesWritten bs.length) =
      some (ReadFixed.holding cap bs) := by
  simp [ReadFixed.new, ReadFixed.writeData, arrayCopy, h, Res.get?, ReadFixed.setBytesWritten,
    ReadFixed.holding]

theorem ReadFixed.holding_inv (cap : Nat) (hcap : cap < 4294967296) (bs : List Byte)
    (h : bs.length ≤ cap) : (ReadFixed.model cap hcap).Inv (ReadFixed.holding cap bs) :=
  ⟨rfl, by simp [ReadFixed.holding]; omega, by simp [ReadFixed.holding], by simpa [ReadFixed.holding] using h⟩

theorem ReadFixed.holding_view (cap : Nat) (hcap : cap < 4294967296) (bs : List Byte) :
    (ReadFixed.model cap hcap).view (ReadFixed.holding cap bs) = bs := by
  simp [ReadFixed.model, ReadFixed.unread, ReadFixed.holding]

/-- A buffer as an argument of `deserialize`. -/
def Source.holding (cap : Nat) (hcap : cap < 4294967296) (bs : List Byte) (h : bs.length ≤ cap) :
    Source :=
  ⟨ReadFixed, ReadFixed.model cap hcap, ReadFixed.holding cap bs, ReadFixed.holding_inv cap hcap bs h⟩

/-- An object filled by `deserialize` is reachable. -/
theorem ElemTy.reach_decoded (t : ElemTy) (src : Source) (fuel : Nat) {e : Error} {b : src.β}
    {x y : t.cls.State} (hx : t.Reach x)
    (h : t.cls.deserialize fuel src.buf x = .ok (e, b, y)) : t.Reach y := by
  refine ReachGen.step (R := fun _ => False) (f := fun x => (t.cls.deserialize fuel src.buf x).object)
    (fun _ h => h.elim) ?_ hx (by show Res.object _ = _; rw [h]; rfl)
  have : CommonApi t.cls (fun _ => False) (fun x => (t.cls.deserialize fuel src.buf x).object) :=
    Or.inr (Or.inr (Or.inr (Or.inl ⟨src, fuel, rfl⟩)))
  cases t with
  | scalar s => exact Or.inl this
  | str cap => exact Or.inl this
  | msg fs os => exact Or.inl this

namespace Sample

/-- `message Inner { sint32 a = 1; repeated uint32 b = 2 [maxLength = 3]; }` -/
def inner : ElemTy :=
  .msg (.plain 1 (.scalar .sint32) (.repeated 2 3 (.scalar .uint32) .nil)) .nil

/-- The fields of
```
message Outer {
  int32 a = 1;  optional uint32 b = 2;  repeated uint32 c = 3 [maxLength = 3];
  string d = 4 [maxLength = 8];  Inner e = 5;  repeated Inner f = 6 [maxLength = 2];
  float g = 7;
  oneof o { bool h = 8;  string i = 9 [maxLength = 4];  Inner j = 100; }
}
``` -/
def fields : Fields :=
  .plain 1 (.scalar .int32) <| .optional 2 (.scalar .uint32) <| .repeated 3 3 (.scalar .uint32) <|
  .plain 4 (.str 8) <| .plain 5 inner <| .repeated 6 2 inner <| .plain 7 (.scalar .floatfixed) .nil

def oneofs : Oneofs :=
  .cons (.cons 8 (.scalar .boolean) (.cons 9 (.str 4) (.cons 100 inner .nil))) .nil

abbrev outer : ElemTy := .msg fields oneofs

theorem inner_wf : inner.WF := by
  simp [inner, ElemTy.WF, Fields.WF, Oneofs.WF, Fields.numbers, Oneofs.numbers]

theorem outer_wf : outer.WF := by
  simp [fields, oneofs, inner_wf, ElemTy.WF, Fields.WF, Oneofs.WF, Alts.WF, Fields.numbers,
    Alts.numbers, Oneofs.numbers]

/-- `a = 150, b = 0, c = [1, 300], d = "abc", e = {a = -1}, f = [{}, {b = [7]}], g = 1.5,
j = {a = 2}` -/
def bytes : List Byte :=
  [0x08, 0x96, 0x01, 0x10, 0x00, 0x1A, 0x03, 0x01, 0xAC, 0x02, 0x22, 0x03, 0x61, 0x62, 0x63,
   0x2A, 0x02, 0x08, 0x01, 0x32, 0x00, 0x32, 0x03, 0x12, 0x01, 0x07,
   0x3D, 0x00, 0x00, 0xC0, 0x3F, 0xA2, 0x06, 0x02, 0x08, 0x04]

/-- The value encoded by `bytes`. -/
def value : outer.Val :=
  ((150#32, some 0#32, [1#32, 300#32], [0x61, 0x62, 0x63], (((-1 : BitVec 32), [], ()), ()),
    [((0#32, [], ()), ()), ((0#32, [7#32], ()), ())], 0x3FC00000#32, ()),
   (some (.inr (.inr (.inl ((2#32, [], ()), ())))), ()))

theorem decoded : ∃ b x, outer.cls.deserialize 64 (ReadFixed.holding 64 bytes) outer.cls.init =
    .ok (.noErrors, b, x) ∧ b.read = 36 ∧ outer.abs x = value := ⟨_, _, rfl, rfl, rfl⟩

/-- A reachable object with value `value`. -/
theorem reachable : ∃ x, outer.Reach x ∧ outer.abs x = value := by
  obtain ⟨b, x, h, _, hv⟩ := decoded
  exact ⟨x, outer.reach_decoded (Source.holding 64 (by omega) bytes (by decide)) 64 .init h, hv⟩

end Sample

end EP
