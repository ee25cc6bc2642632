import Verif.Proof.Groups
import Verif.Props.Parse
import Verif.Props.Malformed
import Verif.Proof.OkOrFull

/-!
# Unknown groups, and unknown fields that are cut off: exactly what happens (C36)
-/

namespace EP
open Spec

section
variable {β : Type} [ReadBuffer β] (M : ReadModel β) (fs : Fields) (os : Oneofs)
local notation "T" => ElemTy.msg fs os

/-- Records and tags of unknown groups, in terms of what objects hold. -/
abbrev HGrouped : List Byte → List Byte → (T).Held → (T).Held → Prop :=
  Grouped (fs.numbers ++ os.numbers) (RecordStep (fs.numbers ++ os.numbers) fs.HRecord os.HRecord)

/-- **C36**, exactly, groups: the tags that start and end unknown groups are left out, whether they match or not, and
everything inside is decoded as if it were outside.  Anything may follow. -/
theorem C36_groups_exact (x : (T).Obj) (b : β) (fuel : Nat) (pre flat tail : List Byte) (w : (T).Held) (h : (T).WF)
    (hx : (T).Reach x) (hb : M.Inv b) (hg : HGrouped fs os pre flat ((T).held x) w) (hv : M.view b = pre ++ tail)
    (hf : (M.view b).length < fuel) :
    Agrees fs os (parseMessage fs os false (flat ++ tail) ((T).held x)) (fun b' => M.view b' = [])
      ((T).cls.deserialize fuel b x) := by
  by_cases hn : parseMessage fs os false (flat ++ tail) ((T).held x) = .overrun
  · rw [hn]; trivial
  · rw [← parseMessage_grouped h false hg tail hn, ← hv]
    exact C64_reference M fs os x b fuel h hx hb hf

/-- **C36**: a message of records and groups gives what its records say without the groups. -/
theorem C36_groups_held (x : (T).Obj) (b : β) (fuel : Nat) (flat : List Byte) (w : (T).Held) (h : (T).WF)
    (hx : (T).Reach x) (hb : M.Inv b) (hg : HGrouped fs os (M.view b) flat ((T).held x) w)
    (hf : (M.view b).length < fuel) :
    ∃ b' y, (T).cls.deserialize fuel b x = .ok (.noErrors, b', y) ∧ M.view b' = [] ∧ (T).held y = w ∧
      (T).abs y = (T).seen w := by
  have := C36_groups_exact M fs os x b fuel (M.view b) flat [] w h hx hb hg (List.append_nil _).symm hf
  rw [List.append_nil, HRecords.parse (fs := fs) (os := os) h.distinct hg.stream false] at this
  exact this

/-- **C36** for values: the same for an object with blank leftovers, in particular a new one. -/
theorem C36_groups_value (x : (T).Obj) (b : β) (fuel : Nat) (flat : List Byte) (w : (T).Val) (h : (T).WF)
    (hx : (T).Reach x) (hbl : (T).Blank ((T).held x)) (hb : M.Inv b)
    (hg : Grouped (fs.numbers ++ os.numbers) (RecordStep (fs.numbers ++ os.numbers) fs.Record os.Record) (M.view b) flat
      ((T).abs x) w) (hf : (M.view b).length < fuel) :
    ∃ b' y, (T).cls.deserialize fuel b x = .ok (.noErrors, b', y) ∧ M.view b' = [] ∧ (T).abs y = w := by
  have hs := (T).sized_held x (ElemTy.reach_inv T h hx)
  obtain ⟨w', h1, h2, _⟩ := hg.lift
    (I := fun u : fs.Held × os.Held => (fs.Blank u.1 ∧ fs.Sized u.1) ∧ os.Blank u.2 ∧ os.Sized u.2)
    (recordStep_lift (fun num wt bs u v => Fields.lift fs num wt bs u v)
      (fun num wt bs u v => Oneofs.lift os num wt bs u v)) ((T).held x) ((T).seen_held x)
    ⟨⟨hbl.1, hs.1⟩, hbl.2, hs.2⟩
  obtain ⟨b', y, g1, g2, _, g4⟩ := C36_groups_held M fs os x b fuel flat w' h hx hb h1 hf
  exact ⟨b', y, g1, g2, g4.trans h2⟩

/-- **C36**: a group with an unknown number is skipped if no number in it is known; whatever follows is decoded as if there
were no group. -/
theorem C36_unknown_group (x : (T).Obj) (b : β) (fuel num : Nat) (tg p tail : List Byte) (h : (T).WF) (hx : (T).Reach x)
    (hb : M.Inv b) (h0 : 0 < num) (hn : num ∉ fs.numbers ++ os.numbers) (ht : Varint 32 tg (8 * num + 3))
    (hp : UnknownGroup (fs.numbers ++ os.numbers) num p) (hv : M.view b = tg ++ (p ++ tail))
    (hf : (M.view b).length < fuel) :
    Agrees fs os (parseMessage fs os false tail ((T).held x)) (fun b' => M.view b' = []) ((T).cls.deserialize fuel b x) := by
  obtain ⟨flat, hg⟩ := hp.grouped (Step := RecordStep (fs.numbers ++ os.numbers) fs.HRecord os.HRecord)
    (fun k wt tg q u k1 k2 k3 k4 => ⟨k, wt, tg, q, k3, rfl, Or.inr (Or.inr ⟨k1, k2, k4, rfl⟩)⟩) h0 hn ((T).held x)
  have hg' : HGrouped fs os (tg ++ p) flat ((T).held x) ((T).held x) :=
    .tag (wt := .startGroup) h0 hn (Or.inl rfl) ht hg
  have hr := C36_groups_exact M fs os x b fuel (tg ++ p) flat tail _ h hx hb hg' (by rw [hv, List.append_assoc]) hf
  by_cases ho : parseMessage fs os false tail ((T).held x) = .overrun
  · rw [ho]; trivial
  · have hw := h
    simp only [ElemTy.WF] at hw
    have hd := List.nodup_append.mp hw.2.2.1
    obtain ⟨k', e1, e2⟩ := parseLoop_stream
      (parseRecord_step hw.2.2.1 false (fun num wt p r u v => Fields.parse_ok fs hw.1.distinct hd.1 false num wt p r u v)
        (fun num wt p r u v => Oneofs.parse_ok os hw.2.1.distinct hd.2.1 false num wt p r u v)) hg.stream
      ((flat ++ tail).length + 1) tail (Nat.lt_succ_self _)
    have e3 : parseMessage fs os false (flat ++ tail) ((T).held x) = parseMessage fs os false tail ((T).held x) := by
      refine Eq.trans e2 (parseLoop_more (tail.length + 1) k' e1 _ _ ho)
    rw [e3] at hr
    exact hr

/-- **C36** for a group at the end of a message: skipped exactly if nothing in it has an effect. -/
theorem C36_group_iff (x : (T).Obj) (b : β) (fuel num : Nat) (tg tg' inner : List Byte) (w : (T).Held) (h : (T).WF)
    (hx : (T).Reach x) (hb : M.Inv b) (h0 : 0 < num) (hn : num ∉ fs.numbers ++ os.numbers) (ht : Varint 32 tg (8 * num + 3))
    (ht' : Varint 32 tg' (8 * num + 4)) (hr : HRecords fs os inner ((T).held x) w) (hv : M.view b = tg ++ (inner ++ tg'))
    (hf : (M.view b).length < fuel) :
    ∃ b' y, (T).cls.deserialize fuel b x = .ok (.noErrors, b', y) ∧ ((T).held y = (T).held x ↔ w = (T).held x) := by
  have hg : HGrouped fs os (M.view b) inner ((T).held x) w := by
    rw [hv]
    exact Grouped.around h0 hn ht ht' (Grouped.of_stream hr)
  obtain ⟨b', y, g1, _, g3, _⟩ := C36_groups_held M fs os x b fuel inner w h hx hb hg hf
  exact ⟨b', y, g1, by rw [g3]⟩

end

section
variable (fs : Fields) (os : Oneofs)
local notation "T" => ElemTy.msg fs os

/-- **C36**, exactly: an unknown length-delimited field of `n` bytes of which only `body` is there, in a
`ReadBufferFixedSize`.  Decoding goes on with `body`; but if the index of its first byte plus `n` is 2³² or more, with
the byte at that index minus 2³², which was read before. -/
theorem C36_cut_exact (x : (T).Obj) (cap fuel num n : Nat) (b : ReadFixed) (tg pl body : List Byte) (h : (T).WF)
    (hcap : cap < 2 ^ 32) (hb : b.WF cap) (h0 : 0 < num) (hn : num ∉ fs.numbers ++ os.numbers)
    (ht : Varint 32 tg (8 * num + 2)) (hp : Varint 32 pl n) (hv : b.unread = tg ++ (pl ++ body))
    (hl : body.length < n) (hf : 0 < fuel) :
    ∃ b', Onward fs os fuel b x b' x ∧ b'.WF cap ∧
      (b.read + tg.length + pl.length + n < 2 ^ 32 → b'.unread = body) ∧
      (2 ^ 32 ≤ b.read + tg.length + pl.length + n →
        b'.unread = (b.data.take b.write).drop (b.read + tg.length + pl.length + n - 2 ^ 32) ∧ body.length < b'.unread.length) := by
  obtain ⟨b', h1, h2, h3, h4, h5⟩ := cut_onward h x fuel cap hcap b hb tg pl body num n h0 hn ht hp hv hl hf
  have hu : b.unread = (b.data.take b.write).drop b.read := rfl
  have hu' : b'.unread = (b'.data.take b'.write).drop b'.read := rfl
  rw [h3, h4] at hu'
  refine ⟨b', h1, h2, fun hlt => ?_, fun hge => ?_⟩
  · rw [if_pos hlt] at h5
    rw [hu', h5, Nat.add_assoc, ← List.drop_drop, ← hu, hv, ← List.append_assoc, List.drop_left' (by simp)]
  · rw [if_neg (Nat.not_lt.mpr hge)] at h5
    have e : n < 2 ^ 32 := by rw [hp.2]; exact Nat.mod_lt _ (by decide)
    have e1 := hb.unread_length
    have e2 := h2.unread_length
    rw [hv] at e1
    simp only [List.length_append] at e1
    have := varint_pos ht
    have := hb.read_le
    refine ⟨by rw [hu', h5], ?_⟩
    omega

/-- **C36**, exactly: in a nested message, whose bytes are all there, an unknown length-delimited field that ends after the
message ends with it, and there is no error. -/
theorem C36_cut_nested {β : Type} [ReadBuffer β] (M : ReadModel β) (x : (T).Obj) (b : β) (fuel num n m : Nat)
    (tg pl body : List Byte) (h : (T).WF) (hx : (T).Reach x) (hb : M.Inv b) (h0 : 0 < num)
    (hn : num ∉ fs.numbers ++ os.numbers) (ht : Varint 32 tg (8 * num + 2)) (hp : Varint 32 pl n)
    (hm : m ≤ (M.view b).length) (hv : (M.view b).take m = tg ++ (pl ++ body)) (hl : body.length < n) (hf : m < fuel) :
    ∃ s y, (T).cls.deserialize fuel (Section.new b m) x = .ok (.noErrors, s, y) ∧
      M.view s.buffer = (M.view b).drop m ∧ (T).held y = (T).held x := by
  have hr := (C64_section M fs os x b m fuel h hx hb hm hf).2
  have hk : parseMessage fs os true ((M.view b).take m) ((T).held x) = .ok ((T).held x) [] := by
    rw [hv]
    refine (parseLoop_tag (wt := .lengthDelimited) ht (Nat.lt_succ_self _)).1 _ ?_
    simp only [List.mem_append, not_or] at hn
    unfold parseRecord
    rw [Fields.parse_none fs true num _ _ _ hn.1, Oneofs.parse_none os true num _ _ _ hn.2]
    simp only
    rw [if_neg (by omega), skipField, readLen_ok body hp]
    simp only [or_true, if_true]
    rw [List.drop_of_length_le (by omega)]
    rfl
  rw [hk] at hr
  obtain ⟨s, y, g1, g2, g3, _⟩ := hr
  exact ⟨s, y, g1, g2, g3⟩

end

local notation "one" => ElemTy.msg (Fields.plain 1 (ElemTy.scalar ScalarTy.int32) Fields.nil) Oneofs.nil

/-- The group `13 18 07 1B 20 01 1C 14`: number 2, with field 3 and a group 3 with a field 4 in it.  None is known. -/
theorem innerGroup : UnknownGroup [1] 2 [0x18, 0x07, 0x1B, 0x20, 0x01, 0x1C, 0x14] :=
  .field (k := 3) (wt := .varint) (tg := [0x18]) (p := [0x07]) (by decide) (by decide) (by decide)
    (by show IsVarint 10 [0x07]; decide)
    (.group (k := 3) (tg := [0x1B]) (p := [0x20, 0x01, 0x1C]) (rest := [0x14]) (by decide) (by decide) (by decide)
      (.field (k := 4) (wt := .varint) (tg := [0x20]) (p := [0x01]) (by decide) (by decide) (by decide)
        (by show IsVarint 10 [0x01]; decide) (.stop (by decide))) (.stop (by decide)))

/-- It is skipped, and the field 1 that follows is decoded. -/
example : ∃ b' y, (one).cls.deserialize 12 (ReadFixed.holding 12 [0x13, 0x18, 0x07, 0x1B, 0x20, 0x01, 0x1C, 0x14, 0x08, 0x05])
    (one).cls.init = .ok (.noErrors, b', y) ∧ (one).abs y = ((5#32, ()), ()) := by
  have := C36_unknown_group (ReadFixed.model 12 (by decide)) (.plain 1 (.scalar .int32) .nil) .nil (one).cls.init
    (ReadFixed.holding 12 [0x13, 0x18, 0x07, 0x1B, 0x20, 0x01, 0x1C, 0x14, 0x08, 0x05]) 12 2 [0x13] _ [0x08, 0x05]
    (oneScalar_wf .int32) .init (ReadFixed.holding_inv _ _ _ (by decide)) (by decide) (by decide) (by decide) innerGroup
    (ReadFixed.holding_view _ _ _) (by decide)
  obtain ⟨b', y, h1, _, _, h4⟩ := this
  exact ⟨b', y, h1, h4⟩

/-- `13 08 05 1C`: an end tag that does not match, and a known field between the tags.  The value is 5. -/
example : Grouped [1] (RecordStep [1] (Fields.plain 1 (.scalar .int32) .nil).Record Oneofs.nil.Record)
    [0x13, 0x08, 0x05, 0x1C] [0x08, 0x05] ((0#32, ()), ()) ((5#32, ()), ()) :=
  .tag (tg := [0x13]) (num := 2) (wt := .startGroup) (by decide) (by decide) (Or.inl rfl) (by decide)
    (.record (r := [0x08, 0x05]) (v := ((5#32, ()), ()))
      ⟨1, .varint, [0x08], [0x05], by decide, rfl, Or.inl ⟨Or.inl ⟨rfl, rfl, by
        show ScalarTy.int32.Payload [0x05] 5#32
        exact ⟨5, by decide, rfl⟩, rfl⟩, rfl⟩⟩
      (.tag (tg := [0x1C]) (num := 3) (wt := .endGroup) (by decide) (by decide) (Or.inr rfl) (by decide) (.nil _)))

/-- `12 03 08 05`: of an unknown field with three bytes, two are there; they are decoded as field 1. -/
example : ∃ b', Onward (.plain 1 (.scalar .int32) .nil) .nil 9 (ReadFixed.holding 8 [0x12, 0x03, 0x08, 0x05])
    (one).cls.init b' (one).cls.init ∧ b'.unread = [0x08, 0x05] := by
  obtain ⟨b', h1, _, h3, _⟩ := C36_cut_exact (.plain 1 (.scalar .int32) .nil) .nil (one).cls.init 8 9 2 3
    (ReadFixed.holding 8 [0x12, 0x03, 0x08, 0x05]) [0x12] [0x03] [0x08, 0x05] (oneScalar_wf .int32) (by decide)
    (ReadFixed.holding_inv _ (by decide) _ (by decide)) (by decide) (by decide) (by decide) (by decide)
    rfl (by decide) (by decide)
  exact ⟨b', h1, h3 (by decide)⟩

end EP
