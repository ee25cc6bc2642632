import Verif.Props.Rendered

/-!
# C70: what happens to a record of a field of the type of the message itself
-/

namespace EP.Gen
open Spec

variable {E : Types} {alloc : Bool} {name own : Str} {nested : List Str} {fields : List FieldDesc} {oneofs : List Str}
  {m : GMessage}

local notation "K" => render alloc E name m

section
variable (h : FieldsValid fields oneofs) (e : mkMessage own fields oneofs = .ok m) (D : (render alloc E name m).Distinct nested)
include h e D

theorem anyIs_other {n : Nat} : ∀ gs : List GField, (∀ g ∈ gs, g ∈ allFields m) → (∀ g ∈ gs, g.desc.number ≠ n) →
    Class.anyIs K n (gs.map fun g => upper g.desc.name) = .ok false
  | [], _, _ => rfl
  | g :: gs, hs, hn => by
    show (Class.number K (upper g.desc.name) >>= _ : Res _) = _
    rw [number_declared h e D (desc_mem h e (hs g List.mem_cons_self)), Res.ok_bind,
      if_neg (Ne.symm (hn g List.mem_cons_self))]
    exact anyIs_other gs (fun g hg => hs g (List.mem_cons_of_mem _ hg)) fun g hg => hn g (List.mem_cons_of_mem _ hg)

/-- A number that no field has: the cases are passed over. -/
theorem step_other {β : Type} [ReadBuffer β] (fuel : Nat) (wt : WireType) (b : β) (x : Class.Obj K) {n : Nat}
    (hn : ∀ f ∈ fields, f.number ≠ n) :
    Class.step K fuel n wt b x (Class.cases K) = Class.step K fuel n wt b x [] := by
  have h1 : ∀ os : List GOneof, (∀ o ∈ os, o ∈ m.oneofs) → Class.step K fuel n wt b x (os.map fun o =>
      .oneof (o.fields.map fun g => upper g.desc.name) (deserializeName o.name)) = Class.step K fuel n wt b x [] := by
    intro os
    induction os with
    | nil => exact fun _ => rfl
    | cons o os ih =>
      intro ho
      have hm : ∀ g ∈ o.fields, g ∈ allFields m := fun g hg =>
        List.mem_append_right _ (List.mem_flatMap.mpr ⟨o, ho o List.mem_cons_self, hg⟩)
      show (Class.anyIs K n (o.fields.map fun g => upper g.desc.name) >>= _ : Res _) = _
      rw [anyIs_other h e D o.fields hm fun g hg => hn _ (desc_mem h e (hm g hg)), Res.ok_bind]
      exact ih fun o ho' => ho o (List.mem_cons_of_mem _ ho')
  have h2 : ∀ gs : List GField, (∀ g ∈ gs, g ∈ m.fields) → ∀ cs, Class.step K fuel n wt b x cs = Class.step K fuel n wt b x [] →
      Class.step K fuel n wt b x (gs.map (fun g => .field (upper g.desc.name) (desField g)) ++ cs) =
        Class.step K fuel n wt b x [] := by
    intro gs
    induction gs with
    | nil => exact fun _ _ hc => hc
    | cons g gs ih =>
      intro hg cs hc
      have hm := desc_mem h e (List.mem_append_left _ (hg g List.mem_cons_self) : g ∈ allFields m)
      show (Class.number K (upper g.desc.name) >>= _ : Res _) = _
      rw [number_declared h e D hm, Res.ok_bind, if_neg (Ne.symm (hn _ hm))]
      exact ih (fun g hg' => hg g (List.mem_cons_of_mem _ hg')) cs hc
  exact h2 m.fields (fun _ hg => hg) _ (h1 m.oneofs fun _ ho => ho)

theorem step_none {β : Type} [ReadBuffer β] (fuel : Nat) (wt : WireType) (b : β) (x : Class.Obj K) {n : Nat}
    (hn : ∀ f ∈ fields, f.number ≠ n) :
    Class.step K fuel n wt b x (Class.cases K) =
      if n = 0 then .ok (.invalidFieldId, b, x) else skipUnknownField b wt >>= fun r => .ok (r.1, r.2, x) := by
  rw [step_other h e D fuel wt b x hn]
  have h0 : Class.number K notSet = .ok 0 := Class.number_eq D List.mem_cons_self
  show (Class.number K notSet >>= _ : Res _) = _
  rw [h0, Res.ok_bind]
  rfl

end
end EP.Gen

namespace EP
open Gen Spec

theorem deserializeTag_bad {β : Type} [ReadBuffer β] (M : ReadModel β) (bs rest : List Byte) (n : Nat)
    (h : Varint 32 bs n) (hn : 6 ≤ n % 8) (b : β) (hb : M.Inv b) (hv : M.view b = bs ++ rest) :
    (deserializeTag b).Post fun p => p.1 = .error .invalidWiretype ∧ M.Inv p.2 ∧ M.view p.2 = rest := by
  unfold deserializeTag
  rw [Res.Post_bind]
  refine (deserializeVarint_ok M 32 bs rest h.1 b hb hv).mono ?_
  rintro ⟨r, b'⟩ ⟨hr, hi, hv'⟩
  dsimp only at hr hi hv'
  subst hr
  have h1 : (BitVec.ofNat 32 (groups bs) &&& 7).toNat = n % 8 := by
    rw [BitVec.toNat_and, BitVec.toNat_ofNat, ← h.2]
    have : (7 : BitVec 32).toNat = 2 ^ 3 - 1 := rfl
    rw [this, Nat.and_two_pow_sub_one_eq_mod]
  have h2 : WireType.ofNat? (n % 8) = none := by
    have : n % 8 < 8 := Nat.mod_lt _ (by decide)
    rcases (by omega : n % 8 = 6 ∨ n % 8 = 7) with h | h <;> rw [h] <;> rfl
  simp only [h1, h2, Res.pure_eq, Res.Post_ok]
  exact ⟨trivial, hi, hv'⟩

section
variable {E : Types} {own name : Str} {nested : List Str} {fields : List FieldDesc} {oneofs : List Str} {m : GMessage}
  (h : FieldsValid fields oneofs) (e : mkMessage own fields oneofs = .ok m) (hC : (render false E name m).Compiles nested)

local notation "K" => render false E name m

include h e hC

/-- **C70**: a record of fewer than eight bytes is never passed over.  Whatever the object and the rest of the input, the
length is taken for the tag of field number 0, or for one with a wire type that does not exist; the object is left as it
was, and the fields that follow are not received. -/
theorem C70_short {f : FieldDesc} (hf : f ∈ fields) (ht : f.typeName = own) (hi : f.oneofIndex = none) {β : Type} [ReadBuffer β]
    (M : ReadModel β) (b : β) (hb : M.Inv b) {tg len payload rest : List Byte} {fuel : Nat}
    (h1 : Varint 32 tg (8 * f.number + 2)) (h2 : Varint 32 len payload.length) (hl : payload.length < 8)
    (hv : M.view b = tg ++ (len ++ (payload ++ rest))) (hfuel : 2 ≤ fuel) (x : Class.Obj K) :
    ∃ b', Class.runDeserialize K fuel b x =
        .ok (if payload.length < 6 then .invalidFieldId else .invalidWiretype, b', x) ∧
      M.Inv b' ∧ M.view b' = payload ++ rest := by
  obtain ⟨k, rfl⟩ : ∃ k, fuel = k + 2 := ⟨fuel - 2, by omega⟩
  obtain ⟨⟨r1, b1⟩, e1, q1, hb1, hv1⟩ := (deserializeTag_ok M tg _ _ .lengthDelimited f.number h1 rfl b hb hv).exists
  dsimp only at q1 hb1 hv1
  subst q1
  have hnum : ∀ g ∈ fields, g.number ≠ 0 := fun g hg => by have := (h.range g hg).1; omega
  by_cases h6 : payload.length < 6
  · obtain ⟨wt, hwt⟩ : ∃ wt, payload.length = 8 * 0 + wireNumber wt := by
      rcases (by omega : payload.length = 0 ∨ payload.length = 1 ∨ payload.length = 2 ∨ payload.length = 3 ∨
        payload.length = 4 ∨ payload.length = 5) with h | h | h | h | h | h
      · exact ⟨.varint, h⟩
      · exact ⟨.fixed64, h⟩
      · exact ⟨.lengthDelimited, h⟩
      · exact ⟨.startGroup, h⟩
      · exact ⟨.endGroup, h⟩
      · exact ⟨.fixed32, h⟩
    obtain ⟨⟨r2, b2⟩, e2, q2, hb2, hv2⟩ := (deserializeTag_ok M len _ _ wt 0 h2 hwt b1 hb1 hv1).exists
    dsimp only at q2 hb2 hv2
    subst q2
    refine ⟨b2, ?_, hb2, hv2⟩
    rw [if_pos h6]
    unfold Class.runDeserialize
    rw [C70_tag_only h e hC hf ht hi (k + 2) (k + 1) _ b b1 x e1]
    refine tagLoop_failed _ k e2 ?_ (by decide)
    rw [step_none h e hC.distinct (k + 2) wt b2 x hnum, if_pos rfl]
  · obtain ⟨⟨r2, b2⟩, e2, q2, hb2, hv2⟩ := (deserializeTag_bad M len _ _ h2 (by omega) b1 hb1 hv1).exists
    dsimp only at q2 hb2 hv2
    subst q2
    refine ⟨b2, ?_, hb2, hv2⟩
    rw [if_neg h6]
    unfold Class.runDeserialize
    rw [C70_tag_only h e hC hf ht hi (k + 2) (k + 1) _ b b1 x e1, tagLoop_error _ k e2]
    rfl

/-- A longer one, of `8 n + t` bytes where no field has the number `n`: the payload is taken for that of a field `n` that
is not known. -/
theorem C70_long {f : FieldDesc} (hf : f ∈ fields) (ht : f.typeName = own) (hi : f.oneofIndex = none) {β : Type} [ReadBuffer β]
    (M : ReadModel β) (b : β) (hb : M.Inv b) {tg len payload rest : List Byte} {k n : Nat} {wt : WireType}
    (h1 : Varint 32 tg (8 * f.number + 2)) (h2 : Varint 32 len payload.length)
    (hl : payload.length = 8 * n + wireNumber wt) (h0 : 0 < n) (hn : ∀ g ∈ fields, g.number ≠ n)
    (hv : M.view b = tg ++ (len ++ (payload ++ rest))) (fuel : Nat) (x : Class.Obj K) :
    ∃ b', M.Inv b' ∧ M.view b' = payload ++ rest ∧ ∀ er b₂, skipUnknownField b' wt = .ok (er, b₂) →
      tagLoop (fun n wt b o => Class.step K fuel n wt b o (Class.cases K)) (k + 2) b x =
        if er = .noErrors then tagLoop (fun n wt b o => Class.step K fuel n wt b o (Class.cases K)) k b₂ x
        else .ok (er, b₂, x) := by
  obtain ⟨⟨r1, b1⟩, e1, q1, hb1, hv1⟩ := (deserializeTag_ok M tg _ _ .lengthDelimited f.number h1 rfl b hb hv).exists
  dsimp only at q1 hb1 hv1
  subst q1
  obtain ⟨⟨r2, b2⟩, e2, q2, hb2, hv2⟩ := (deserializeTag_ok M len _ _ wt n h2 hl b1 hb1 hv1).exists
  dsimp only at q2 hb2 hv2
  subst q2
  refine ⟨b2, hb2, hv2, fun er b₂ hs => ?_⟩
  rw [C70_tag_only h e hC hf ht hi fuel (k + 1) _ b b1 x e1]
  have hstep : Class.step K fuel n wt b2 x (Class.cases K) = .ok (er, b₂, x) := by
    rw [step_none h e hC.distinct fuel wt b2 x hn, if_neg (by omega), hs]
    rfl
  by_cases he : er = .noErrors
  · subst he
    rw [if_pos rfl]
    exact tagLoop_next _ k e2 hstep
  · rw [if_neg he]
    exact tagLoop_failed _ k e2 hstep he

end

open C67Example C47Example in
/-- `message M { M next = 1; }` with a `next` of seven bytes, and one of sixteen, of which the first is the varint of a
field number 2 that is not known. -/
example (x : Class.Obj (render false types M recursiveMsg)) :
    ∃ b', Class.runDeserialize (render false types M recursiveMsg) 20
      (ReadFixed.holding 16 [0x0A, 0x07, 1, 2, 3, 4, 5, 6, 7, 0x10, 1]) x = .ok (.invalidWiretype, b', x) :=
  have ⟨b', h, _⟩ := C70_short (E := types) (name := M) (own := ".M".toList) (nested := []) (fields := [recursiveField]) (oneofs := [])
    (by decide) (m := recursiveMsg) rfl (by decide +kernel) (f := recursiveField) (by decide) rfl rfl
    (ReadFixed.model 16 (by omega)) (ReadFixed.holding 16 [0x0A, 0x07, 1, 2, 3, 4, 5, 6, 7, 0x10, 1])
    (ReadFixed.holding_inv _ _ _ (by decide)) (tg := [0x0A]) (len := [0x07]) (payload := [1, 2, 3, 4, 5, 6, 7])
    (rest := [0x10, 1]) (fuel := 20) ⟨by show IsVarint 5 [0x0A]; decide, by decide⟩
    ⟨by show IsVarint 5 [0x07]; decide, by decide⟩ (by decide) rfl (by decide) x
  ⟨b', h⟩

end EP
