import Verif.Spec.Held
import Verif.Proof.DecMessage
import Verif.Proof.Blank
import Verif.Proof.Clean

/-! # Decoding, in terms of what objects hold -/

namespace EP
open Spec

variable {V W : Type}

/-! ## The visible part is the value -/

mutual
theorem ElemTy.held_spec : (t : ElemTy) → (x : t.cls.State) →
    (t.heldSpec.Inv x ↔ t.spec.Inv x) ∧ t.seen (t.heldSpec.abs x) = t.spec.abs x ∧ t.heldSpec.Clean x
  | .scalar _, _ => ⟨Iff.rfl, rfl, trivial⟩
  | .str _, _ => ⟨Iff.rfl, rfl, trivial⟩
  | .msg fs os, x => by
    obtain ⟨h1, h2, h3⟩ := Fields.held_spec fs 0 x.presence.bit x.fields
    obtain ⟨g1, g2, g3⟩ := Oneofs.held_spec os x.oneofs
    exact ⟨and_congr Iff.rfl (and_congr h1 g1), Prod.ext h2 g2, h3, g3⟩
theorem Fields.held_spec : (fs : Fields) → (idx : Nat) → (b : Nat → Bool) → (s : (fs.cls idx).State) →
    ((fs.heldSpec idx).Inv b s ↔ (fs.spec idx).Inv b s) ∧
      fs.seen ((fs.heldSpec idx).abs b s) = (fs.spec idx).abs b s ∧ (fs.heldSpec idx).Clean s
  | .nil, _, _, _ => ⟨Iff.rfl, rfl, trivial⟩
  | .plain num t rest, idx, b, s => by
    obtain ⟨h1, h2, h3⟩ := ElemTy.held_spec t s.1
    obtain ⟨g1, g2, g3⟩ := Fields.held_spec rest idx b s.2
    exact ⟨and_congr h1 g1, Prod.ext h2 g2, h3, g3⟩
  | .optional num t rest, idx, b, s => by
    obtain ⟨h1, h2, h3⟩ := ElemTy.held_spec t s.1
    obtain ⟨g1, g2, g3⟩ := Fields.held_spec rest (idx + 1) b s.2
    refine ⟨and_congr (and_congr h1 Iff.rfl) g1, Prod.ext ?_ g2, h3, g3⟩
    show Option.map t.seen (if b idx then some _ else none) = if b idx then some _ else none
    cases b idx
    · rfl
    · exact congrArg some h2
  | .repeated num cap t rest, idx, b, s => by
    obtain ⟨g1, g2, g3⟩ := Fields.held_spec rest idx b s.2
    refine ⟨and_congr (and_congr Iff.rfl (and_congr Iff.rfl ?_)) g1, Prod.ext ?_ g2, trivial, g3⟩
    · exact forall_congr' fun d => imp_congr Iff.rfl (ElemTy.held_spec t d).1
    · show List.map t.seen (List.map _ _) = List.map _ _
      rw [List.map_map]
      exact List.map_congr_left fun d _ => (ElemTy.held_spec t d).2.1
theorem Alts.held_spec : (a : Alts) → (u : a.cls.U) →
    a.heldSpec.num u = a.spec.num u ∧ (a.heldSpec.Inv u ↔ a.spec.Inv u) ∧
      a.seen (a.heldSpec.abs u) = a.spec.abs u ∧ a.heldSpec.Clean u
  | .nil, u => nomatch u
  | .cons num t rest, .inl x => by
    obtain ⟨h1, h2, h3⟩ := ElemTy.held_spec t x
    exact ⟨rfl, h1, congrArg Sum.inl h2, h3⟩
  | .cons num t rest, .inr u => by
    obtain ⟨h0, h1, h2, h3⟩ := Alts.held_spec rest u
    exact ⟨h0, h1, congrArg Sum.inr h2, h3⟩
theorem Oneofs.held_spec : (os : Oneofs) → (s : os.cls.State) →
    (os.heldSpec.Inv s ↔ os.spec.Inv s) ∧ os.seen (os.heldSpec.abs s) = os.spec.abs s ∧
      os.heldSpec.Clean s
  | .nil, _ => ⟨Iff.rfl, rfl, trivial⟩
  | .cons a rest, s => by
    obtain ⟨g1, g2, g3⟩ := Oneofs.held_spec rest s.2
    refine ⟨and_congr ?_ g1, Prod.ext ?_ g2, fun u _ => (Alts.held_spec a u).2.2.2, g3⟩
    · unfold AltsSpec.ObjInv
      split
      · exact Iff.rfl
      · rename_i u _
        obtain ⟨h0, h1, _⟩ := Alts.held_spec a u
        rw [h0, h1]
    · show Option.map a.seen (Option.map _ _) = Option.map _ _
      cases s.1.live with
      | none => rfl
      | some u => exact congrArg some (Alts.held_spec a u).2.2.1
end

theorem ElemTy.seen_held (t : ElemTy) (x : t.Obj) : t.seen (t.held x) = t.abs x :=
  (ElemTy.held_spec t x).2.1

/-! ## New objects -/

theorem rep_init_held {E : FieldClass} {S : ClassSpec E V} {d : V} {cap : Nat} (h : InitLaw E S d) :
    InitLaw (repeatedClass E cap) (repHeldSpec S cap) ([], List.replicate cap d) where
  init_inv := by
    refine ⟨by simp [repeatedClass, RepObj.init], by simp [repeatedClass, RepObj.init], ?_⟩
    intro x hx
    rw [List.eq_of_mem_replicate hx]; exact h.init_inv
  init_clean := trivial
  init_abs := by
    simp [repHeldSpec, RepObj.elems, RepObj.stale, repeatedClass, RepObj.init, h.init_abs]
  clear x hx := by
    obtain ⟨h1, h2, h3⟩ := hx
    show RepObj.clear x = _
    simp only [RepObj.clear, clearElems_eq h x.data h3, Res.ok_bind, Res.pure_eq]
    rw [h1]; rfl

theorem Oneofs.held_init : (os : Oneofs) → os.heldSpec.abs os.cls.init = os.fresh
  | .nil => rfl
  | .cons _ rest => Prod.ext rfl (Oneofs.held_init rest)

mutual
theorem ElemTy.init_held : (t : ElemTy) → t.WF → InitLaw t.cls t.heldSpec t.fresh
  | .scalar s, _ => (scalar_base s).toInitLaw
  | .str cap, _ => (str_base cap).toInitLaw
  | .msg fs os, h => by
    have hb := (ElemTy.base (.msg fs os) h).toInitLaw
    have hs := ElemTy.held_spec (.msg fs os)
    simp only [ElemTy.WF] at h
    have hf := Fields.init_held fs 0 fs.nOptional h.1 (by omega)
    exact {
      init_inv := (hs _).1.mpr hb.init_inv
      init_clean := (hs _).2.2
      init_abs := Prod.ext (hf.init (Presence.init fs.nOptional).bit
        (fun i _ _ => Presence.init_bit _ i)).2.2 (Oneofs.held_init os)
      clear := fun x hx => hb.clear x ((hs x).1.mp hx) }
theorem Fields.init_held : (fs : Fields) → (idx n : Nat) → fs.WF → idx + fs.nOptional ≤ n →
    FieldsInit (fs.cls idx) (fs.heldSpec idx) idx (idx + fs.nOptional) n fs.fresh
  | .nil, idx, n, _, _ => fieldsInit_nil idx n
  | .plain num t rest, idx, n, h, hi => by
    simp only [Fields.WF] at h
    simp only [Fields.nOptional] at hi
    exact fieldsInit_plain num (ElemTy.init_held t h.1) (Fields.init_held rest idx n h.2 hi)
  | .optional num t rest, idx, n, h, hi => by
    simp only [Fields.WF] at h
    simp only [Fields.nOptional] at hi
    have ih := Fields.init_held rest (idx + 1) n h.2 (by omega)
    rw [show idx + 1 + rest.nOptional = idx + (rest.nOptional + 1) by omega] at ih
    exact fieldsInit_optional (by simp only [Fields.nOptional]; omega) num (ElemTy.init_held t h.1) ih
  | .repeated num cap t rest, idx, n, h, hi => by
    simp only [Fields.WF] at h
    simp only [Fields.nOptional] at hi
    exact fieldsInit_plain num (rep_init_held (ElemTy.init_held t h.2.1))
      (Fields.init_held rest idx n h.2.2 hi)
end

theorem Alts.init_held : (a : Alts) → a.WF → a.numbers.Nodup → AltsInit a.cls a.heldSpec a.numbers
  | .nil, _, _ => altsInit_nil
  | .cons num t rest, h, hd => by
    simp only [Alts.WF] at h
    simp only [Alts.numbers, List.nodup_cons] at hd
    exact altsInit_cons hd.1 (ElemTy.init_held t h.1) (Alts.init_held rest h.2 hd.2)

/-! ## Repeated fields -/

section Repeated
variable {E : FieldClass} {S : ClassSpec E V} {cap : Nat}

theorem rep_append_held {x : RepObj E.State} {v : E.State} (hx : (repHeldSpec S cap).Inv x)
    (hl : x.len < cap) (hv : S.Inv v) :
    (repHeldSpec S cap).Inv ⟨x.len + 1, x.data.set x.len v⟩ ∧
    (repHeldSpec S cap).abs ⟨x.len + 1, x.data.set x.len v⟩ =
      (((repHeldSpec S cap).abs x).1 ++ [S.abs v], ((repHeldSpec S cap).abs x).2.drop 1) := by
  obtain ⟨h1, h2, _⟩ := rep_append (S := S) hx hl hv
  refine ⟨h1, Prod.ext h2 ?_⟩
  show List.map _ (List.drop _ _) = List.drop 1 (List.map _ (List.drop _ _))
  rw [List.drop_set_of_lt (by simp), ← List.map_drop, List.drop_drop]

theorem rep_stale_held {x : RepObj E.State} (hx : (repHeldSpec S cap).Inv x) :
    ((repHeldSpec S cap).abs x).2.length = cap - x.len := by
  show (List.map _ (List.drop _ _)).length = _
  rw [List.length_map, List.length_drop, hx.1]

/-- Decoding one more element of an unpacked field. -/
theorem rep_decLaw_unpacked_held {P : List Byte → V → V → Prop} (hE : UnpackedElem E)
    (hcl : ∀ x, S.Clean x) (hc : cap < 2147483648) (h : DecLaw E S .lengthDelimited P) :
    DecLaw (repeatedClass E cap) (repHeldSpec S cap) .lengthDelimited
      (fun bs u v => ∃ g gs y, u.2 = g :: gs ∧ P bs g y ∧ v = (u.1 ++ [y], gs)) := by
  intro β _ M fuel b bs rest x v hx _ hb hv hp hf
  obtain ⟨g, gs, y, hu, hp, rfl⟩ := hp
  obtain ⟨h1, h2, h3⟩ := id hx
  have hl : x.len < cap := by
    have := rep_stale_held hx
    rw [hu] at this
    simp at this
    omega
  have hlt : x.len < x.data.length := by
    have : (RepObj.data x).length = cap := h1
    omega
  have hst : S.abs x.data[x.len] = g := by
    have : List.map S.abs (List.drop (RepObj.len x) (RepObj.data x)) = g :: gs := hu
    rw [List.drop_eq_getElem_cons hlt, List.map_cons] at this
    exact (List.cons.inj this).1
  have := h β M fuel b bs rest x.data[x.len] y (h3 _ (List.getElem_mem hlt)) (hcl _) hb hv
    (by rw [hst]; exact hp) hf
  have hu' := (unpacked_safe hE hc True fuel b x _ (arrayGet_of_lt hlt) hl h1 _ this.safe).post trivial
  show (RepObj.deserialize cap fuel b x).Post _
  unfold RepObj.deserialize
  rw [hE.notPacked, if_neg (by simp)]
  refine hu'.mono ?_
  rintro r ⟨z, ⟨q1, q2, q3, q4, q5, q6⟩, hr | ⟨hne, _⟩⟩
  · obtain ⟨a1, a2⟩ := rep_append_held hx hl q4
    refine ⟨q1, q2, q3, ?_⟩
    rw [hr]
    refine ⟨a1, trivial, ?_⟩
    rw [a2]
    have q6 : S.abs z = y := q6
    rw [q6, hu]; rfl
  · exact absurd q1 hne

section Packed
variable {P : List Byte → V → Prop}

theorem packedLoop_dec_held {β : Type} [ReadBuffer β] (M : ReadModel β) (hE : PackedElem E S P)
    (hc : cap < 2147483648) (fuel : Nat) {body : List Byte} {ys : List V} (hp : Packed P body ys)
    (k : Nat) (v : E.State) (b : β) (x : RepObj E.State) (hx : (repHeldSpec S cap).Inv x)
    (hb : M.Inv b) (hv : M.view b = body)
    (hl : x.len + 1 + ys.length ≤ cap) (hk : ys.length + 1 < k) :
    (RepObj.deserializePackedLoop cap fuel k .noErrors v b x).Post fun r =>
      r.1 = .endOfBuffer ∧ M.Inv r.2.1 ∧ M.view r.2.1 = [] ∧ (repHeldSpec S cap).Inv r.2.2 ∧
      (repHeldSpec S cap).abs r.2.2 = (((repHeldSpec S cap).abs x).1 ++ S.abs v :: ys,
        ((repHeldSpec S cap).abs x).2.drop (ys.length + 1)) := by
  induction hp generalizing k v b x with
  | nil =>
    obtain ⟨k, rfl⟩ : ∃ m, k = m + 2 := ⟨k - 2, by simp at hk; omega⟩
    simp only [List.length_nil] at hl
    obtain ⟨a1, a2⟩ := rep_append_held hx (by omega) (hE.inv v)
    simp only [RepObj.deserializePackedLoop, ↓reduceIte, add_eq (S := S) hE hc hx (show x.len < cap by omega), Res.ok_bind,
      Res.Post_bind]
    refine (hE.stop β M fuel b v hb hv).mono ?_
    rintro ⟨e, b', v'⟩ ⟨h1, h2, h3⟩
    dsimp only at h1 h2 h3
    subst h1
    simp only [reduceCtorEq, ↓reduceIte]
    exact ⟨rfl, h2, h3, a1, a2⟩
  | @cons bs bs' y ys h1 _ ih =>
    obtain ⟨k, rfl⟩ : ∃ m, k = m + 1 := ⟨k - 1, by omega⟩
    simp only [List.length_cons] at hl hk
    obtain ⟨a1, a2⟩ := rep_append_held hx (by omega) (hE.inv v)
    simp only [RepObj.deserializePackedLoop, ↓reduceIte, add_eq (S := S) hE hc hx (show x.len < cap by omega), Res.ok_bind,
      Res.Post_bind]
    refine (hE.ok β M fuel b bs bs' v y hb hv h1).mono ?_
    rintro ⟨e, b', v'⟩ ⟨q1, q2, q3, q4⟩
    dsimp only at q1 q2 q3 q4
    subst q1
    refine (ih k v' b' _ a1 q2 q3 (by simp; omega) (by omega)).mono ?_
    rintro r ⟨r1, r2, r3, r4, r6⟩
    refine ⟨r1, r2, r3, r4, ?_⟩
    rw [r6, a2, q4]
    simp [Nat.add_comm]

theorem rep_packed_dec_held (hE : PackedElem E S P) (hc : cap < 2147483648) {β : Type} [ReadBuffer β]
    (M : ReadModel β) (fuel : Nat) (b : β) (bs rest : List Byte) (x : RepObj E.State) (v : List V × List V)
    (hx : (repHeldSpec S cap).Inv x) (hb : M.Inv b)
    (hv : M.view b = bs ++ rest) (hp : ∃ body ys, Delimited bs body ∧
      Packed P body ys ∧ ys.length ≤ ((repHeldSpec S cap).abs x).2.length ∧
      v = (((repHeldSpec S cap).abs x).1 ++ ys, ((repHeldSpec S cap).abs x).2.drop ys.length))
    (hf : bs.length < fuel) :
    (RepObj.deserialize cap fuel b x).Post fun r =>
      r.1 = .noErrors ∧ M.Inv r.2.1 ∧ M.view r.2.1 = rest ∧
        (repHeldSpec S cap).Inv r.2.2 ∧ True ∧ (repHeldSpec S cap).abs r.2.2 = v := by
  obtain ⟨body, ys, ⟨p, hp, rfl⟩, hpk, hlen, rfl⟩ := hp
  obtain ⟨h1, h2, h3⟩ := id hx
  have hl : x.len + ys.length ≤ cap := by
    rw [rep_stale_held hx] at hlen
    have : x.len ≤ cap := h2
    omega
  have hpl := hp.1.length_pos
  simp only [List.length_append] at hf
  have hlt := M.view_lt b hb
  rw [hv] at hlt
  simp only [List.length_append] at hlt
  unfold RepObj.deserialize
  rw [hE.packed, if_pos rfl]
  unfold RepObj.deserializePacked
  rw [Res.Post_bind]
  rw [List.append_assoc] at hv
  refine (varint_dec M 32 p (body ++ rest) _ hp b hb hv).mono ?_
  rintro ⟨r, b'⟩ ⟨g1, g2, g3⟩
  dsimp only at g1 g2 g3
  subst g1
  dsimp only
  rw [ofNat32_toNat (by omega)]
  obtain ⟨hs1, hs2⟩ := Section.new_frame M b' body rest g2 g3
  obtain ⟨fuel, rfl⟩ : ∃ m, fuel = m + 1 := ⟨fuel - 1, by omega⟩
  cases hpk with
  | nil =>
    rw [Res.Post_bind]
    refine (hE.stop _ (Section.frame M rest) (fuel + 1) _ E.init hs1 hs2).mono ?_
    rintro ⟨e, s, z⟩ ⟨q1, q2, q3⟩
    dsimp only at q1 q2 q3
    subst q1
    obtain ⟨f1, f2⟩ := Section.frame_end M rest s q2 q3
    simp only [RepObj.deserializePackedLoop, reduceCtorEq, ↓reduceIte, Res.pure_eq, Res.ok_bind]
    exact ⟨rfl, f1, f2, hx, trivial, by simp⟩
  | @cons c1 c2 y ys hy hys =>
    rw [Res.Post_bind]
    refine (hE.ok _ (Section.frame M rest) (fuel + 1) _ c1 c2 E.init y hs1 hs2 hy).mono ?_
    rintro ⟨e, s, z⟩ ⟨q1, q2, q3, q4⟩
    dsimp only at q1 q2 q3 q4
    subst q1
    have hlp := Packed.length_le hE.pos hys
    have hl1 := hE.pos _ _ hy
    simp only [List.length_append, List.length_cons] at hf hl
    rw [Res.Post_bind]
    refine (packedLoop_dec_held (Section.frame M rest) hE hc (fuel + 1) hys (fuel + 1) z s x hx q2 q3
      (by omega) (by omega)).mono ?_
    rintro ⟨e, s', x'⟩ ⟨r1, r2, r3, r4, r6⟩
    dsimp only at r1 r2 r3 r4 r6
    subst r1
    obtain ⟨f1, f2⟩ := Section.frame_end M rest s' r2 r3
    simp only [↓reduceIte, Res.pure_eq, Res.Post_ok]
    refine ⟨trivial, f1, f2, r4, trivial, ?_⟩
    rw [r6, q4]; rfl

theorem rep_decLaw_packed_held (hE : PackedElem E S P) (hc : cap < 2147483648) :
    DecLaw (repeatedClass E cap) (repHeldSpec S cap) .lengthDelimited
      (fun bs u v => ∃ body ys, Delimited bs body ∧ Packed P body ys ∧ ys.length ≤ u.2.length ∧
        v = (u.1 ++ ys, u.2.drop ys.length)) := by
  intro β _ M fuel b bs rest x v hx hcl hb hv hp hf
  exact rep_packed_dec_held hE hc M fuel b bs rest x v hx hb hv hp hf

end Packed

end Repeated

/-! ## Declarations -/

theorem ElemTy.rep_dec_held (t : ElemTy) {cap : Nat} (hc : cap < 2147483648)
    (hl : DecLaw t.cls t.heldSpec t.wire t.HPayload) :
    DecLaw (repeatedClass t.cls cap) (repHeldSpec t.heldSpec cap) .lengthDelimited
      (fun bs u v => if t.isScalar then
        ∃ body ys, Delimited bs body ∧ Packed (fun b y => t.HPayload b t.fresh y) body ys ∧
          ys.length ≤ u.2.length ∧ v = (u.1 ++ ys, u.2.drop ys.length)
       else ∃ h hs y, u.2 = h :: hs ∧ t.HPayload bs h y ∧ v = (u.1 ++ [y], hs)) := by
  cases hs : t.isScalar with
  | true =>
    cases t with
    | scalar s => exact rep_decLaw_packed_held (scalar_packedElem s) hc
    | str cap => exact nomatch hs
    | msg fs os => exact nomatch hs
  | false =>
    have hw : t.wire = .lengthDelimited := by
      cases t with
      | scalar s => exact nomatch hs
      | str cap => rfl
      | msg fs os => rfl
    rw [hw] at hl
    exact rep_decLaw_unpacked_held (ElemTy.unpackedElem t hs) (fun x => (ElemTy.held_spec t x).2.2) hc hl

mutual
theorem ElemTy.dec_held : (t : ElemTy) → t.WF → DecLaw t.cls t.heldSpec t.wire t.HPayload
  | .scalar s, _ => scalar_decLaw s
  | .str cap, h => str_decLaw cap h.2
  | .msg fs os, h => by
    simp only [ElemTy.WF] at h
    have hd := List.nodup_append.mp h.2.2.1
    have hb := Fields.dec_held fs 0 fs.nOptional h.1 hd.1 (by omega)
    rw [Nat.zero_add] at hb
    exact msg_decLaw hb (Oneofs.dec_held os h.2.1 hd.2.1 (fun k hk =>
      (h.2.2.2 k (List.mem_append_right _ hk)).1)) (fun k hk hk' => hd.2.2 k hk' k hk rfl)
theorem Fields.dec_held : (fs : Fields) → (idx n : Nat) → fs.WF → fs.numbers.Nodup →
    idx + fs.nOptional ≤ n →
    FieldsDec (fs.cls idx) (fs.heldSpec idx) idx (idx + fs.nOptional) n fs.numbers fs.HRecord
  | .nil, idx, n, _, _, _ => fieldsDec_nil idx n
  | .plain num t rest, idx, n, h, hd, hi => by
    simp only [Fields.WF] at h
    simp only [Fields.nOptional] at hi
    simp only [Fields.numbers, List.nodup_cons] at hd
    exact fieldsDec_plain hd.1 (ElemTy.dec_held t h.1) (Fields.dec_held rest idx n h.2 hd.2 hi)
  | .optional num t rest, idx, n, h, hd, hi => by
    simp only [Fields.WF] at h
    simp only [Fields.nOptional] at hi
    simp only [Fields.numbers, List.nodup_cons] at hd
    have ih := Fields.dec_held rest (idx + 1) n h.2 hd.2 (by omega)
    have hb := Fields.init_held rest (idx + 1) n h.2 (by omega)
    rw [show idx + 1 + rest.nOptional = idx + (rest.nOptional + 1) by omega] at ih hb
    exact fieldsDec_optional hd.1 (by simp only [Fields.nOptional]; omega) (ElemTy.init_held t h.1) hb
      (ElemTy.dec_held t h.1) ih
  | .repeated num cap t rest, idx, n, h, hd, hi => by
    simp only [Fields.WF] at h
    simp only [Fields.nOptional] at hi
    simp only [Fields.numbers, List.nodup_cons] at hd
    exact fieldsDec_plain hd.1 (ElemTy.rep_dec_held t h.1 (ElemTy.dec_held t h.2.1))
      (Fields.dec_held rest idx n h.2.2 hd.2 hi)
theorem Alts.dec_held : (a : Alts) → a.WF → a.numbers.Nodup →
    AltsDec a.cls a.heldSpec a.numbers a.HRecord
  | .nil, _, _ => altsDec_nil
  | .cons num t rest, h, hd => by
    simp only [Alts.WF] at h
    simp only [Alts.numbers, List.nodup_cons] at hd
    exact altsDec_cons hd.1 (ElemTy.init_held t h.1) (Alts.init_held rest h.2 hd.2)
      (ElemTy.dec_held t h.1) (Alts.dec_held rest h.2 hd.2)
theorem Oneofs.dec_held : (os : Oneofs) → os.WF → os.numbers.Nodup → (∀ k ∈ os.numbers, 0 < k) →
    OneofsDec os.cls os.heldSpec os.numbers os.HRecord
  | .nil, _, _, _ => oneofsDec_nil
  | .cons a rest, h, hd, hn => by
    simp only [Oneofs.WF] at h
    simp only [Oneofs.numbers] at hd hn
    have hd' := List.nodup_append.mp hd
    exact oneofsDec_cons (fun h0 => absurd (hn 0 (List.mem_append_left _ h0)) (by omega))
      (fun k hk hk' => hd'.2.2 k hk k hk' rfl) (Alts.init_held a h.1 hd'.1) (Alts.dec_held a h.1 hd'.1)
      (Oneofs.dec_held rest h.2 hd'.2.1 (fun k hk => hn k (List.mem_append_right _ hk)))
end

/-- Decoding well formed records into any object that keeps the invariant. -/
theorem decode_held (fs : Fields) (os : Oneofs) (h : (ElemTy.msg fs os).WF) {β : Type} [ReadBuffer β]
    (M : ReadModel β) (fuel : Nat) (b : β) (x : (ElemTy.msg fs os).Obj) {v : (ElemTy.msg fs os).Held}
    (hr : HRecords fs os (M.view b) ((ElemTy.msg fs os).held x) v) (hi : (ElemTy.msg fs os).Inv x)
    (hb : M.Inv b) (hf : (M.view b).length < fuel) :
    ((ElemTy.msg fs os).cls.deserialize fuel b x).Post fun r => r.1 = .noErrors ∧ M.Inv r.2.1 ∧
      M.view r.2.1 = [] ∧ (ElemTy.msg fs os).held r.2.2 = v := by
  have hs := ElemTy.held_spec (.msg fs os) x
  simp only [ElemTy.WF] at h
  have hd := List.nodup_append.mp h.2.2.1
  have hF := Fields.dec_held fs 0 fs.nOptional h.1 hd.1 (by omega)
  rw [Nat.zero_add] at hF
  refine (msg_body hF (Oneofs.dec_held os h.2.1 hd.2.1 (fun k hk =>
    (h.2.2.2 k (List.mem_append_right _ hk)).1)) (fun k hk hk' => hd.2.2 k hk' k hk rfl) M fuel b x hr
    (hs.1.mpr hi) hs.2.2 hb rfl hf).mono ?_
  rintro r ⟨h1, h2, h3, _, _, h6⟩
  exact ⟨h1, h2, h3, h6⟩

/-! ## Reachable objects -/

mutual
theorem ElemTy.sized_held : (t : ElemTy) → (x : t.cls.State) → t.spec.Inv x → t.Sized (t.heldSpec.abs x)
  | .scalar _, _, _ => trivial
  | .str _, _, _ => trivial
  | .msg fs os, x, h => ⟨Fields.sized_held fs 0 x.presence.bit x.fields h.2.1,
      Oneofs.sized_held os x.oneofs h.2.2⟩
theorem Fields.sized_held : (fs : Fields) → (idx : Nat) → (b : Nat → Bool) → (s : (fs.cls idx).State) →
    (fs.spec idx).Inv b s → fs.Sized ((fs.heldSpec idx).abs b s)
  | .nil, _, _, _, _ => trivial
  | .plain num t rest, idx, b, s, h => ⟨ElemTy.sized_held t s.1 h.1, Fields.sized_held rest idx b s.2 h.2⟩
  | .optional num t rest, idx, b, s, h => by
    refine ⟨fun x hx => ?_, Fields.sized_held rest (idx + 1) b s.2 h.2⟩
    have hx : (if b idx then some (t.heldSpec.abs s.1) else none) = some x := hx
    cases hb : b idx with
    | false => rw [hb] at hx; exact nomatch hx
    | true =>
      rw [hb] at hx
      injection hx with hx
      rw [← hx]
      exact ElemTy.sized_held t s.1 h.1.1
  | .repeated num cap t rest, idx, b, s, h => by
    obtain ⟨⟨h1, h2, h3⟩, h4⟩ := h
    refine ⟨⟨?_, fun x hx => ?_, fun x hx => ?_⟩, Fields.sized_held rest idx b s.2 h4⟩
    · show (List.map _ (List.take _ _)).length + (List.map _ (List.drop _ _)).length = cap
      rw [List.length_map, List.length_map, List.length_take, List.length_drop, h1]
      omega
    · obtain ⟨d, hd, rfl⟩ := List.mem_map.mp hx
      exact ElemTy.sized_held t d (h3 d (List.mem_of_mem_take hd))
    · obtain ⟨d, hd, rfl⟩ := List.mem_map.mp hx
      exact ElemTy.sized_held t d (h3 d (List.mem_of_mem_drop hd))
theorem Alts.sized_held : (a : Alts) → (u : a.cls.U) → a.spec.Inv u → a.Sized (a.heldSpec.abs u)
  | .nil, u, _ => nomatch u
  | .cons _ t _, .inl x, h => ElemTy.sized_held t x h
  | .cons _ _ rest, .inr u, h => Alts.sized_held rest u h
theorem Oneofs.sized_held : (os : Oneofs) → (s : os.cls.State) → os.spec.Inv s →
    os.Sized (os.heldSpec.abs s)
  | .nil, _, _ => trivial
  | .cons a rest, s, h => by
    refine ⟨fun x hx => ?_, Oneofs.sized_held rest s.2 h.2⟩
    obtain ⟨u, hu, rfl⟩ := Option.map_eq_some_iff.mp hx
    have := h.1
    unfold AltsSpec.ObjInv at this
    rw [hu] at this
    exact Alts.sized_held a u this.2
end

mutual
/-- Leftovers in the state of a new object are blank. -/
theorem ElemTy.blank_of_clean : (t : ElemTy) → t.WF → (x : t.cls.State) → t.spec.Clean x →
    t.Blank (t.heldSpec.abs x)
  | .scalar _, _, _, _ => trivial
  | .str _, _, _, _ => trivial
  | .msg fs os, hw, x, h => by
    simp only [ElemTy.WF] at hw
    exact ⟨Fields.blank_of_clean fs 0 hw.1 x.presence.bit x.fields h.1,
      Oneofs.blank_of_clean os hw.2.1 x.oneofs h.2⟩
theorem Fields.blank_of_clean : (fs : Fields) → (idx : Nat) → fs.WF → (b : Nat → Bool) →
    (s : (fs.cls idx).State) → (fs.spec idx).Clean s → fs.Blank ((fs.heldSpec idx).abs b s)
  | .nil, _, _, _, _, _ => trivial
  | .plain num t rest, idx, hw, b, s, h => by
    simp only [Fields.WF] at hw
    exact ⟨ElemTy.blank_of_clean t hw.1 s.1 h.1, Fields.blank_of_clean rest idx hw.2 b s.2 h.2⟩
  | .optional num t rest, idx, hw, b, s, h => by
    simp only [Fields.WF] at hw
    refine ⟨fun x hx => ?_, Fields.blank_of_clean rest (idx + 1) hw.2 b s.2 h.2⟩
    have hx : (if b idx then some (t.heldSpec.abs s.1) else none) = some x := hx
    cases hb : b idx with
    | false => rw [hb] at hx; exact nomatch hx
    | true =>
      rw [hb] at hx
      injection hx with hx
      rw [← hx]
      exact ElemTy.blank_of_clean t hw.1 s.1 h.1
  | .repeated num cap t rest, idx, hw, b, s, h => by
    simp only [Fields.WF] at hw
    refine ⟨fun hm x hx => ?_, Fields.blank_of_clean rest idx hw.2.2 b s.2 h.2⟩
    obtain ⟨d, hd, rfl⟩ := List.mem_map.mp hx
    have hk : t.cls.kind = .message := by
      cases t with
      | scalar s => exact nomatch hm
      | str c => exact nomatch hm
      | msg fs os => rfl
    have hi := (ElemTy.init_held t hw.2.1).init_abs
    obtain ⟨f1, f2, _⟩ := ElemTy.fresh_spec t
    rw [h.1.2 hk d hd, hi]
    exact ⟨f1, f2⟩
theorem Alts.blank_of_clean : (a : Alts) → a.WF → (u : a.cls.U) → a.spec.Clean u →
    a.Blank (a.heldSpec.abs u)
  | .nil, _, u, _ => nomatch u
  | .cons num t rest, hw, .inl x, h => by
    simp only [Alts.WF] at hw
    exact ElemTy.blank_of_clean t hw.1 x h
  | .cons num t rest, hw, .inr u, h => by
    simp only [Alts.WF] at hw
    exact Alts.blank_of_clean rest hw.2 u h
theorem Oneofs.blank_of_clean : (os : Oneofs) → os.WF → (s : os.cls.State) → os.spec.Clean s →
    os.Blank (os.heldSpec.abs s)
  | .nil, _, _, _ => trivial
  | .cons a rest, hw, s, h => by
    simp only [Oneofs.WF] at hw
    refine ⟨fun x hx => ?_, Oneofs.blank_of_clean rest hw.2 s.2 h.2⟩
    obtain ⟨u, hu, rfl⟩ := Option.map_eq_some_iff.mp hx
    exact Alts.blank_of_clean a hw.1 u (h.1 u hu)
end

end EP
