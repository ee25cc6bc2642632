import Verif.Proof.Steady

/-! # What there is room for fits -/

namespace EP
open Spec

mutual
theorem ElemTy.fits_of_isDflt : (t : ElemTy) → (v : t.Val) → t.isDflt v = true → t.Fits v
  | .scalar _, _, _ => trivial
  | .str cap, v, h => by
    have h : List.isEmpty (α := Byte) v = true := h
    show List.length (α := Byte) v ≤ cap
    rw [List.isEmpty_iff.mp h]
    exact Nat.zero_le _
  | .msg fs os, v, h => by
    simp only [ElemTy.isDflt, Bool.and_eq_true] at h
    exact ⟨Fields.fits_of_isDflt fs v.1 h.1, Oneofs.fits_of_isDflt os v.2 h.2⟩
theorem Fields.fits_of_isDflt : (fs : Fields) → (v : fs.Val) → fs.isDflt v = true → fs.Fits v
  | .nil, _, _ => trivial
  | .plain _ t rest, v, h => by
    simp only [Fields.isDflt, Bool.and_eq_true] at h
    exact ⟨ElemTy.fits_of_isDflt t v.1 h.1, Fields.fits_of_isDflt rest v.2 h.2⟩
  | .optional _ t rest, v, h => by
    simp only [Fields.isDflt, Bool.and_eq_true] at h
    refine ⟨fun x hx => ?_, Fields.fits_of_isDflt rest v.2 h.2⟩
    rw [hx] at h
    exact nomatch h.1
  | .repeated _ cap t rest, v, h => by
    simp only [Fields.isDflt, Bool.and_eq_true] at h
    have h0 := List.isEmpty_iff.mp h.1
    refine ⟨⟨?_, fun x hx => ?_⟩, Fields.fits_of_isDflt rest v.2 h.2⟩
    · rw [h0]; exact Nat.zero_le _
    · rw [h0] at hx; exact nomatch hx
theorem Oneofs.fits_of_isDflt : (os : Oneofs) → (v : os.Val) → os.isDflt v = true → os.Fits v
  | .nil, _, _ => trivial
  | .cons a rest, v, h => by
    simp only [Oneofs.isDflt, Bool.and_eq_true] at h
    refine ⟨fun x hx => ?_, Oneofs.fits_of_isDflt rest v.2 h.2⟩
    rw [hx] at h
    exact nomatch h.1
end

theorem RoomList.mem {H V : Type} {P : H → V → Prop} : {hs : List H} → {ys : List V} → RoomList P hs ys → ∀ y ∈ ys, ∃ h ∈ hs, P h y
  | _, [], _, y, hy => nomatch hy
  | [], _ :: _, h, _, _ => nomatch h.1
  | k :: hs, z :: ys, h, y, hy => by
    rcases List.mem_cons.mp hy with rfl | hy
    · exact ⟨k, List.mem_cons_self .., h.2 (k, y) (List.mem_cons_self ..)⟩
    · obtain ⟨g, hg, hp⟩ := RoomList.mem (hs := hs) (ys := ys)
        ⟨Nat.le_of_succ_le_succ h.1, fun p hp => h.2 p (List.mem_cons_of_mem _ hp)⟩ y hy
      exact ⟨g, List.mem_cons_of_mem _ hg, hp⟩

/-- What is held by the live member, if any, has all its elements. -/
def Alts.SizedOpt (a : Alts) (u : Option a.Held) : Prop := ∀ x, u = some x → a.Sized x

theorem Alts.sized_left {num : Nat} {t : ElemTy} {rest : Alts} {u : Option (Alts.cons num t rest).Held}
    (h : (Alts.cons num t rest).SizedOpt u) : t.Sized (leftD t.fresh u) := by
  match u with
  | none => exact t.fresh_spec.2.2
  | some (.inl x) => exact h _ rfl
  | some (.inr x) => exact t.fresh_spec.2.2

theorem Alts.sized_right {num : Nat} {t : ElemTy} {rest : Alts} {u : Option (Alts.cons num t rest).Held}
    (h : (Alts.cons num t rest).SizedOpt u) : rest.SizedOpt (rightOf u) := by
  intro x hx
  match u, h, hx with
  | some (.inr y), h, hx =>
    have : y = x := Option.some.inj hx
    subst this
    exact h _ rfl

mutual
theorem ElemTy.fits_of_room : (t : ElemTy) → (u : t.Held) → (v : t.Val) → t.Sized u → t.Room u v → t.Fits v
  | .scalar _, _, _, _, _ => trivial
  | .str _, _, _, _, h => h
  | .msg fs os, u, v, hs, h => ⟨Fields.fits_of_room fs u.1 v.1 hs.1 h.1, Oneofs.fits_of_room os u.2 v.2 hs.2 h.2⟩
theorem Fields.fits_of_room : (fs : Fields) → (u : fs.Held) → (v : fs.Val) → fs.Sized u → fs.Room u v → fs.Fits v
  | .nil, _, _, _, _ => trivial
  | .plain _ t rest, u, v, hs, h => by
    refine ⟨?_, Fields.fits_of_room rest u.2 v.2 hs.2 h.2⟩
    cases hd : t.isDflt v.1 with
    | true => exact ElemTy.fits_of_isDflt t v.1 hd
    | false => exact ElemTy.fits_of_room t u.1 v.1 hs.1 (h.1 hd)
  | .optional _ t rest, u, v, hs, h => by
    refine ⟨fun x hx => ElemTy.fits_of_room t (Option.getD u.1 t.fresh) x ?_ (h.1 x hx), Fields.fits_of_room rest u.2 v.2 hs.2 h.2⟩
    cases hu : u.1 with
    | none => exact t.fresh_spec.2.2
    | some y => exact hs.1 y hu
  | .repeated _ cap t rest, u, v, hs, h => by
    refine ⟨⟨?_, fun x hx => ?_⟩, Fields.fits_of_room rest u.2 v.2 hs.2 h.2⟩
    · have h1 := h.1.1
      have h2 := hs.1.1
      omega
    · obtain ⟨g, hg, hp⟩ := RoomList.mem h.1 x hx
      exact ElemTy.fits_of_room t g x (hs.1.2.2 g hg) hp
theorem Alts.fits_of_room : (a : Alts) → (u : Option a.Held) → (v : a.Val) → a.SizedOpt u → a.Room u v → a.Fits v
  | .cons _ t _, u, .inl y, hs, h => ElemTy.fits_of_room t (leftD t.fresh u) y (Alts.sized_left hs) h
  | .cons _ _ rest, u, .inr y, hs, h => Alts.fits_of_room rest (rightOf u) y (Alts.sized_right hs) h
theorem Oneofs.fits_of_room : (os : Oneofs) → (u : os.Held) → (v : os.Val) → os.Sized u → os.Room u v → os.Fits v
  | .nil, _, _, _, _ => trivial
  | .cons a rest, u, v, hs, h =>
    ⟨fun x hx => Alts.fits_of_room a u.1 x hs.1 (h.1 x hx), Oneofs.fits_of_room rest u.2 v.2 hs.2 h.2⟩
end

mutual
theorem ElemTy.fits_merge_of_room : (t : ElemTy) → (u : t.Held) → (v : t.Val) → t.Sized u → t.Fits (t.seen u) → t.Room u v →
    t.Fits (t.merge (t.seen u) v)
  | .scalar _, _, _, _, _, _ => trivial
  | .str _, _, _, _, _, h => h
  | .msg fs os, u, v, hs, hf, h => ⟨Fields.fits_merge_of_room fs u.1 v.1 hs.1 hf.1 h.1,
      Oneofs.fits_merge_of_room os u.2 v.2 hs.2 hf.2 h.2⟩
theorem Fields.fits_merge_of_room : (fs : Fields) → (u : fs.Held) → (v : fs.Val) → fs.Sized u → fs.Fits (fs.seen u) →
    fs.Room u v → fs.Fits (fs.merge (fs.seen u) v)
  | .nil, _, _, _, _, _ => trivial
  | .plain _ t rest, u, v, hs, hf, h => by
    refine ⟨?_, Fields.fits_merge_of_room rest u.2 v.2 hs.2 hf.2 h.2⟩
    show t.Fits (if t.isDflt v.1 then t.seen u.1 else t.merge (t.seen u.1) v.1)
    cases hd : t.isDflt v.1 with
    | true => exact hf.1
    | false => exact ElemTy.fits_merge_of_room t u.1 v.1 hs.1 hf.1 (h.1 hd)
  | .optional _ t rest, u, v, hs, hf, h => by
    refine ⟨?_, Fields.fits_merge_of_room rest u.2 v.2 hs.2 hf.2 h.2⟩
    have ht := ElemTy.fits_merge_of_room t
    obtain ⟨u1, u2⟩ := u
    obtain ⟨v1, v2⟩ := v
    intro z hz
    match u1, v1, hz with
    | none, some y, hz =>
      have hz : y = z := Option.some.inj hz
      exact hz ▸ t.fits_of_room _ y t.fresh_spec.2.2 (h.1 y rfl)
    | some x, none, hz => exact hf.1 z hz
    | some x, some y, hz =>
      have hz : t.merge (t.seen x) y = z := Option.some.inj hz
      exact hz ▸ ht x y (hs.1 x rfl) (hf.1 _ rfl) (h.1 y rfl)
  | .repeated _ cap t rest, u, v, hs, hf, h => by
    refine ⟨⟨?_, fun x hx => ?_⟩, Fields.fits_merge_of_room rest u.2 v.2 hs.2 hf.2 h.2⟩
    · show (List.map t.seen u.1.1 ++ v.1).length ≤ cap
      have h1 := h.1.1
      have h2 := hs.1.1
      rw [List.length_append, List.length_map]
      omega
    · rcases List.mem_append.mp (show x ∈ List.map t.seen u.1.1 ++ v.1 from hx) with hx | hx
      · exact hf.1.2 x hx
      · obtain ⟨g, hg, hp⟩ := RoomList.mem h.1 x hx
        exact t.fits_of_room g x (hs.1.2.2 g hg) hp
theorem Alts.fits_merge_of_room : (a : Alts) → (u : a.Held) → (v : a.Val) → a.Sized u → a.Fits (a.seen u) →
    a.Room (some u) v → a.Fits (a.merge (a.seen u) v)
  | .cons _ t _, .inl x, .inl y, hs, hf, h => ElemTy.fits_merge_of_room t x y hs hf h
  | .cons _ _ rest, .inr x, .inr y, hs, hf, h => Alts.fits_merge_of_room rest x y hs hf h
  | .cons _ _ rest, .inl _, .inr y, _, _, h => rest.fits_of_room none y nofun h
  | .cons _ t _, .inr _, .inl y, _, _, h => t.fits_of_room _ y t.fresh_spec.2.2 h
theorem Oneofs.fits_merge_of_room : (os : Oneofs) → (u : os.Held) → (v : os.Val) → os.Sized u → os.Fits (os.seen u) →
    os.Room u v → os.Fits (os.merge (os.seen u) v)
  | .nil, _, _, _, _, _ => trivial
  | .cons a rest, u, v, hs, hf, h => by
    refine ⟨?_, Oneofs.fits_merge_of_room rest u.2 v.2 hs.2 hf.2 h.2⟩
    have ht := Alts.fits_merge_of_room a
    obtain ⟨u1, u2⟩ := u
    obtain ⟨v1, v2⟩ := v
    intro z hz
    match u1, v1, hz with
    | none, some y, hz =>
      have hz : y = z := Option.some.inj hz
      exact hz ▸ a.fits_of_room none y nofun (h.1 y rfl)
    | some x, none, hz => exact hf.1 z hz
    | some x, some y, hz =>
      have hz : a.merge (a.seen x) y = z := Option.some.inj hz
      exact hz ▸ ht x y (hs.1 x rfl) (hf.1 _ rfl) (h.1 y rfl)
end

end EP
