import Verif.Spec.Places
import Verif.Proof.EncMessage
import Verif.Proof.Fits

/-! # Declarations of which no encoding ends in the contents of a string -/

namespace EP
open Spec

theorem map_getLast_false {α : Type} {f : α → Bool} {l : List α} (h : ∀ x ∈ l, f x = false) :
    (match (l.map f).getLast? with
      | none => false
      | some b => b) = false := by
  cases e : (l.map f).getLast? with
  | none => rfl
  | some b =>
    obtain ⟨x, hx, rfl⟩ := List.mem_map.mp (List.mem_of_getLast? e)
    exact h x hx

mutual
theorem ElemTy.noText_of_every : ∀ (t : ElemTy) (p : Place), t.Every RoomPlace p → ∀ v : t.Val, t.Fits v → t.endsInText v = false
  | .scalar _, _, _, _, _ => rfl
  | .str cap, _, h, v, hf => by
    have h : cap = 0 := h cap rfl
    have hf : List.length (α := Byte) v ≤ cap := hf
    have : (v : List Byte) = [] := List.eq_nil_of_length_eq_zero (by omega)
    show (!List.isEmpty (α := Byte) v) = false
    rw [this]
    rfl
  | .msg fs os, _, h, v, hf => by
    simp only [ElemTy.endsInText]
    split
    · exact Fields.noText_of_every fs h.1 v.1 hf.1
    · exact Oneofs.noText_of_every os h.2 v.2 hf.2
theorem Fields.noText_of_every : ∀ (fs : Fields), fs.Every RoomPlace → ∀ v : fs.Val, fs.Fits v → fs.endsInText v = false
  | .nil, _, _, _ => rfl
  | .plain _ t rest, h, v, hf => by
    simp only [Fields.endsInText]
    split
    · exact ElemTy.noText_of_every t _ h.1 v.1 hf.1
    · exact Fields.noText_of_every rest h.2 v.2 hf.2
  | .optional _ t rest, h, v, hf => by
    have ht := ElemTy.noText_of_every t _ h.1
    simp only [Fields.endsInText]
    split
    · cases e : v.1 with
      | none => rfl
      | some x => exact ht x (hf.1 x e)
    · exact Fields.noText_of_every rest h.2 v.2 hf.2
  | .repeated _ cap t rest, h, v, hf => by
    have ht := ElemTy.noText_of_every t .element
    simp only [Fields.endsInText]
    split
    · refine map_getLast_false fun x hx => ?_
      rcases h.1 with hc | hc
      · have := hf.1.1
        have : v.1 = [] := List.eq_nil_of_length_eq_zero (by omega)
        rw [this] at hx
        exact nomatch hx
      · exact ht hc x (hf.1.2 x hx)
    · exact Fields.noText_of_every rest h.2 v.2 hf.2
theorem Alts.noText_of_every : ∀ (a : Alts), a.Every RoomPlace → ∀ v : a.Val, a.Fits v → a.endsInText v = false
  | .cons _ t _, h, .inl v, hf => ElemTy.noText_of_every t _ h.1 v hf
  | .cons _ _ rest, h, .inr v, hf => Alts.noText_of_every rest h.2 v hf
theorem Oneofs.noText_of_every : ∀ (os : Oneofs), os.Every RoomPlace → ∀ v : os.Val, os.Fits v → os.endsInText v = false
  | .nil, _, _, _ => rfl
  | .cons a rest, h, v, hf => by
    have ha := Alts.noText_of_every a h.1
    simp only [Oneofs.endsInText]
    split
    · cases e : v.1 with
      | none => rfl
      | some x => exact ha x (hf.1 x e)
    · exact Oneofs.noText_of_every rest h.2 v.2 hf.2
end

theorem ElemTy.endsInText_drop (t : ElemTy) (v : t.Val) : t.endsInText (t.dropNegZero v) = t.endsInText v := by
  cases t <;> rfl

theorem Fields.isDflt_canon_dflt (fs : Fields) : fs.isDflt (fs.canon fs.dflt) = true := by
  rw [fs.canon_dflt]; exact (fs.isDflt_iff _).mpr rfl

theorem Oneofs.isDflt_canon_dflt (os : Oneofs) : os.isDflt (os.canon os.dflt) = true := by
  rw [os.canon_dflt]; exact (os.isDflt_iff _).mpr rfl

theorem Oneofs.endsInText_dflt : (os : Oneofs) → (v : os.Val) → os.isDflt v = true → os.endsInText v = false
  | .nil, _, _ => rfl
  | .cons a rest, v, h => by
    simp only [Oneofs.isDflt, Bool.and_eq_true, Option.isNone_iff_eq_none] at h
    simp only [Oneofs.endsInText, h.2, ↓reduceIte, h.1]

/-- What is known of `if isDflt then … else r`. -/
theorem rest_false {d x r : Bool} (h : (if d = true then x else r) = false) (hd : d = true → r = false) : r = false := by
  cases d with
  | true => exact hd rfl
  | false => exact h

theorem first_false {d x r : Bool} (h : (if d = true then x else r) = false) (hd : d = true) : x = false := by
  rw [if_pos hd] at h; exact h

mutual
theorem ElemTy.every_of_noText : ∀ (t : ElemTy) (p : Place), (∀ v : t.Val, t.Fits v → t.endsInText (t.canon v) = false) →
    t.Every RoomPlace p
  | .scalar _, _, _ => fun _ e => nomatch e
  | .str cap, _, h => by
    intro c e
    injection e with e
    subst e
    have : (!List.isEmpty (List.replicate cap (0 : Byte))) = false := h (List.replicate cap (0 : Byte))
      (show (List.replicate cap (0 : Byte)).length ≤ cap by simp)
    cases cap with
    | zero => rfl
    | succ n => exact nomatch this
  | .msg fs os, _, h =>
    ⟨Fields.every_of_noText fs fun v hv => first_false (h (v, os.dflt) ⟨hv, os.fits_dflt⟩) os.isDflt_canon_dflt,
      Oneofs.every_of_noText os fun v hv => rest_false (h (fs.dflt, v) ⟨fs.fits_dflt, hv⟩) (os.endsInText_dflt _)⟩
theorem Fields.every_of_noText : ∀ (fs : Fields), (∀ v : fs.Val, fs.Fits v → fs.endsInText (fs.canon v) = false) →
    fs.Every RoomPlace
  | .nil, _ => trivial
  | .plain _ t rest, h =>
    ⟨ElemTy.every_of_noText t _ fun v hv => (t.endsInText_drop _).symm.trans
        (first_false (h (v, rest.dflt) ⟨hv, rest.fits_dflt⟩) rest.isDflt_canon_dflt),
      Fields.every_of_noText rest fun v hv => rest_false (h (t.dflt, v) ⟨t.fits_dflt, hv⟩) (rest.endsInText_dflt _)⟩
  | .optional _ t rest, h =>
    ⟨ElemTy.every_of_noText t _ fun v hv => first_false (h (some v, rest.dflt)
        ⟨fun x hx => (by injection hx with hx; exact hx ▸ hv), rest.fits_dflt⟩) rest.isDflt_canon_dflt,
      Fields.every_of_noText rest fun v hv => rest_false (h (none, v) ⟨fun _ hx => (nomatch hx), hv⟩) (rest.endsInText_dflt _)⟩
  | .repeated num cap t rest, h => by
    refine ⟨?_, Fields.every_of_noText rest fun v hv =>
      rest_false (h ([], v) ⟨⟨Nat.zero_le _, fun _ hx => (nomatch hx)⟩, hv⟩) (rest.endsInText_dflt _)⟩
    by_cases hc : cap = 0
    · exact .inl hc
    · refine .inr (ElemTy.every_of_noText t _ fun v hv => ?_)
      refine first_false (h ([v], rest.dflt) ⟨⟨?_, fun x hx => ?_⟩, rest.fits_dflt⟩) rest.isDflt_canon_dflt
      · show List.length [v] ≤ cap
        simp; omega
      · obtain rfl := List.mem_singleton.mp hx
        exact hv
theorem Alts.every_of_noText : ∀ (a : Alts), (∀ v : a.Val, a.Fits v → a.endsInText (a.canon v) = false) → a.Every RoomPlace
  | .nil, _ => trivial
  | .cons _ t rest, h =>
    ⟨ElemTy.every_of_noText t _ fun v hv => h (.inl v) hv, Alts.every_of_noText rest fun v hv => h (.inr v) hv⟩
theorem Oneofs.every_of_noText : ∀ (os : Oneofs), (∀ v : os.Val, os.Fits v → os.endsInText (os.canon v) = false) →
    os.Every RoomPlace
  | .nil, _ => trivial
  | .cons a rest, h =>
    ⟨Alts.every_of_noText a fun v hv => first_false (h (some v, rest.dflt)
        ⟨fun x hx => (by injection hx with hx; exact hx ▸ hv), rest.fits_dflt⟩) rest.isDflt_canon_dflt,
      Oneofs.every_of_noText rest fun v hv => rest_false (h (none, v) ⟨fun _ hx => (nomatch hx), hv⟩) (rest.endsInText_dflt _)⟩
end

end EP
