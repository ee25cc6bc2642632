import Verif.Proof.Json
import Verif.Proof.Fits

/-!
# Declarations of which every value is shown as JSON
-/

namespace EP
open Spec Json

/-- There is a member to be set. -/
theorem Alts.exists_fits : ∀ a : Alts, a.numbers ≠ [] → ∃ v : a.Val, a.Fits v
  | .nil, h => absurd rfl h
  | .cons _ t _, _ => ⟨.inl t.dflt, t.fits_dflt⟩

theorem Oneofs.noneSet_dflt : ∀ os : Oneofs, os.NoneSet os.dflt
  | .nil => trivial
  | .cons _ rest => ⟨rfl, rest.noneSet_dflt⟩

theorem Oneofs.exists_set : ∀ os : Oneofs, os.Settable → ∃ v : os.Val, os.Fits v ∧ ¬ os.NoneSet v
  | .nil, h => h.elim
  | .cons a rest, .inl h => by
    obtain ⟨w, hw⟩ := a.exists_fits h
    exact ⟨(some w, rest.dflt), ⟨fun x hx => by injection hx with hx; exact hx ▸ hw, rest.fits_dflt⟩, fun hn => nomatch hn.1⟩
  | .cons a rest, .inr h => by
    obtain ⟨v, hv, hn⟩ := rest.exists_set h
    exact ⟨(none, v), ⟨fun _ hx => (nomatch hx), hv⟩, fun h => hn h.2⟩

theorem Alts.isEmpty_of_numbers : ∀ (a : Alts), a.numbers = [] → a.Val → False
  | .nil, _, v => nomatch v
  | .cons _ _ _, h, _ => nomatch h

theorem Oneofs.noneSet_of_not : ∀ (os : Oneofs), ¬ os.Settable → ∀ v : os.Val, os.NoneSet v
  | .nil, _, _ => trivial
  | .cons a rest, h, v => by
    refine ⟨?_, rest.noneSet_of_not (fun h' => h (.inr h')) v.2⟩
    cases e : v.1 with
    | none => rfl
    | some w =>
      refine (a.isEmpty_of_numbers ?_ w).elim
      exact Decidable.byContradiction fun hn => h (.inl hn)

theorem Oneofs.leading_iff (os : Oneofs) : (∀ v : os.Val, os.Fits v → os.Leading v) ↔ os.OnlyFirst := by
  match os with
  | .nil => exact ⟨fun _ => trivial, fun _ _ _ => trivial⟩
  | .cons a rest =>
    constructor
    · intro h hs
      obtain ⟨v, hv, hn⟩ := rest.exists_set hs
      rcases h (none, v) ⟨fun _ hx => (nomatch hx), hv⟩ with h | h
      · exact nomatch h
      · exact hn h
    · exact fun h v _ => .inr (rest.noneSet_of_not h v.2)

variable (P : Printer)

mutual
theorem ElemTy.readable_of_safe : ∀ (t : ElemTy) (path : List Nat), t.Safe P path → ∀ v : t.Val, t.Fits v → t.Readable P path v
  | .scalar s, _, h, v, _ => by
    cases s with
    | floatfixed => exact absurd rfl h.1
    | doublefixed => exact absurd rfl h.2
    | _ => trivial
  | .str cap, _, h, v, hf => by
    rcases h with h | h
    · exact .inl h
    · refine .inr fun b hb => ?_
      have hf : List.length (α := Byte) v ≤ cap := hf
      have : (v : List Byte) = [] := List.eq_nil_of_length_eq_zero (by omega)
      rw [this] at hb
      exact nomatch hb
  | .msg fs os, path, h, v, hf => ⟨Fields.readable_of_safe fs path h.1 v.1 hf.1, Oneofs.readable_of_safe os path h.2.1 v.2 hf.2,
      fun e => os.leading_iff.mpr (h.2.2 e) v.2 hf.2⟩
theorem Fields.readable_of_safe : ∀ (fs : Fields) (path : List Nat), fs.Safe P path → ∀ v : fs.Val, fs.Fits v →
    fs.Readable P path v
  | .nil, _, _, _, _ => trivial
  | .plain _ t rest, path, h, v, hf =>
    ⟨ElemTy.readable_of_safe t _ h.1 v.1 hf.1, Fields.readable_of_safe rest path h.2 v.2 hf.2⟩
  | .optional num t rest, path, h, v, hf => by
    refine ⟨?_, Fields.readable_of_safe rest path h.2 v.2 hf.2⟩
    cases e : v.1 with
    | none => exact ElemTy.readable_of_safe t (num :: path) h.1 t.dflt t.fits_dflt
    | some x => exact ElemTy.readable_of_safe t (num :: path) h.1 x (hf.1 x e)
  | .repeated num cap t rest, path, h, v, hf => by
    refine ⟨fun x hx => ?_, Fields.readable_of_safe rest path h.2 v.2 hf.2⟩
    rcases h.1 with hc | hc
    · have := hf.1.1
      have : v.1 = [] := List.eq_nil_of_length_eq_zero (by omega)
      rw [this] at hx
      exact nomatch hx
    · exact ElemTy.readable_of_safe t (num :: path) hc x (hf.1.2 x hx)
theorem Alts.readable_of_safe : ∀ (a : Alts) (path : List Nat), a.Safe P path → ∀ v : a.Val, a.Fits v → a.Readable P path v
  | .cons _ t _, _, h, .inl v, hf => ElemTy.readable_of_safe t _ h.1 v hf
  | .cons _ _ rest, path, h, .inr v, hf => Alts.readable_of_safe rest path h.2 v hf
theorem Oneofs.readable_of_safe : ∀ (os : Oneofs) (path : List Nat), os.Safe P path → ∀ v : os.Val, os.Fits v →
    os.Readable P path v
  | .nil, _, _, _, _ => trivial
  | .cons a rest, path, h, v, hf =>
    ⟨fun w hw => Alts.readable_of_safe a path h.1 w (hf.1 w hw), Oneofs.readable_of_safe rest path h.2 v.2 hf.2⟩
end

variable (hF : ∃ v, isNumber (P.float v) = false) (hD : ∃ v, isNumber (P.double v) = false)
include hF hD

mutual
theorem ElemTy.safe_of_readable : ∀ (t : ElemTy) (path : List Nat), (∀ v : t.Val, t.Fits v → t.Readable P path v) → t.Safe P path
  | .scalar s, _, h => by
    constructor
    · rintro rfl
      obtain ⟨v, hv⟩ := hF
      have := h v trivial
      exact absurd (hv.symm.trans this) Bool.false_ne_true
    · rintro rfl
      obtain ⟨v, hv⟩ := hD
      have := h v trivial
      exact absurd (hv.symm.trans this) Bool.false_ne_true
  | .str cap, path, h => by
    by_cases hc : cap = 0
    · exact .inr hc
    · rcases h [0x22] (show List.length [_] ≤ cap from by simp; omega) with h | h
      · exact .inl h
      · exact absurd rfl (h 0x22 List.mem_cons_self).1
  | .msg fs os, path, h => by
    refine ⟨Fields.safe_of_readable fs path fun v hv => (h (v, os.dflt) ⟨hv, os.fits_dflt⟩).1,
      Oneofs.safe_of_readable os path fun v hv => (h (fs.dflt, v) ⟨fs.fits_dflt, hv⟩).2.1,
      fun e => os.leading_iff.mp fun v hv => (h (fs.dflt, v) ⟨fs.fits_dflt, hv⟩).2.2 e⟩
theorem Fields.safe_of_readable : ∀ (fs : Fields) (path : List Nat), (∀ v : fs.Val, fs.Fits v → fs.Readable P path v) →
    fs.Safe P path
  | .nil, _, _ => trivial
  | .plain _ t rest, path, h =>
    ⟨ElemTy.safe_of_readable t _ fun v hv => (h (v, rest.dflt) ⟨hv, rest.fits_dflt⟩).1,
      Fields.safe_of_readable rest path fun v hv => (h (t.dflt, v) ⟨t.fits_dflt, hv⟩).2⟩
  | .optional _ t rest, path, h =>
    ⟨ElemTy.safe_of_readable t _ fun v hv =>
        (h (some v, rest.dflt) ⟨fun x hx => (by injection hx with hx; exact hx ▸ hv), rest.fits_dflt⟩).1,
      Fields.safe_of_readable rest path fun v hv => (h (none, v) ⟨fun _ hx => (nomatch hx), hv⟩).2⟩
  | .repeated num cap t rest, path, h => by
    refine ⟨?_, Fields.safe_of_readable rest path fun v hv =>
      (h ([], v) ⟨⟨Nat.zero_le _, fun _ hx => (nomatch hx)⟩, hv⟩).2⟩
    by_cases hc : cap = 0
    · exact .inl hc
    · refine .inr (ElemTy.safe_of_readable t (num :: path) fun v hv => ?_)
      refine (h ([v], rest.dflt) ⟨⟨?_, fun x hx => ?_⟩, rest.fits_dflt⟩).1 v List.mem_cons_self
      · show List.length [v] ≤ cap
        simp; omega
      · obtain rfl := List.mem_singleton.mp hx
        exact hv
theorem Alts.safe_of_readable : ∀ (a : Alts) (path : List Nat), (∀ v : a.Val, a.Fits v → a.Readable P path v) → a.Safe P path
  | .nil, _, _ => trivial
  | .cons _ t rest, path, h =>
    ⟨ElemTy.safe_of_readable t _ fun v hv => h (.inl v) hv, Alts.safe_of_readable rest path fun v hv => h (.inr v) hv⟩
theorem Oneofs.safe_of_readable : ∀ (os : Oneofs) (path : List Nat), (∀ v : os.Val, os.Fits v → os.Readable P path v) →
    os.Safe P path
  | .nil, _, _ => trivial
  | .cons a rest, path, h =>
    ⟨Alts.safe_of_readable a path fun v hv =>
        (h (some v, rest.dflt) ⟨fun x hx => (by injection hx with hx; exact hx ▸ hv), rest.fits_dflt⟩).1 v rfl,
      Oneofs.safe_of_readable rest path fun v hv => (h (none, v) ⟨fun _ hx => (nomatch hx), hv⟩).2⟩
end

end EP
