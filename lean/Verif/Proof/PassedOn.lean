import Verif.Proof.Exact
import Verif.Proof.Fits
import Verif.Proof.Older

/-!
# What an older program passes on

Its encoding is not longer than what the program received, and a program with the newer version, for which the original
message is not too large, can hold it.
-/

namespace EP
open Spec

/-! ## Lengths -/

mutual
theorem ElemTy.Older.shown_shorter {sc : (s : ScalarTy) → s.Val → List Byte} : {t : ElemTy} → (m : t.Older) → (v : t.Val) →
    Shorter (m.old.encodeWith sc (m.shown v)) (t.encodeWith sc v) True
  | _, .scalar _, _ => Shorter.refl _ trivial
  | _, .str _ _, _ => Shorter.refl _ trivial
  | _, .msg f o, v => ((f.shown_shorter v.1).append (o.shown_shorter v.2)).mono fun _ => trivial
theorem Fields.Older.shown_shorter {sc : (s : ScalarTy) → s.Val → List Byte} : {fs : Fields} → (m : fs.Older) → (v : fs.Val) →
    Shorter (m.old.encodeWith sc (m.shown v)) (fs.encodeWith sc v) True
  | _, .nil, _ => Shorter.refl _ trivial
  | _, .plain num (t := t) (rest := rest) m r, v => by
    refine Shorter.mono (Shorter.append (P := True) (Q := True)
      (a := if m.old.isDflt (m.shown v.1) then [] else tag num m.old.wire ++ m.old.wrap (m.old.encodeWith sc (m.shown v.1)))
      (b := if t.isDflt v.1 then [] else tag num t.wire ++ t.wrap (t.encodeWith sc v.1)) ?_ (r.shown_shorter v.2))
      fun _ => trivial
    by_cases hd : t.isDflt v.1 = true
    · have hv := (ElemTy.isDflt_iff t v.1).mp hd
      have : m.old.isDflt (m.shown v.1) = true := (ElemTy.isDflt_iff _ _).mpr (hv ▸ m.shown_dflt)
      rw [if_pos this, if_pos hd]
      exact Shorter.refl _ trivial
    · rw [if_neg hd, m.wire_eq, m.wrap_eq]
      split
      · exact ⟨Nat.zero_le _, fun _ => trivial⟩
      · exact ((m.shown_shorter v.1).wrap _).tag _ _
  | _, .optional num (t := t) (rest := rest) m r, (v1, v2) => by
    cases v1 with
    | none => exact r.shown_shorter v2
    | some x =>
      refine Shorter.mono (Shorter.append (P := True) (Q := True)
        (a := tag num m.old.wire ++ m.old.wrap (m.old.encodeWith sc (m.shown x)))
        (b := tag num t.wire ++ t.wrap (t.encodeWith sc x)) ?_ (r.shown_shorter v2)) fun _ => trivial
      rw [m.wire_eq, m.wrap_eq]
      exact ((m.shown_shorter x).wrap _).tag _ _
  | _, .repeated num cap was (t := t) (rest := rest) m r, (v1, v2) => by
    refine Shorter.mono (Shorter.append (P := True) (Q := True)
      (a := encodeRepeated m.old num ((v1.map m.shown).map (m.old.encodeWith sc)))
      (b := encodeRepeated t num (v1.map (t.encodeWith sc))) ?_ (r.shown_shorter v2)) fun _ => trivial
    rw [List.map_map, encodeRepeated_congr m.isScalar_eq]
    exact (shorter_repeated t num (P := fun _ => True) v1 fun x _ => m.shown_shorter (sc := sc) x).mono fun _ => trivial
  | _, .newPlain num t (rest := rest) r, v => by
    have h := r.shown_shorter (sc := sc) v.2
    refine ⟨Nat.le_trans h.1 ?_, fun _ => trivial⟩
    show _ ≤ ((if t.isDflt v.1 then [] else tag num t.wire ++ t.wrap (t.encodeWith sc v.1)) ++ rest.encodeWith sc v.2).length
    rw [List.length_append]
    omega
  | _, .newOptional num t (rest := rest) r, (v1, v2) => by
    have h := r.shown_shorter (sc := sc) v2
    refine ⟨Nat.le_trans h.1 ?_, fun _ => trivial⟩
    cases v1 with
    | none => exact Nat.le_refl _
    | some x =>
      show _ ≤ ((tag num t.wire ++ t.wrap (t.encodeWith sc x)) ++ rest.encodeWith sc v2).length
      rw [List.length_append (as := tag num t.wire ++ _)]
      omega
  | _, .madeOptional num (t := t) (rest := rest) m r, (v1, v2) => by
    cases v1 with
    | none =>
      have h := r.shown_shorter (sc := sc) v2
      refine ⟨?_, fun _ => trivial⟩
      show ((if m.old.isDflt (m.shown t.dflt) then [] else tag num m.old.wire ++ m.old.wrap (m.old.encodeWith sc (m.shown t.dflt)))
        ++ r.old.encodeWith sc (r.shown v2)).length ≤ (rest.encodeWith sc v2).length
      rw [if_pos ((ElemTy.isDflt_iff _ _).mpr m.shown_dflt)]
      exact h.1
    | some x =>
      refine Shorter.mono (Shorter.append (P := True) (Q := True)
        (a := if m.old.isDflt (m.shown x) then [] else tag num m.old.wire ++ m.old.wrap (m.old.encodeWith sc (m.shown x)))
        (b := tag num t.wire ++ t.wrap (t.encodeWith sc x)) ?_ (r.shown_shorter v2)) fun _ => trivial
      rw [m.wire_eq, m.wrap_eq]
      split
      · exact ⟨Nat.zero_le _, fun _ => trivial⟩
      · exact ((m.shown_shorter x).wrap _).tag _ _
  | _, .newRepeated num cap t (rest := rest) r, (v1, v2) => by
    have h := r.shown_shorter (sc := sc) v2
    refine ⟨Nat.le_trans h.1 ?_, fun _ => trivial⟩
    show _ ≤ (encodeRepeated t num (v1.map (t.encodeWith sc)) ++ rest.encodeWith sc v2).length
    rw [List.length_append]
    omega
theorem Alts.Older.shown_shorter {sc : (s : ScalarTy) → s.Val → List Byte} : {a : Alts} → (m : a.Older) → (v : a.Val) →
    (w : m.old.Val) → m.shown v = some w → Shorter (m.old.encodeWith sc w) (a.encodeWith sc v) True
  | _, .nil, v, _, _ => nomatch v
  | _, .cons num (t := t) m r, .inl x, w, h => by
    cases h
    show Shorter (tag num m.old.wire ++ m.old.wrap (m.old.encodeWith sc (m.shown x)))
      (tag num t.wire ++ t.wrap (t.encodeWith sc x)) True
    rw [m.wire_eq, m.wrap_eq]
    exact ((m.shown_shorter x).wrap _).tag _ _
  | _, .cons num m r, .inr y, w, h => by
    have h : (r.shown y).map Sum.inr = some w := h
    obtain ⟨z, hz, rfl⟩ := Option.map_eq_some_iff.mp h
    exact r.shown_shorter y z hz
  | _, .newMember _ _ _, .inl _, _, h => nomatch h
  | _, .newMember _ _ r, .inr y, w, h => r.shown_shorter y w h
theorem Oneofs.Older.shown_shorter {sc : (s : ScalarTy) → s.Val → List Byte} : {os : Oneofs} → (m : os.Older) → (v : os.Val) →
    Shorter (m.old.encodeWith sc (m.shown v)) (os.encodeWith sc v) True
  | _, .nil, _ => Shorter.refl _ trivial
  | _, .cons (a := a) (rest := rest) m r, (v1, v2) => by
    cases v1 with
    | none => exact r.shown_shorter v2
    | some x =>
      cases hx : m.shown x with
      | none =>
        have h := r.shown_shorter (sc := sc) v2
        refine ⟨?_, fun _ => trivial⟩
        show ((Oneofs.Older.cons m r).old.encodeWith sc (m.shown x, r.shown v2)).length ≤
          (a.encodeWith sc x ++ rest.encodeWith sc v2).length
        rw [hx, List.length_append]
        exact Nat.le_trans h.1 (Nat.le_add_left _ _)
      | some w =>
        have e : (Oneofs.Older.cons m r).shown (some x, v2) = (some w, r.shown v2) :=
          congrArg (fun z => (z, r.shown v2)) hx
        rw [e]
        exact Shorter.mono (Shorter.append (m.shown_shorter x w hx) (r.shown_shorter v2)) fun _ => trivial
  | _, .newOneof a (rest := rest) r, (v1, v2) => by
    have h := r.shown_shorter (sc := sc) v2
    refine ⟨Nat.le_trans h.1 ?_, fun _ => trivial⟩
    cases v1 with
    | none => exact Nat.le_refl _
    | some x =>
      show _ ≤ (a.encodeWith sc x ++ rest.encodeWith sc v2).length
      rw [List.length_append]
      omega
end

mutual
theorem ElemTy.canon_shorter : (t : ElemTy) → (v : t.Val) → Shorter (t.encode (t.canon v)) (t.encode v) True
  | .scalar _, _ => Shorter.refl _ trivial
  | .str _, _ => Shorter.refl _ trivial
  | .msg fs os, v => ((Fields.canon_shorter fs v.1).append (Oneofs.canon_shorter os v.2)).mono fun _ => trivial
theorem Fields.canon_shorter : (fs : Fields) → (v : fs.Val) → Shorter (fs.encode (fs.canon v)) (fs.encode v) True
  | .nil, _ => Shorter.refl _ trivial
  | .plain num t rest, v => by
    refine Shorter.mono (Shorter.append (P := True) (Q := True)
      (a := if t.isDflt (t.dropNegZero (t.canon v.1)) then []
        else tag num t.wire ++ t.wrap (t.encode (t.dropNegZero (t.canon v.1))))
      (b := if t.isDflt v.1 then [] else tag num t.wire ++ t.wrap (t.encode v.1)) ?_ (Fields.canon_shorter rest v.2))
      fun _ => trivial
    have ih := ElemTy.canon_shorter t v.1
    by_cases hd : t.isDflt v.1 = true
    · have hv := (ElemTy.isDflt_iff t v.1).mp hd
      rw [hv, ElemTy.canon_dflt, ElemTy.dropNegZero_dflt]
      exact Shorter.refl _ trivial
    · rw [if_neg hd]
      by_cases hc : t.isDflt (t.dropNegZero (t.canon v.1)) = true
      · rw [if_pos hc]
        exact ⟨Nat.zero_le _, fun _ => trivial⟩
      · rw [if_neg hc]
        refine Shorter.tag _ _ (Shorter.wrap t ?_)
        cases t with
        | str c => exact ih
        | msg fs os => exact ih
        | scalar s =>
          have hz := ScalarTy.drop_nonzero s v.1 hc
          have hn : s.negZero ≠ some v.1 := fun hn => hz ((s.numZero_iff v.1).mpr (Or.inr hn))
          have he : (ElemTy.scalar s).dropNegZero ((ElemTy.scalar s).canon v.1) = v.1 :=
            (ScalarTy.drop_iff s v.1).mpr hn
          rw [he]
          exact Shorter.refl _ trivial
  | .optional num t rest, (none, v) => Fields.canon_shorter rest v
  | .optional num t rest, (some x, v) =>
    ((((ElemTy.canon_shorter t x).wrap t).tag num t.wire).append (Fields.canon_shorter rest v)).mono fun _ => trivial
  | .repeated num cap t rest, (l, v) => by
    refine Shorter.mono (Shorter.append (P := True) (Q := True)
      (a := encodeRepeated t num ((l.map t.canon).map t.encode))
      (b := encodeRepeated t num (l.map t.encode)) ?_ (Fields.canon_shorter rest v)) fun _ => trivial
    rw [List.map_map]
    exact (shorter_repeated t num (P := fun _ => True) l fun x _ => ElemTy.canon_shorter t x).mono fun _ => trivial
theorem Alts.canon_shorter : (a : Alts) → (v : a.Val) → Shorter (a.encodeWith ScalarTy.enc (a.canon v)) (a.encodeWith ScalarTy.enc v) True
  | .nil, v => nomatch v
  | .cons num t _, .inl x => ((ElemTy.canon_shorter t x).wrap t).tag num t.wire
  | .cons _ _ rest, .inr y => Alts.canon_shorter rest y
theorem Oneofs.canon_shorter : (os : Oneofs) → (v : os.Val) → Shorter (os.encode (os.canon v)) (os.encode v) True
  | .nil, _ => Shorter.refl _ trivial
  | .cons _ rest, (none, v) => Oneofs.canon_shorter rest v
  | .cons a rest, (some x, v) =>
    ((Alts.canon_shorter a x).append (Oneofs.canon_shorter rest v)).mono fun _ => trivial
end

/-! ## Room -/

theorem passed_plain {t : ElemTy} (m : t.Older) (v : t.Val) (h : t.Fits (m.lifted (m.old.canon (m.shown v)))) :
    t.Fits (m.lifted (m.old.dropNegZero (m.old.canon (m.shown v)))) := by
  cases m with
  | scalar => trivial
  | str => exact h
  | msg => exact h

mutual
theorem ElemTy.Older.fits_passed : {t : ElemTy} → (m : t.Older) → (v : t.Val) → t.Fits v →
    t.Fits (m.lifted (m.old.canon (m.shown v)))
  | _, .scalar _, _, h => h
  | _, .str _ _, _, h => h
  | _, .msg f o, v, h => ⟨f.fits_passed v.1 h.1, o.fits_passed v.2 h.2⟩
theorem Fields.Older.fits_passed : {fs : Fields} → (m : fs.Older) → (v : fs.Val) → fs.Fits v →
    fs.Fits (m.lifted (m.old.canon (m.shown v)))
  | _, .nil, _, h => h
  | _, .plain _ (t := t) m r, v, h => ⟨passed_plain m v.1 (m.fits_passed v.1 h.1), r.fits_passed v.2 h.2⟩
  | _, .optional num (t := t) (rest := rest) m r, (v1, v2), h => by
    refine ⟨?_, r.fits_passed v2 h.2⟩
    intro x hx
    have hx : ((v1.map m.shown).map m.old.canon).map m.lifted = some x := hx
    cases v1 with
    | none => exact nomatch hx
    | some y =>
      cases hx
      exact m.fits_passed y (h.1 y rfl)
  | _, .repeated num cap was (t := t) (rest := rest) m r, (v1, v2), h => by
    refine ⟨⟨?_, ?_⟩, r.fits_passed v2 h.2⟩
    · show (((v1.map m.shown).map m.old.canon).map m.lifted).length ≤ cap
      simp only [List.length_map]
      exact h.1.1
    · intro x hx
      have hx : x ∈ ((v1.map m.shown).map m.old.canon).map m.lifted := hx
      simp only [List.map_map] at hx
      obtain ⟨y, hy, rfl⟩ := List.mem_map.mp hx
      exact m.fits_passed y (h.1.2 y hy)
  | _, .newPlain _ t r, v, h => ⟨ElemTy.fits_dflt t, r.fits_passed v.2 h.2⟩
  | _, .newOptional _ _ r, v, h => ⟨(fun _ e => nomatch e), r.fits_passed v.2 h.2⟩
  | _, .madeOptional num (t := t) (rest := rest) m r, (v1, v2), h => by
    refine ⟨?_, r.fits_passed v2 h.2⟩
    intro x hx
    have hx : (if m.old.isDflt (m.old.dropNegZero (m.old.canon (m.shown (v1.getD t.dflt)))) then none
      else some (m.lifted (m.old.dropNegZero (m.old.canon (m.shown (v1.getD t.dflt)))))) = some x := hx
    split at hx
    · exact nomatch hx
    · cases hx
      refine passed_plain m _ (m.fits_passed _ ?_)
      cases v1 with
      | none => exact ElemTy.fits_dflt t
      | some y => exact h.1 y rfl
  | _, .newRepeated _ _ _ r, v, h => ⟨⟨Nat.zero_le _, (fun _ e => nomatch e)⟩, r.fits_passed v.2 h.2⟩
theorem Alts.Older.fits_passed : {a : Alts} → (m : a.Older) → (v : a.Val) → a.Fits v → (w : m.old.Val) →
    m.shown v = some w → a.Fits (m.lifted (m.old.canon w))
  | _, .nil, v, _, _, _ => nomatch v
  | _, .cons num (t := t) m r, .inl x, h, w, hw => by
    cases hw
    exact m.fits_passed x h
  | _, .cons num m r, .inr y, h, w, hw => by
    have hw : (r.shown y).map Sum.inr = some w := hw
    obtain ⟨z, hz, rfl⟩ := Option.map_eq_some_iff.mp hw
    exact r.fits_passed y h z hz
  | _, .newMember _ _ _, .inl _, _, _, hw => nomatch hw
  | _, .newMember _ _ r, .inr y, h, w, hw => r.fits_passed y h w hw
theorem Oneofs.Older.fits_passed : {os : Oneofs} → (m : os.Older) → (v : os.Val) → os.Fits v →
    os.Fits (m.lifted (m.old.canon (m.shown v)))
  | _, .nil, _, h => h
  | _, .cons (a := a) (rest := rest) m r, (v1, v2), h => by
    refine ⟨?_, r.fits_passed v2 h.2⟩
    intro x hx
    have hx : ((v1.bind m.shown).map m.old.canon).map m.lifted = some x := hx
    cases v1 with
    | none => exact nomatch hx
    | some y =>
      have hx : ((m.shown y).map m.old.canon).map m.lifted = some x := hx
      cases hy : m.shown y with
      | none => rw [hy] at hx; exact nomatch hx
      | some w =>
        rw [hy] at hx
        cases hx
        exact m.fits_passed y (h.1 y rfl) w hy
  | _, .newOneof _ r, v, h => ⟨(fun _ e => nomatch e), r.fits_passed v.2 h.2⟩
end

end EP
