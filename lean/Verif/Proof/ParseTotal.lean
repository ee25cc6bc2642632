import Verif.Proof.Parse

/-!
# The reference decoder always has a result in data that is skipped only up to its end
-/

namespace EP
open Spec

/-- There is a result, with at most `N` bytes left. -/
def Parse.Total {α : Type} (N : Nat) : Parse α → Prop
  | .ok _ rest => rest.length ≤ N
  | .fail _ _ => True
  | .overrun => False

theorem Parse.Total.map {α γ : Type} {N : Nat} {f : α → γ} {p : Parse α} (h : p.Total N) :
    (p.map f).Total N := by
  cases p <;> exact h

theorem Parse.Total.mono {α : Type} {N N' : Nat} {p : Parse α} (h : p.Total N) (hn : N ≤ N') :
    p.Total N' := by
  cases p with
  | ok v rest => exact Nat.le_trans h hn
  | fail e v => trivial
  | overrun => exact h

theorem expect_total {α : Type} {N : Nat} (want wt : WireType) (u : α) {p : Parse α} (h : p.Total N) :
    (expect want wt u p).Total N := by
  unfold expect
  split
  · exact h
  · trivial

theorem window_total {α : Type} {n : Nat} {bs : List Byte} {f : Bool → List Byte → Parse α}
    (h : ∀ w, (f true w).Total w.length) : (window true n bs f).Total bs.length := by
  unfold window
  have := h (bs.take n)
  rw [Bool.true_or]
  cases hf : f true (bs.take n) with
  | ok v rest => exact (by simp : (bs.drop n).length ≤ bs.length)
  | fail e v => trivial
  | overrun => rw [hf] at this; exact this

theorem parseScalar_total {H : Type} {read : Reader H} (hr : ReaderLaw read) (bs : List Byte) (u : H) :
    (parseScalar read bs u).Total bs.length := by
  unfold parseScalar
  have := hr.le bs
  generalize read bs = r at *
  obtain ⟨r, rest⟩ := r
  cases r with
  | ok v => exact this
  | error e => trivial

theorem parseStr_total (cap : Nat) (bs u : List Byte) : (parseStr cap bs u).Total bs.length := by
  unfold parseStr
  have := readLen_law.le bs
  generalize readLen bs = r at *
  obtain ⟨r, rest⟩ := r
  cases r with
  | ok v =>
    dsimp only at this ⊢
    split
    · trivial
    · split
      · trivial
      · show (rest.drop v).length ≤ _
        rw [List.length_drop]
        omega
  | error e => trivial

theorem parsePacked_total {H : Type} {read : Reader H} (hr : ReaderLaw read) (bs : List Byte)
    (xs hs : List H) : (parsePacked read bs xs hs).Total bs.length := by
  induction hs generalizing bs xs with
  | nil =>
    unfold parsePacked
    split
    · exact Nat.zero_le _
    · trivial
    · trivial
  | cons g hs ih =>
    unfold parsePacked
    split
    · exact Nat.zero_le _
    · trivial
    · rename_i y rest h
      have := hr.le bs
      rw [h] at this
      exact (ih rest _).mono this

theorem parseScalars_total {H : Type} {read : Reader H} (hr : ReaderLaw read) (bs : List Byte)
    (u : List H × List H) : (parseScalars read bs u).Total bs.length := by
  unfold parseScalars
  have := readLen_law.le bs
  generalize readLen bs = r at *
  obtain ⟨r, rest⟩ := r
  cases r <;> exact (window_total fun w => parsePacked_total hr w _ _).mono this

theorem parseElem_total {H : Type} (isMsg : Bool) {parse : List Byte → H → Parse H}
    (h : ∀ bs u, (parse bs u).Total bs.length) (bs : List Byte) (u : List H × List H) :
    (parseElem isMsg parse bs u).Total bs.length := by
  unfold parseElem
  split
  · trivial
  · split
    · trivial
    · exact (h bs _).map

theorem skipField_total (wt : WireType) (bs : List Byte) : (skipField true wt bs).Total bs.length := by
  have hread : ∀ {α : Type} (rd : Reader α), ReaderLaw rd →
      (match rd bs with
        | (.ok _, rest) => .ok () rest
        | (.error e, _) => .fail e () : Parse Unit).Total bs.length := by
    intro α rd h
    have := h.le bs
    generalize rd bs = r at *
    obtain ⟨r, rest⟩ := r
    cases r with
    | ok v => exact this
    | error e => trivial
  cases wt with
  | varint => exact hread _ (readVarint_law 10)
  | fixed64 => exact hread _ (readFixed_law 8 (by decide))
  | fixed32 => exact hread _ (readFixed_law 4 (by decide))
  | startGroup => exact Nat.le_refl _
  | endGroup => exact Nat.le_refl _
  | lengthDelimited =>
    unfold skipField
    dsimp only
    have := readLen_law.le bs
    generalize readLen bs = r at *
    obtain ⟨r, rest⟩ := r
    cases r with
    | error e => trivial
    | ok n =>
      dsimp only at this ⊢
      rw [if_pos (Or.inr rfl)]
      show (rest.drop n).length ≤ _
      rw [List.length_drop]
      omega

theorem parseLoop_total {α : Type} {record : Nat → WireType → List Byte → α → Parse α}
    (h : ∀ num wt bs u, (record num wt bs u).Total bs.length) (k : Nat) (bs : List Byte) (u : α)
    (hk : bs.length < k) : (parseLoop record k bs u).Total bs.length := by
  induction k generalizing bs u with
  | zero => omega
  | succ k ih =>
    have hlt := readTag_law.lt bs
    unfold parseLoop
    generalize readTag bs = r at *
    obtain ⟨r, rest⟩ := r
    dsimp only at hlt
    cases r with
    | error e => cases e <;> first | trivial | exact Nat.zero_le _
    | ok t =>
      obtain ⟨num, wt⟩ := t
      have hl := hlt _ rfl
      cases wt with
      | none => trivial
      | some wt =>
        dsimp only
        have hr := h num wt rest u
        cases hs : record num wt rest u with
        | ok v rest' =>
          rw [hs] at hr
          have hr' : rest'.length ≤ rest.length := hr
          exact (ih rest' v (by omega)).mono (by omega)
        | fail e v => trivial
        | overrun => rw [hs] at hr; exact hr

theorem parseRecord_total {fs : Fields} {os : Oneofs}
    (hf : ∀ num wt bs u q, fs.parse true num wt bs u = some q → q.Total bs.length)
    (ho : ∀ num wt bs u q, os.parse true num wt bs u = some q → q.Total bs.length)
    (num : Nat) (wt : WireType) (bs : List Byte) (u : fs.Held × os.Held) :
    (parseRecord fs os true num wt bs u).Total bs.length := by
  unfold parseRecord
  cases h : fs.parse true num wt bs u.1 with
  | some q => exact (hf _ _ _ _ _ h).map
  | none =>
    cases h' : os.parse true num wt bs u.2 with
    | some q => exact (ho _ _ _ _ _ h').map
    | none =>
      dsimp only
      split
      · trivial
      · exact (skipField_total wt bs).map

mutual
theorem ElemTy.parse_total : (t : ElemTy) → (bs : List Byte) → (u : t.Held) →
    (t.parse true bs u).Total bs.length
  | .scalar s, bs, u => parseScalar_total (scalarRead_law s) bs u
  | .str cap, bs, u => parseStr_total cap bs u
  | .msg fs os, bs, u => by
    show (match readLen bs with
      | (.error e, _) => .fail e u
      | (.ok n, rest) => window true n rest fun clip w => parseMessage fs os clip w u : Parse _).Total _
    have := readLen_law.le bs
    generalize readLen bs = r at *
    obtain ⟨r, rest⟩ := r
    cases r with
    | error e => trivial
    | ok n =>
      exact (window_total (f := fun clip w => parseMessage fs os clip w u) fun w =>
        parseLoop_total (parseRecord_total (Fields.parse_total fs) (Oneofs.parse_total os)) _ w u
          (Nat.lt_succ_self _)).mono this
theorem Fields.parse_total : (fs : Fields) → (num : Nat) → (wt : WireType) → (bs : List Byte) →
    (u : fs.Held) → (q : Parse fs.Held) → fs.parse true num wt bs u = some q → q.Total bs.length
  | .nil, _, _, _, _, _, h => nomatch h
  | .plain n t rest, num, wt, bs, u, q, h => by
    rw [Fields.parse] at h
    split at h
    · injection h with h
      subst h
      exact (expect_total _ _ _ (ElemTy.parse_total t bs u.1)).map
    · obtain ⟨q', hq, rfl⟩ := Option.map_eq_some_iff.mp h
      exact (Fields.parse_total rest num wt bs u.2 q' hq).map
  | .optional n t rest, num, wt, bs, u, q, h => by
    rw [Fields.parse] at h
    split at h
    · injection h with h
      subst h
      exact (expect_total _ _ _ (ElemTy.parse_total t bs _)).map
    · obtain ⟨q', hq, rfl⟩ := Option.map_eq_some_iff.mp h
      exact (Fields.parse_total rest num wt bs u.2 q' hq).map
  | .repeated n cap t rest, num, wt, bs, u, q, h => by
    have hr := Fields.parse_total rest num wt bs u.2
    have ht : (t.parseRep true bs u.1).Total bs.length := by
      have := ElemTy.parse_total t
      cases t with
      | scalar s => exact parseScalars_total (scalarRead_law s) bs u.1
      | str m => exact parseElem_total false (fun bs u => parseStr_total m bs u) bs u.1
      | msg fs os => exact parseElem_total true this bs u.1
    rw [fields_parse_repeated] at h
    split at h
    · injection h with h
      subst h
      exact (expect_total _ _ _ ht).map
    · obtain ⟨q', hq, rfl⟩ := Option.map_eq_some_iff.mp h
      exact (hr q' hq).map
theorem Alts.parse_total : (a : Alts) → (num : Nat) → (wt : WireType) → (bs : List Byte) →
    (u : Option a.Held) → (q : Parse a.Held) → a.parse true num wt bs u = some q → q.Total bs.length
  | .nil, _, _, _, _, _, h => nomatch h
  | .cons n t rest, num, wt, bs, u, q, h => by
    rw [Alts.parse] at h
    split at h
    · injection h with h
      subst h
      exact (expect_total _ _ _ (ElemTy.parse_total t bs _)).map
    · obtain ⟨q', hq, rfl⟩ := Option.map_eq_some_iff.mp h
      exact (Alts.parse_total rest num wt bs _ q' hq).map
theorem Oneofs.parse_total : (os : Oneofs) → (num : Nat) → (wt : WireType) → (bs : List Byte) →
    (u : os.Held) → (q : Parse os.Held) → os.parse true num wt bs u = some q → q.Total bs.length
  | .nil, _, _, _, _, _, h => nomatch h
  | .cons a rest, num, wt, bs, u, q, h => by
    rw [Oneofs.parse] at h
    have ha := Alts.parse_total a num wt bs u.1
    cases hp : a.parse true num wt bs u.1 with
    | some q' =>
      have ht := ha _ hp
      rw [hp] at h
      cases q' with
      | ok y r => injection h with h; subst h; exact ht
      | fail e y => injection h with h; subst h; trivial
      | overrun => exact ht.elim
    | none =>
      rw [hp] at h
      obtain ⟨q', hq, rfl⟩ := Option.map_eq_some_iff.mp h
      exact (Oneofs.parse_total rest num wt bs u.2 q' hq).map
end

theorem parseMessage_total (fs : Fields) (os : Oneofs) (bs : List Byte) (u : fs.Held × os.Held) :
    (parseMessage fs os true bs u).Total bs.length :=
  parseLoop_total (parseRecord_total (Fields.parse_total fs) (Oneofs.parse_total os)) _ bs u
    (Nat.lt_succ_self _)

end EP
