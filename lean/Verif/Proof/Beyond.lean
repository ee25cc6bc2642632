import Verif.Spec.Beyond
import Verif.Proof.ParseTotal

/-!
# The reference decoder has a result unless a length is beyond the end of the data
-/

namespace EP
open Spec

theorem Spec.Beyond.mono {a bs : List Byte} (h : Beyond a) (hs : a <:+ bs) : Beyond bs := by
  obtain ⟨pre, tg, pl, rest, num, n, rfl, h⟩ := h
  obtain ⟨q, rfl⟩ := hs
  exact ⟨q ++ pre, tg, pl, rest, num, n, by simp only [List.append_assoc], h⟩

/-- What is read is at the front. -/
def Reader.Front {α : Type} (rd : Reader α) : Prop := ∀ bs, (rd bs).2 <:+ bs

theorem Reader.Front.map {α γ : Type} {rd : Reader α} (h : rd.Front) (f : α → γ) : (rd.map f).Front := fun bs => by
  have := h bs
  unfold Reader.map
  generalize rd bs = r at *
  obtain ⟨r, rest⟩ := r
  cases r <;> exact this

theorem readVarint_front (k : Nat) : (readVarint k).Front := by
  induction k with
  | zero => exact fun bs => List.suffix_refl _
  | succ k ih =>
    intro bs
    cases bs with
    | nil => exact List.suffix_refl _
    | cons b bs =>
      unfold readVarint
      split
      · exact ((ih.map _) bs).trans (List.suffix_cons ..)
      · exact List.suffix_cons ..

theorem readFixed_front (k : Nat) : (readFixed k).Front := fun bs => by
  unfold readFixed
  split
  · exact List.nil_suffix
  · exact List.drop_suffix ..

theorem scalarRead_front (s : ScalarTy) : s.read.Front := by
  cases s <;> first
    | exact (readVarint_front _).map _
    | exact (readFixed_front _).map _

theorem readLen_front : readLen.Front := (readVarint_front 5).map _

theorem readTag_front : readTag.Front := (readVarint_front 5).map _

theorem readVarint_sound (k : Nat) (bs rest : List Byte) (n : Nat) (h : readVarint k bs = (.ok n, rest)) :
    ∃ p, bs = p ++ rest ∧ IsVarint k p ∧ n = groups p := by
  induction k generalizing bs n with
  | zero => cases h
  | succ k ih =>
    cases bs with
    | nil => cases h
    | cons b bs =>
      unfold readVarint at h
      split at h
      · rename_i hc
        unfold Reader.map at h
        split at h
        · rename_i m r hm
          obtain ⟨p, rfl, h2, rfl⟩ := ih bs m (by rw [hm]; cases h; rfl)
          cases h
          exact ⟨b :: p, rfl, by rw [IsVarint, if_pos hc]; exact h2, rfl⟩
        · cases h
      · rename_i hc
        cases h
        refine ⟨[b], rfl, by rw [IsVarint, if_neg hc], ?_⟩
        have : b.toNat < 128 := by
          have hc' : cont b = false := by simpa using hc
          unfold cont at hc'
          simp at hc'
          omega
        simp only [groups]
        omega

theorem readLen_sound {bs rest : List Byte} {n : Nat} (h : readLen bs = (.ok n, rest)) :
    ∃ p, bs = p ++ rest ∧ Varint 32 p n := by
  unfold readLen Reader.map at h
  split at h
  · rename_i m r hm
    obtain ⟨p, e1, e2, e3⟩ := readVarint_sound 5 bs _ m hm
    cases h
    exact ⟨p, e1, e2, by rw [e3]⟩
  · cases h

theorem readTag_sound {bs rest : List Byte} {num : Nat} {wt : WireType} (h : readTag bs = (.ok (num, some wt), rest)) :
    ∃ p, bs = p ++ rest ∧ Varint 32 p (8 * num + wireNumber wt) := by
  unfold readTag Reader.map at h
  split at h
  · rename_i m r hm
    obtain ⟨p, e1, e2, e3⟩ := readVarint_sound 5 bs _ m hm
    simp only [Prod.mk.injEq, Except.ok.injEq] at h
    obtain ⟨⟨h1, h2⟩, rfl⟩ := h
    have hw : wireNumber wt = m % 8 := by
      unfold wireType? at h2
      have := List.find?_some h2
      simpa using this
    refine ⟨p, e1, e2, ?_⟩
    rw [← e3, ← h1, hw]
    have : m % 2 ^ 32 % 8 = m % 8 := Nat.mod_mod_of_dvd _ (by decide)
    omega
  · cases h

/-- There is a result, and what is left are the last bytes; or a length is beyond the end. -/
def Parse.Settled {α : Type} (clip : Bool) (bs : List Byte) : Parse α → Prop
  | .ok _ rest => rest <:+ bs
  | .fail _ _ => True
  | .overrun => clip = false ∧ Beyond bs

section
variable {α γ : Type} {clip : Bool} {bs : List Byte}

theorem Parse.Settled.map {f : α → γ} {p : Parse α} (h : p.Settled clip bs) : (p.map f).Settled clip bs := by
  cases p <;> exact h

theorem Parse.Settled.mono {bs' : List Byte} {p : Parse α} (h : p.Settled clip bs) (hs : bs <:+ bs') :
    p.Settled clip bs' := by
  cases p with
  | ok v rest => exact h.trans hs
  | fail e v => trivial
  | overrun => exact ⟨h.1, h.2.mono hs⟩

theorem expect_settled (want wt : WireType) (u : α) {p : Parse α} (h : p.Settled clip bs) :
    (expect want wt u p).Settled clip bs := by
  unfold expect
  split
  · exact h
  · trivial

theorem window_settled {n : Nat} {f : Bool → List Byte → Parse α} (h : ∀ c w, (f c w).Settled c w) :
    (window clip n bs f).Settled clip bs := by
  unfold window
  have := h (clip || decide (n ≤ bs.length)) (bs.take n)
  cases hf : f (clip || decide (n ≤ bs.length)) (bs.take n) with
  | ok v rest => exact List.drop_suffix ..
  | fail e v => trivial
  | overrun =>
    rw [hf] at this
    obtain ⟨h1, h2⟩ := this
    rw [Bool.or_eq_false_iff] at h1
    have hn : bs.length < n := by simpa using h1.2
    rw [List.take_of_length_le (by omega)] at h2
    exact ⟨h1.1, h2⟩

theorem parseScalar_settled {H : Type} {read : Reader H} (hr : read.Front) (u : H) :
    (parseScalar read bs u).Settled clip bs := by
  unfold parseScalar
  have := hr bs
  generalize read bs = r at *
  obtain ⟨r, rest⟩ := r
  cases r with
  | ok v => exact this
  | error e => trivial

theorem parseStr_settled (cap : Nat) (u : List Byte) : (parseStr cap bs u).Settled clip bs := by
  unfold parseStr
  have := readLen_front bs
  generalize readLen bs = r at *
  obtain ⟨r, rest⟩ := r
  cases r with
  | ok v =>
    dsimp only at this ⊢
    split
    · trivial
    · split
      · trivial
      · exact (List.drop_suffix ..).trans this
  | error e => trivial

theorem parsePacked_settled {H : Type} {read : Reader H} (hr : read.Front) (xs hs : List H) (bs : List Byte) :
    (parsePacked read bs xs hs).Settled clip bs := by
  induction hs generalizing bs xs with
  | nil =>
    unfold parsePacked
    split
    · exact List.nil_suffix
    · trivial
    · trivial
  | cons g hs ih =>
    unfold parsePacked
    split
    · exact List.nil_suffix
    · trivial
    · rename_i y rest h
      have := hr bs
      rw [h] at this
      exact (ih _ rest).mono this

theorem Parse.Settled.any {p : Parse α} (h : p.Settled true bs) : p.Settled clip bs := by
  cases p with
  | overrun => exact nomatch h.1
  | _ => exact h

theorem parseScalars_settled {H : Type} {read : Reader H} (hr : read.Front) (u : List H × List H) :
    (parseScalars read bs u).Settled clip bs := by
  unfold parseScalars
  have := readLen_front bs
  generalize readLen bs = r at *
  obtain ⟨r, rest⟩ := r
  cases r <;> exact Parse.Settled.mono (Parse.Settled.any (window_settled fun _ w => parsePacked_settled hr _ _ w)) this

theorem parseElem_settled {H : Type} (isMsg : Bool) {parse : List Byte → H → Parse H}
    (h : ∀ bs u, (parse bs u).Settled clip bs) (u : List H × List H) :
    (parseElem isMsg parse bs u).Settled clip bs := by
  unfold parseElem
  split
  · trivial
  · split
    · trivial
    · exact (h bs _).map

/-- One record: a length beyond the end may be the first thing after the tag. -/
def Parse.SettledAfter (clip : Bool) (wt : WireType) (bs : List Byte) : Parse α → Prop
  | .ok _ rest => rest <:+ bs
  | .fail _ _ => True
  | .overrun => clip = false ∧ (Beyond bs ∨ (wt = .lengthDelimited ∧
      ∃ pl rest n, bs = pl ++ rest ∧ Varint 32 pl n ∧ rest.length < n))

theorem Parse.Settled.after {wt : WireType} {p : Parse α} (h : p.Settled clip bs) : p.SettledAfter clip wt bs := by
  cases p with
  | overrun => exact ⟨h.1, Or.inl h.2⟩
  | _ => exact h

theorem Parse.SettledAfter.map {wt : WireType} {f : α → γ} {p : Parse α} (h : p.SettledAfter clip wt bs) :
    (p.map f).SettledAfter clip wt bs := by
  cases p <;> exact h

theorem skipField_settled (wt : WireType) : (skipField clip wt bs).SettledAfter clip wt bs := by
  have hread : ∀ {α : Type} (rd : Reader α), rd.Front →
      (match rd bs with
        | (.ok _, rest) => .ok () rest
        | (.error e, _) => .fail e () : Parse Unit).SettledAfter clip wt bs := by
    intro α rd h
    have := h bs
    generalize rd bs = r at *
    obtain ⟨r, rest⟩ := r
    cases r with
    | ok v => exact this
    | error e => trivial
  cases wt with
  | varint => exact hread _ (readVarint_front 10)
  | fixed64 => exact hread _ (readFixed_front 8)
  | fixed32 => exact hread _ (readFixed_front 4)
  | startGroup => exact List.suffix_refl _
  | endGroup => exact List.suffix_refl _
  | lengthDelimited =>
    unfold skipField
    dsimp only
    have h1 := readLen_front bs
    cases hr : readLen bs with
    | mk r rest =>
      rw [hr] at h1
      cases r with
      | error e => trivial
      | ok n =>
        dsimp only at h1 ⊢
        split
        · exact (List.drop_suffix ..).trans h1
        · rename_i hn
          rw [not_or] at hn
          obtain ⟨p, e1, e2⟩ := readLen_sound hr
          exact ⟨by simpa using hn.2, Or.inr ⟨rfl, p, rest, n, e1, e2, by omega⟩⟩

end

theorem parseLoop_settled {α : Type} {clip : Bool} {record : Nat → WireType → List Byte → α → Parse α}
    (h : ∀ num wt bs u, (record num wt bs u).SettledAfter clip wt bs) (k : Nat) (bs : List Byte) (u : α)
    (hk : bs.length < k) : (parseLoop record k bs u).Settled clip bs := by
  induction k generalizing bs u with
  | zero => omega
  | succ k ih =>
    have hlt := readTag_law.lt bs
    have hfr := readTag_front bs
    unfold parseLoop
    cases hrt : readTag bs with
    | mk r rest =>
      rw [hrt] at hlt hfr
      dsimp only at hlt hfr
      cases r with
      | error e => cases e <;> first | trivial | exact List.nil_suffix
      | ok t =>
        obtain ⟨num, wt⟩ := t
        have hl := hlt _ rfl
        cases wt with
        | none => trivial
        | some wt =>
          dsimp only
          have hr := h num wt rest u
          cases hs : record num wt rest u with
          | ok v rest' =>
            rw [hs] at hr
            have hr' : rest' <:+ rest := hr
            have := hr'.length_le
            exact (ih rest' v (by omega)).mono (hr'.trans hfr)
          | fail e v => trivial
          | overrun =>
            rw [hs] at hr
            refine ⟨hr.1, ?_⟩
            rcases hr.2 with hb | ⟨rfl, pl, q, n, rfl, e2, e3⟩
            · exact hb.mono hfr
            · obtain ⟨tg, e4, e5⟩ := readTag_sound hrt
              exact ⟨[], tg, pl, q, num, n, e4, e5, e2, e3⟩

theorem parseRecord_settled {fs : Fields} {os : Oneofs} {clip : Bool}
    (hf : ∀ num wt bs u q, fs.parse clip num wt bs u = some q → q.Settled clip bs)
    (ho : ∀ num wt bs u q, os.parse clip num wt bs u = some q → q.Settled clip bs)
    (num : Nat) (wt : WireType) (bs : List Byte) (u : fs.Held × os.Held) :
    (parseRecord fs os clip num wt bs u).SettledAfter clip wt bs := by
  unfold parseRecord
  cases h : fs.parse clip num wt bs u.1 with
  | some q => exact (hf _ _ _ _ _ h).map.after
  | none =>
    cases h' : os.parse clip num wt bs u.2 with
    | some q => exact (ho _ _ _ _ _ h').map.after
    | none =>
      dsimp only
      split
      · trivial
      · exact (skipField_settled wt).map

mutual
theorem ElemTy.parse_settled : (t : ElemTy) → (clip : Bool) → (bs : List Byte) → (u : t.Held) →
    (t.parse clip bs u).Settled clip bs
  | .scalar s, _, bs, u => parseScalar_settled (scalarRead_front s) u
  | .str cap, _, bs, u => parseStr_settled cap u
  | .msg fs os, clip, bs, u => by
    show (match readLen bs with
      | (.error e, _) => .fail e u
      | (.ok n, rest) => window clip n rest fun clip w => parseMessage fs os clip w u : Parse _).Settled _ _
    have := readLen_front bs
    generalize readLen bs = r at *
    obtain ⟨r, rest⟩ := r
    cases r with
    | error e => trivial
    | ok n =>
      exact (window_settled (f := fun clip w => parseMessage fs os clip w u) fun c w =>
        parseLoop_settled (parseRecord_settled (fun num wt bs u q => Fields.parse_settled fs c num wt bs u q)
          (fun num wt bs u q => Oneofs.parse_settled os c num wt bs u q)) _ w u (Nat.lt_succ_self _)).mono this
theorem Fields.parse_settled : (fs : Fields) → (clip : Bool) → (num : Nat) → (wt : WireType) → (bs : List Byte) →
    (u : fs.Held) → (q : Parse fs.Held) → fs.parse clip num wt bs u = some q → q.Settled clip bs
  | .nil, _, _, _, _, _, _, h => nomatch h
  | .plain n t rest, clip, num, wt, bs, u, q, h => by
    rw [Fields.parse] at h
    split at h
    · injection h with h
      subst h
      exact (expect_settled _ _ _ (ElemTy.parse_settled t clip bs u.1)).map
    · obtain ⟨q', hq, rfl⟩ := Option.map_eq_some_iff.mp h
      exact (Fields.parse_settled rest clip num wt bs u.2 q' hq).map
  | .optional n t rest, clip, num, wt, bs, u, q, h => by
    rw [Fields.parse] at h
    split at h
    · injection h with h
      subst h
      exact (expect_settled _ _ _ (ElemTy.parse_settled t clip bs _)).map
    · obtain ⟨q', hq, rfl⟩ := Option.map_eq_some_iff.mp h
      exact (Fields.parse_settled rest clip num wt bs u.2 q' hq).map
  | .repeated n cap t rest, clip, num, wt, bs, u, q, h => by
    have hr := Fields.parse_settled rest clip num wt bs u.2
    have ht : (t.parseRep clip bs u.1).Settled clip bs := by
      have := ElemTy.parse_settled t clip
      cases t with
      | scalar s => exact parseScalars_settled (scalarRead_front s) u.1
      | str m => exact parseElem_settled false (fun bs u => parseStr_settled m u) u.1
      | msg fs os => exact parseElem_settled true this u.1
    rw [fields_parse_repeated] at h
    split at h
    · injection h with h
      subst h
      exact (expect_settled _ _ _ ht).map
    · obtain ⟨q', hq, rfl⟩ := Option.map_eq_some_iff.mp h
      exact (hr q' hq).map
theorem Alts.parse_settled : (a : Alts) → (clip : Bool) → (num : Nat) → (wt : WireType) → (bs : List Byte) →
    (u : Option a.Held) → (q : Parse a.Held) → a.parse clip num wt bs u = some q → q.Settled clip bs
  | .nil, _, _, _, _, _, _, h => nomatch h
  | .cons n t rest, clip, num, wt, bs, u, q, h => by
    rw [Alts.parse] at h
    split at h
    · injection h with h
      subst h
      exact (expect_settled _ _ _ (ElemTy.parse_settled t clip bs _)).map
    · obtain ⟨q', hq, rfl⟩ := Option.map_eq_some_iff.mp h
      exact (Alts.parse_settled rest clip num wt bs _ q' hq).map
theorem Oneofs.parse_settled : (os : Oneofs) → (clip : Bool) → (num : Nat) → (wt : WireType) → (bs : List Byte) →
    (u : os.Held) → (q : Parse os.Held) → os.parse clip num wt bs u = some q → q.Settled clip bs
  | .nil, _, _, _, _, _, _, h => nomatch h
  | .cons a rest, clip, num, wt, bs, u, q, h => by
    rw [Oneofs.parse] at h
    have ha := Alts.parse_settled a clip num wt bs u.1
    cases hp : a.parse clip num wt bs u.1 with
    | some q' =>
      have ht := ha _ hp
      rw [hp] at h
      cases q' with
      | ok y r => injection h with h; subst h; exact ht
      | fail e y => injection h with h; subst h; trivial
      | overrun => injection h with h; subst h; exact ht
    | none =>
      rw [hp] at h
      obtain ⟨q', hq, rfl⟩ := Option.map_eq_some_iff.mp h
      exact (Oneofs.parse_settled rest clip num wt bs u.2 q' hq).map
end

theorem parseMessage_settled (fs : Fields) (os : Oneofs) (clip : Bool) (bs : List Byte) (u : fs.Held × os.Held) :
    (parseMessage fs os clip bs u).Settled clip bs :=
  parseLoop_settled (parseRecord_settled (fun num wt bs u q => Fields.parse_settled fs clip num wt bs u q)
    (fun num wt bs u q => Oneofs.parse_settled os clip num wt bs u q)) _ bs u (Nat.lt_succ_self _)

end EP
