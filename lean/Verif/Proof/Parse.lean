import Verif.Proof.Cursor
import Verif.Proof.Held
import Verif.Proof.Fail

/-! # Decoding is what the reference decoder says -/

namespace EP
open Spec

variable {V W : Type}

/-- The outcome of the code is the one predicted.  `Good` relates what is left in the object to what is
predicted; at most `N` bytes are left. -/
def Parse.Holds {α X β : Type} [ReadBuffer β] (K : Cursor β) (N : Nat) (Good : X → α → Prop) :
    Parse α → Res (Error × β × X) → Prop
  | .ok v rest, r => r.Post fun q => q.1 = .noErrors ∧ K.At q.2.1 rest ∧ rest.length ≤ N ∧ Good q.2.2 v
  | .fail e v, r => r.Post fun q => q.1 = e ∧ e ≠ .noErrors ∧ Good q.2.2 v
  | .overrun, _ => True

theorem Parse.Holds.map {α α' X X' β : Type} [ReadBuffer β] {K : Cursor β} {N N' : Nat}
    {Good : X → α → Prop} {Good' : X' → α' → Prop} {p : Parse α} {r : Res (Error × β × X)}
    (h : p.Holds K N Good r) {f : α → α'} {g : X → X'} {k : Error × β × X → Res (Error × β × X')}
    (hk : ∀ q, k q = .ok (q.1, q.2.1, g q.2.2)) (hn : N ≤ N')
    (hg : ∀ x v, Good x v → Good' (g x) (f v)) : (p.map f).Holds K N' Good' (r >>= k) := by
  cases p with
  | ok v rest =>
    refine Res.Post_bind.mpr (Res.Post.mono h ?_)
    rintro q ⟨h1, h2, h3, h4⟩
    rw [hk]
    exact ⟨h1, h2, Nat.le_trans h3 hn, hg _ _ h4⟩
  | fail e v =>
    refine Res.Post_bind.mpr (Res.Post.mono h ?_)
    rintro q ⟨h1, h2, h3⟩
    rw [hk]
    exact ⟨h1, h2, hg _ _ h3⟩
  | overrun => trivial

/-- What an object holds. -/
def Good {C : FieldClass} (S : ClassSpec C V) (x : C.State) (v : V) : Prop := S.Inv x ∧ S.abs x = v

/-- `P` predicts `deserialize`. -/
def BodyParse (C : FieldClass) (S : ClassSpec C V) (P : Bool → List Byte → V → Parse V) : Prop :=
  ∀ (β : Type) [ReadBuffer β] (K : Cursor β) (fuel : Nat) (b : β) (bs : List Byte) (x : C.State),
    S.Inv x → K.At b bs → bs.length < fuel →
    (P K.clip bs (S.abs x)).Holds K bs.length (Good S) (C.deserialize fuel b x)

/-- `P` predicts `deserialize_check_type`. -/
def CheckParse (C : FieldClass) (S : ClassSpec C V) (P : Bool → WireType → List Byte → V → Parse V) : Prop :=
  ∀ (β : Type) [ReadBuffer β] (K : Cursor β) (fuel : Nat) (b : β) (bs : List Byte) (wt : WireType)
    (x : C.State), S.Inv x → K.At b bs → bs.length < fuel →
    (P K.clip wt bs (S.abs x)).Holds K bs.length (Good S) (C.deserializeCheckType fuel b wt x)

/-! ## Scalars -/

theorem ReaderLaw.error_ne {α : Type} {rd : Reader α} (h : ReaderLaw rd) (bs : List Byte) {e : Error}
    (he : (rd bs).1 = .error e) : e ≠ .noErrors := by
  rcases h.error bs e he with ⟨rfl, _⟩ | rfl <;> simp

/-- `deserialize` of a scalar. -/
theorem scalar_read {β : Type} [ReadBuffer β] (K : Cursor β) (s : ScalarTy) (b : β) (bs : List Byte)
    (x : s.Val) (h : K.At b bs) :
    (s.deserialize b x).Post fun q => K.At q.2.1 (s.read bs).2 ∧
      match (s.read bs).1 with
      | .ok v => q.1 = .noErrors ∧ q.2.2 = v
      | .error e => q.1 = e ∧ q.2.2 = x := by
  unfold ScalarTy.deserialize
  refine Res.Post_bind.mpr ((Cursor.scalar s h).mono ?_)
  rintro ⟨p, b'⟩ ⟨h1, h2⟩
  dsimp only at h1 h2
  rw [← h1]
  cases p <;> exact ⟨h2, rfl, rfl⟩

theorem scalar_bodyParse (s : ScalarTy) :
    BodyParse (scalarClass s) (scalarSpec s) (fun _ bs u => parseScalar s.read bs u) := by
  intro β _ K fuel b bs x hx hb hf
  have hl := (scalarRead_law s).le bs
  have hne := fun e => (scalarRead_law s).error_ne bs (e := e)
  have := scalar_read K s b bs x hb
  show Parse.Holds K _ _ (parseScalar s.read bs x) (s.deserialize b x)
  unfold parseScalar
  generalize s.read bs = r at *
  obtain ⟨r, rest⟩ := r
  cases r with
  | ok v =>
    refine this.mono ?_
    rintro q ⟨h1, h2, h3⟩
    exact ⟨h2, h1, hl, trivial, h3⟩
  | error e =>
    refine this.mono ?_
    rintro q ⟨h1, h2, h3⟩
    exact ⟨h2, hne _ rfl, trivial, h3⟩

theorem scalar_checkParse (s : ScalarTy) :
    CheckParse (scalarClass s) (scalarSpec s)
      (fun _ wt bs u => expect s.wire wt u (parseScalar s.read bs u)) := by
  intro β _ K fuel b bs wt x hx hb hf
  show Parse.Holds K _ _ (expect s.wire wt _ _) (if s.wireType = wt then s.deserialize b x else _ : Res _)
  unfold expect
  rw [ScalarTy.wireType_eq]
  by_cases hw : wt = s.wire
  · rw [if_pos hw, if_pos hw.symm]
    exact scalar_bodyParse s β K fuel b bs x hx hb hf
  · rw [if_neg hw, if_neg (Ne.symm hw)]
    exact ⟨rfl, by simp, trivial, rfl⟩

/-! ## Strings and bytes -/

section
variable {β : Type} [ReadBuffer β]

theorem Cursor.readLoop (K : Cursor β) (cap : Nat) (hc : cap < 4294967296) (n : Nat) (b : β)
    (bs : List Byte) (x : StrObj) (hb : K.At b bs) (hx : x.WF cap) (hl : x.len + n ≤ cap) :
    (StrObj.readLoop n b x).Post fun r => K.At r.1 (bs.drop n) ∧ r.2.WF cap ∧
      r.2.len = x.len + min n bs.length ∧ r.2.chars = x.chars ++ bs.take n := by
  induction n generalizing b bs x with
  | zero => simp [StrObj.readLoop, hb, hx]
  | succ n ih =>
    cases bs with
    | nil =>
      obtain ⟨b', hp, h'⟩ := K.pop_nil b hb
      simp only [StrObj.readLoop, hp, Res.ok_bind]
      exact ⟨h', hx, by simp, by simp⟩
    | cons y ys =>
      obtain ⟨b', hp, h'⟩ := K.pop_cons b y ys hb
      obtain ⟨h1, h2⟩ := id hx
      simp only [StrObj.readLoop, hp, Res.ok_bind]
      rw [arraySet_of_lt (by omega), Res.ok_bind, u32_of_lt (by omega)]
      refine (ih b' ys _ h' ⟨by simpa using h1, by show x.len + 1 ≤ cap; omega⟩
        (by show x.len + 1 + n ≤ cap; omega)).mono ?_
      rintro r ⟨q1, q2, q3, q4⟩
      refine ⟨q1, q2, ?_, ?_⟩
      · rw [q3]
        show x.len + 1 + _ = _
        simp only [List.length_cons]
        omega
      · rw [q4]
        have : (StrObj.chars ⟨x.len + 1, x.data.set x.len y⟩) = x.chars ++ [y] := by
          show List.take _ _ = _
          rw [List.take_add_one, List.take_set_of_le (by omega)]
          have : x.len < x.data.length := by omega
          simp [this, StrObj.chars]
        rw [this]
        simp

/-- Reading a length, in a form that is easy to use. -/
theorem Cursor.len_cases (K : Cursor β) {b : β} {bs : List Byte} (h : K.At b bs) :
    (∃ e b' rest, readLen bs = (.error e, rest) ∧ e ≠ .noErrors ∧
      deserializeVarint 32 b = .ok (.error e, b') ∧ K.At b' rest ∧ rest.length ≤ bs.length) ∨
    (∃ n b' rest, readLen bs = (.ok n.toNat, rest) ∧ n.toNat < 4294967296 ∧
      deserializeVarint 32 b = .ok (.ok n, b') ∧ K.At b' rest ∧ rest.length < bs.length) := by
  obtain ⟨⟨p, b'⟩, h0, h1, h2⟩ := (Cursor.len h).exists
  have hl := readLen_law.le bs
  have hlt := readLen_law.lt bs
  have hne := fun e => readLen_law.error_ne bs (e := e)
  have hb := @readLen_lt bs
  generalize readLen bs = r at *
  obtain ⟨r, rest⟩ := r
  dsimp only at h1 h2 hl hlt hne
  cases p with
  | error e =>
    subst h1
    exact Or.inl ⟨e, b', rest, rfl, hne _ rfl, h0, h2, hl⟩
  | ok v =>
    subst h1
    exact Or.inr ⟨v, b', rest, rfl, hb rfl, h0, h2, hlt _ rfl⟩

end

theorem str_bodyParse (cap : Nat) (hc : cap < 2147483648) :
    BodyParse (strClass cap) (strSpec cap) (fun _ bs u => parseStr cap bs u) := by
  intro β _ K fuel b bs x hx hb hf
  show Parse.Holds K _ _ (parseStr cap bs _) (StrObj.deserialize cap b x)
  unfold StrObj.deserialize parseStr
  rcases K.len_cases hb with ⟨e, b', rest, h1, h2, h3, h4, h5⟩ | ⟨n, b', rest, h1, h2, h3, h4, h5⟩
  · rw [h1, h3, Res.ok_bind]
    exact ⟨rfl, h2, hx, rfl⟩
  · rw [h1, h3, Res.ok_bind]
    dsimp only
    by_cases hn : cap < n.toNat
    · rw [if_pos hn, if_neg (show ¬ cap ≥ n.toNat by omega)]
      exact ⟨rfl, by simp, hx, rfl⟩
    · rw [if_neg hn, if_pos (show cap ≥ n.toNat by omega)]
      have := K.readLoop cap (by omega) n.toNat b' rest _ h4 (StrObj.clear_wf cap x) (by
        show 0 + n.toNat ≤ cap; omega)
      have hch : (StrObj.clear cap x).chars = [] := StrObj.clear_chars cap x
      have hcl : (StrObj.clear cap x).len = 0 := rfl
      rw [hch, hcl, List.nil_append] at this
      by_cases hl : rest.length < n.toNat
      · rw [if_pos hl]
        refine Res.Post_bind.mpr (this.mono ?_)
        rintro ⟨b'', y⟩ ⟨q1, q2, q3, q4⟩
        dsimp only at q1 q2 q3 q4 ⊢
        rw [if_pos (by omega)]
        refine ⟨rfl, by simp, q2, ?_⟩
        show y.chars = rest
        rw [q4, List.take_of_length_le (by omega)]
      · rw [if_neg hl]
        refine Res.Post_bind.mpr (this.mono ?_)
        rintro ⟨b'', y⟩ ⟨q1, q2, q3, q4⟩
        dsimp only at q1 q2 q3 q4 ⊢
        rw [if_neg (by omega)]
        exact ⟨rfl, q1, by simp; omega, q2, q4⟩

theorem str_checkParse (cap : Nat) (hc : cap < 2147483648) :
    CheckParse (strClass cap) (strSpec cap)
      (fun _ wt bs u => expect .lengthDelimited wt u (parseStr cap bs u)) := by
  intro β _ K fuel b bs wt x hx hb hf
  show Parse.Holds K _ _ (expect .lengthDelimited wt _ _)
    (if wt = .lengthDelimited then StrObj.deserialize cap b x else _ : Res _)
  unfold expect
  by_cases hw : wt = .lengthDelimited
  · rw [if_pos hw, if_pos hw]
    exact str_bodyParse cap hc β K fuel b bs x hx hb hf
  · rw [if_neg hw, if_neg hw]
    exact ⟨rfl, by simp, hx, rfl⟩

/-! ## Windows -/

/-- A separate part of the data, read through a section. -/
theorem window_holds {α X β : Type} [ReadBuffer β] (K : Cursor β) {N n : Nat} {b : β} {bs : List Byte}
    {Good : X → α → Prop} {f : Bool → List Byte → Parse α} {op : Section β → Res (Error × Section β × X)}
    (hb : K.At b bs) (hn : n < 4294967296) (hN : bs.length ≤ N)
    (hend : ∀ c w v rest, f c w = .ok v rest → rest = [])
    (h : ∀ L : Cursor (Section β), L.At (Section.new b n) (bs.take n) →
      (f L.clip (bs.take n)).Holds L (bs.take n).length Good (op (Section.new b n))) :
    (window K.clip n bs f).Holds K N Good (do
      let (e, s, x) ← op (Section.new b n)
      pure (e, s.buffer, x)) := by
  obtain ⟨L, h1, h2, h3⟩ := K.section n hb hn
  have := h L h1
  unfold window
  rw [← h2]
  cases hp : f L.clip (bs.take n) with
  | ok v rest =>
    rw [hp] at this
    refine Res.Post_bind.mpr (Res.Post.mono this ?_)
    rintro ⟨e, s, x⟩ ⟨q1, q2, q3, q4⟩
    dsimp only at q1 q2 q3 q4
    rw [hend _ _ _ _ hp] at q2
    exact ⟨q1, h3 s q2, by simp; omega, q4⟩
  | fail e v =>
    rw [hp] at this
    refine Res.Post_bind.mpr (Res.Post.mono this ?_)
    rintro ⟨e, s, x⟩ ⟨q1, q2, q3⟩
    exact ⟨q1, q2, q3⟩
  | overrun => trivial

theorem parseLoop_end {α : Type} (record : Nat → WireType → List Byte → α → Parse α) (k : Nat)
    (bs : List Byte) (u v : α) (rest : List Byte) (h : parseLoop record k bs u = .ok v rest) :
    rest = [] := by
  induction k generalizing bs u with
  | zero => exact nomatch h
  | succ k ih =>
    unfold parseLoop at h
    split at h
    · injection h with _ h; exact h.symm
    · exact nomatch h
    · exact nomatch h
    · split at h
      · exact ih _ _ h
      · rename_i hn
        exact absurd h (hn _ _)

theorem parsePacked_end {H : Type} (read : Reader H) (bs : List Byte) (xs hs : List H)
    (v : List H × List H) (rest : List Byte) (h : parsePacked read bs xs hs = .ok v rest) :
    rest = [] := by
  induction hs generalizing bs xs with
  | nil =>
    unfold parsePacked at h
    split at h
    · injection h with _ h; exact h.symm
    · exact nomatch h
    · exact nomatch h
  | cons g hs ih =>
    unfold parsePacked at h
    split at h
    · injection h with _ h; exact h.symm
    · exact nomatch h
    · exact ih _ _ h

/-! ## Repeated fields -/

section Repeated
variable {cap : Nat}

theorem rep_checkParse {E : FieldClass} {S : ClassSpec E V}
    {P : Bool → List Byte → List V × List V → Parse (List V × List V)}
    (h : BodyParse (repeatedClass E cap) (repHeldSpec S cap) P) :
    CheckParse (repeatedClass E cap) (repHeldSpec S cap)
      (fun c wt bs u => expect .lengthDelimited wt u (P c bs u)) := by
  intro β _ K fuel b bs wt x hx hb hf
  show Parse.Holds K _ _ (expect .lengthDelimited wt _ _)
    (if wt = .lengthDelimited then RepObj.deserialize cap fuel b x else _ : Res _)
  unfold expect
  by_cases hw : wt = .lengthDelimited
  · rw [if_pos hw, if_pos hw]
    exact h β K fuel b bs x hx hb hf
  · rw [if_neg hw, if_neg hw]
    exact ⟨rfl, by simp, hx, rfl⟩

/-- The outcome of reading packed elements: the end of the section shows as `END_OF_BUFFER`. -/
def Parse.Ends {α X β : Type} [ReadBuffer β] (K : Cursor β) (Good : X → α → Prop) :
    Parse α → Res (Error × β × X) → Prop
  | .ok v _, r => r.Post fun q => q.1 = .endOfBuffer ∧ K.At q.2.1 [] ∧ Good q.2.2 v
  | .fail e v, r => r.Post fun q => q.1 = e ∧ e ≠ .noErrors ∧ e ≠ .endOfBuffer ∧ Good q.2.2 v
  | .overrun, _ => True

/-- Classes whose elements are packed. -/
structure PackedRead (E : FieldClass) (S : ClassSpec E V) (read : Reader V) : Prop where
  packed : E.isPacked = true
  inv : ∀ x, S.Inv x
  assign : ∀ x y, E.assign x y = .ok y
  law : ReaderLaw read
  read : ∀ (β : Type) [ReadBuffer β] (K : Cursor β) (fuel : Nat) (b : β) (bs : List Byte) (x : E.State),
    K.At b bs → (E.deserialize fuel b x).Post fun q => K.At q.2.1 (read bs).2 ∧
      match (read bs).1 with
      | .ok v => q.1 = .noErrors ∧ S.abs q.2.2 = v
      | .error e => q.1 = e

theorem scalar_packedRead (s : ScalarTy) : PackedRead (scalarClass s) (scalarSpec s) s.read where
  packed := rfl
  inv _ := trivial
  assign _ _ := rfl
  law := scalarRead_law s
  read β _ K fuel b bs x hb := by
    refine (scalar_read K s b bs x hb).mono ?_
    rintro q ⟨h1, h2⟩
    refine ⟨h1, ?_⟩
    cases h : (s.read bs).1 with
    | ok v => rw [h] at h2; exact h2
    | error e => rw [h] at h2; exact h2.1

/-- The elements of a packed field, up to the end of the section. -/
theorem packedLoop_parse {E : FieldClass} {S : ClassSpec E V} {read : Reader V} (hE : PackedRead E S read)
    (hc : cap < 2147483648) {β : Type} [ReadBuffer β] (K : Cursor β) (fuel : Nat) (hs : List V) :
    ∀ (k : Nat) (v : E.State) (b : β) (bs : List Byte) (x : RepObj E.State),
    (repHeldSpec S cap).Inv x → K.At b bs → ((repHeldSpec S cap).abs x).2 = hs → bs.length < k →
    (parsePacked read bs ((repHeldSpec S cap).abs x).1 hs).Ends K (Good (repHeldSpec S cap)) (do
        let (e, b, v) ← E.deserialize fuel b v
        RepObj.deserializePackedLoop cap fuel k e v b x) := by
  have main : ∀ (hs : List V) (k : Nat) (v : E.State) (b : β) (bs : List Byte)
      (x : RepObj E.State), (repHeldSpec S cap).Inv x → K.At b bs →
      ((repHeldSpec S cap).abs x).2 = hs → bs.length < k →
      (∀ (y : E.State) (b' : β) (rest : List Byte) (k' : Nat), k = k' + 1 → rest.length < k' →
        K.At b' rest →
        (match hs with
          | [] => .fail .arrayFull (((repHeldSpec S cap).abs x).1, [])
          | _ :: hs => parsePacked read rest (((repHeldSpec S cap).abs x).1 ++ [S.abs y]) hs :
          Parse (List V × List V)).Ends K (Good (repHeldSpec S cap))
          (RepObj.deserializePackedLoop cap fuel k .noErrors y b' x)) →
      (parsePacked read bs ((repHeldSpec S cap).abs x).1 hs).Ends K (Good (repHeldSpec S cap)) (do
          let (e, b, v) ← E.deserialize fuel b v
          RepObj.deserializePackedLoop cap fuel k e v b x) := by
    intro hs k v b bs x hx hb hst hk step
    obtain ⟨k, rfl⟩ : ∃ m, k = m + 1 := ⟨k - 1, by omega⟩
    have hr := hE.read β K fuel b bs v hb
    have hlt := hE.law.lt bs
    have herr := hE.law.error bs
    unfold parsePacked
    generalize read bs = r at hr hlt herr
    obtain ⟨r, rest⟩ := r
    dsimp only at hr hlt herr
    obtain ⟨⟨e, b', v'⟩, h0, q1, q2⟩ := hr.exists
    rw [h0, Res.ok_bind]
    dsimp only at q1 q2
    cases r with
    | error e' =>
      dsimp only at q2
      subst q2
      rcases herr e rfl with ⟨rfl, rfl⟩ | rfl
      · exact ⟨rfl, q1, hx, Prod.ext rfl hst⟩
      · exact ⟨rfl, by simp, by simp, hx, Prod.ext rfl hst⟩
    | ok y =>
      have hl := hlt y rfl
      obtain ⟨q2, q3⟩ := q2
      subst q2 q3
      have := step v' b' rest k rfl (by omega) q1
      cases hs <;> exact this
  induction hs with
  | nil =>
    intro k v b bs x hx hb hst hk
    refine main [] k v b bs x hx hb hst hk ?_
    rintro y b' rest k' rfl hk' hb'
    have hl := rep_stale_held hx
    rw [hst] at hl
    have hfull : RepObj.add cap x y = .ok (.arrayFull, x) := by
      unfold RepObj.add
      rw [if_neg (by simp at hl; omega)]; rfl
    simp only [RepObj.deserializePackedLoop, ↓reduceIte, hfull, Res.ok_bind]
    exact ⟨rfl, by simp, by simp, hx, Prod.ext rfl hst⟩
  | cons g hs ih =>
    intro k v b bs x hx hb hst hk
    refine main (g :: hs) k v b bs x hx hb hst hk ?_
    rintro y b' rest k' rfl hk' hb'
    have hl := rep_stale_held hx
    rw [hst] at hl
    have hlt : x.len < cap := by simp at hl; omega
    have hlt' : x.len < x.data.length := by
      have : (RepObj.data x).length = cap := hx.1
      omega
    obtain ⟨a1, a2⟩ := rep_append_held (v := y) hx hlt (hE.inv y)
    have hadd : RepObj.add cap x y = .ok (.noErrors, ⟨x.len + 1, x.data.set x.len y⟩) := by
      unfold RepObj.add
      rw [if_pos hlt, arrayGet_of_lt hlt', Res.ok_bind, hE.assign, Res.ok_bind,
        arraySet_of_lt hlt', Res.ok_bind, u32_of_lt (by omega)]
      rfl
    have := ih k' y b' rest ⟨x.len + 1, x.data.set x.len y⟩ a1 hb' (by rw [a2, hst]; rfl) hk'
    rw [a2] at this
    simp only [RepObj.deserializePackedLoop, ↓reduceIte, hadd, Res.ok_bind]
    exact this

theorem rep_packed_bodyParse {E : FieldClass} {S : ClassSpec E V} {read : Reader V}
    (hE : PackedRead E S read) (hc : cap < 2147483648) :
    BodyParse (repeatedClass E cap) (repHeldSpec S cap) (fun _ bs u => parseScalars read bs u) := by
  intro β _ K fuel b bs x hx hb hf
  show Parse.Holds K _ _ (parseScalars read bs _) (RepObj.deserialize cap fuel b x)
  unfold RepObj.deserialize
  rw [hE.packed, if_pos rfl]
  unfold RepObj.deserializePacked
  -- the elements, in a section of any length
  have key : ∀ (b' : β) (rest : List Byte) (n : Nat), K.At b' rest → n < 4294967296 →
      rest.length ≤ bs.length →
      (window true n rest fun _ w => parsePacked read w
        ((repHeldSpec S cap).abs x).1 ((repHeldSpec S cap).abs x).2).Holds K bs.length
        (Good (repHeldSpec S cap)) (do
          let (e, s, v) ← E.deserialize fuel (Section.new b' n) E.init
          let (e, s, x) ← RepObj.deserializePackedLoop cap fuel fuel e v s x
          if e = .endOfBuffer then pure (.noErrors, s.buffer, x) else pure (e, s.buffer, x)) := by
    intro b' rest n hb' hn hle
    obtain ⟨L, h1, _, h3⟩ := K.section n hb' hn
    have := packedLoop_parse hE hc L fuel _ fuel E.init (Section.new b' n) (rest.take n) x hx h1 rfl
      (by rw [List.length_take]; omega)
    unfold window
    dsimp only
    cases hp : parsePacked read (rest.take n) ((repHeldSpec S cap).abs x).1
        ((repHeldSpec S cap).abs x).2 with
    | ok v r =>
      rw [hp] at this
      refine Res.Post_bind.mpr ((Res.Post_bind.mp this).mono ?_)
      rintro ⟨e, t, v⟩ h
      refine Res.Post_bind.mpr (Res.Post.mono h ?_)
      rintro ⟨e, t, y⟩ ⟨q1, q2, q3⟩
      dsimp only at q1 q2 q3 ⊢
      rw [if_pos q1]
      exact ⟨rfl, h3 t q2, by simp; omega, q3⟩
    | fail e v =>
      rw [hp] at this
      refine Res.Post_bind.mpr ((Res.Post_bind.mp this).mono ?_)
      rintro ⟨e, t, v⟩ h
      refine Res.Post_bind.mpr (Res.Post.mono h ?_)
      rintro ⟨e, t, y⟩ ⟨q1, q2, q3, q4⟩
      dsimp only at q1 q2 q3 q4 ⊢
      rw [if_neg (by rw [q1]; exact q3)]
      exact ⟨q1, q2, q4⟩
    | overrun => trivial
  unfold parseScalars
  rcases K.len_cases hb with ⟨e, b', rest, h1, h2, h3, h4, h5⟩ | ⟨n, b', rest, h1, h2, h3, h4, h5⟩
  · rw [h1, h3, Res.ok_bind]
    exact key b' rest 0 h4 (by omega) h5
  · rw [h1, h3, Res.ok_bind]
    exact key b' rest n.toNat h4 h2 (by omega)

/-- The places left of an array with places left. -/
theorem rep_next_held {E : FieldClass} {S : ClassSpec E V} {x : RepObj E.State} {g : V} {gs : List V}
    (hx : (repHeldSpec S cap).Inv x) (hu : ((repHeldSpec S cap).abs x).2 = g :: gs) :
    x.len < cap ∧ ∃ d, arrayGet x.data x.len = .ok d ∧ S.Inv d ∧ S.abs d = g := by
  obtain ⟨h1, h2, h3⟩ := id hx
  have hl : x.len < cap := by
    have := rep_stale_held hx
    rw [hu] at this
    simp at this
    omega
  have hlt : x.len < x.data.length := by
    have : (RepObj.data x).length = cap := h1
    omega
  refine ⟨hl, x.data[x.len], arrayGet_of_lt hlt, h3 _ (List.getElem_mem hlt), ?_⟩
  have : List.map S.abs (List.drop (RepObj.len x) (RepObj.data x)) = g :: gs := hu
  rw [List.drop_eq_getElem_cons hlt, List.map_cons] at this
  exact (List.cons.inj this).1

theorem rep_full_held {E : FieldClass} {S : ClassSpec E V} {x : RepObj E.State}
    (hx : (repHeldSpec S cap).Inv x) (hu : ((repHeldSpec S cap).abs x).2 = []) : ¬ cap > x.len := by
  have := rep_stale_held hx
  rw [hu] at this
  simp at this
  omega

theorem rep_str_bodyParse (m : Nat) (hm : m < 2147483648) (hc : cap < 2147483648) :
    BodyParse (repeatedClass (strClass m) cap) (repHeldSpec (strSpec m) cap)
      (fun _ bs u => parseElem false (fun bs u => parseStr m bs u) bs u) := by
  intro β _ K fuel b bs x hx hb hf
  show Parse.Holds K _ _ (parseElem false _ bs _) (RepObj.deserialize cap fuel b x)
  unfold RepObj.deserialize
  rw [show (strClass m).isPacked = false from rfl, if_neg (by simp)]
  unfold RepObj.deserializeUnpacked parseElem
  cases hu : ((repHeldSpec (strSpec m) cap).abs x).2 with
  | nil =>
    dsimp only
    rw [if_neg (rep_full_held hx hu)]
    exact ⟨rfl, by simp, hx, rfl⟩
  | cons g gs =>
    obtain ⟨hl, d, hd, hdi, hda⟩ := rep_next_held hx hu
    dsimp only
    rw [if_pos hl, if_neg (by simp [strClass]), deserializeElem_eq hc fuel x d hd hl hx.1]
    subst hda
    refine (str_bodyParse m hm β K fuel b bs d hdi hb hf).map
      (g := fun v => ⟨x.len + 1, x.data.set x.len v⟩) (fun _ => rfl) (Nat.le_refl _) ?_
    rintro y v ⟨hy, rfl⟩
    obtain ⟨a1, a2⟩ := rep_append_held (cap := cap) hx hl hy
    exact ⟨a1, by rw [a2, hu]; rfl⟩

theorem rep_msg_bodyParse {n : Nat} {F : FieldsClass} {O : OneofsClass} {S : ClassSpec (messageClass n F O) V}
    {P : Bool → List Byte → V → Parse V} (h : BodyParse (messageClass n F O) S P)
    (hend : ∀ c w u v rest, P c w u = .ok v rest → rest = []) (hc : cap < 2147483648) :
    BodyParse (repeatedClass (messageClass n F O) cap) (repHeldSpec S cap)
      (fun c bs u => parseElem true (fun bs u => match readLen bs with
        | (.error e, _) => .fail e u
        | (.ok n, rest) => window c n rest fun c w => P c w u) bs u) := by
  intro β _ K fuel b bs x hx hb hf
  show Parse.Holds K _ _ (parseElem true _ bs _) (RepObj.deserialize cap fuel b x)
  unfold RepObj.deserialize
  rw [show (messageClass n F O).isPacked = false from rfl, if_neg (by simp)]
  unfold RepObj.deserializeUnpacked parseElem
  cases hu : ((repHeldSpec S cap).abs x).2 with
  | nil =>
    dsimp only
    rw [if_neg (rep_full_held hx hu)]
    exact ⟨rfl, by simp, hx, rfl⟩
  | cons g gs =>
    obtain ⟨hl, d, hd, hdi, hda⟩ := rep_next_held hx hu
    dsimp only
    rw [if_pos hl, if_pos (show (messageClass n F O).kind = .message from rfl)]
    subst hda
    rcases K.len_cases hb with ⟨e, b', rest, h1, h2, h3, h4, h5⟩ | ⟨m, b', rest, h1, h2, h3, h4, h5⟩
    · rw [h1, h3, Res.ok_bind]
      exact ⟨rfl, h2, hx, rfl⟩
    · rw [h1, h3, Res.ok_bind]
      dsimp only
      rw [deserializeElem_eq hc fuel x d hd hl hx.1]
      have hw := window_holds K (N := bs.length) (Good := Good S) (f := fun c w => P c w (S.abs d))
        (op := fun s => (messageClass n F O).deserialize fuel s d) h4 h2 (by omega)
        (fun c w v rest hp => hend c w _ v rest hp) (fun L hL => h _ L fuel _ _ d hdi hL (by
          rw [List.length_take]; omega))
      have := hw.map (f := fun y => (((repHeldSpec S cap).abs x).1 ++ [y], gs))
        (g := fun v => (⟨x.len + 1, x.data.set x.len v⟩ : RepObj _))
        (Good' := Good (repHeldSpec S cap)) (k := fun q => .ok (q.1, q.2.1, ⟨x.len + 1, x.data.set x.len q.2.2⟩))
        (fun _ => rfl) (Nat.le_refl _) (by
          rintro y v ⟨hy, rfl⟩
          obtain ⟨a1, a2⟩ := rep_append_held (cap := cap) hx hl hy
          exact ⟨a1, by rw [a2, hu]; rfl⟩)
      rw [bind_assoc] at this
      rw [bind_assoc]
      exact this

end Repeated

/-! ## Fields -/

/-- What the fields of a message hold; other presence bits are unchanged. -/
def FieldsGood {F : FieldsClass} (S : FieldsSpec F V) (lo hi n : Nat) (p : Presence)
    (x : Presence × F.State) (v : V) : Prop :=
  Presence.WF n x.1 ∧ (∀ j, ¬ (lo ≤ j ∧ j < hi) → x.1.bit j = p.bit j) ∧ S.Inv x.1.bit x.2 ∧
    S.abs x.1.bit x.2 = v

structure FieldsParse (F : FieldsClass) (S : FieldsSpec F V) (lo hi n : Nat)
    (P : Bool → Nat → WireType → List Byte → V → Option (Parse V)) : Prop where
  none : ∀ (β : Type) [ReadBuffer β] (c : Bool) (fuel id : Nat) (wt : WireType) (b : β) (bs : List Byte)
    (p : Presence) (s : F.State), P c id wt bs (S.abs p.bit s) = none →
    F.dispatch fuel id wt b p s = none
  some : ∀ (β : Type) [ReadBuffer β] (K : Cursor β) (fuel id : Nat) (wt : WireType) (b : β)
    (bs : List Byte) (p : Presence) (s : F.State) (q : Parse V), Presence.WF n p → S.Inv p.bit s →
    K.At b bs → bs.length < fuel → P K.clip id wt bs (S.abs p.bit s) = some q →
    ∃ r, F.dispatch fuel id wt b p s = some r ∧ q.Holds K bs.length (FieldsGood S lo hi n p) r

theorem fieldsParse_nil (lo n : Nat) : FieldsParse .nil .nil lo lo n (fun _ _ _ _ _ => none) where
  none _ _ _ _ _ _ _ _ _ _ _ := rfl
  some _ _ _ _ _ _ _ _ _ _ _ _ _ _ _ h := nomatch h

theorem fieldsParse_plain {C : FieldClass} {F : FieldsClass} {S : ClassSpec C V} {R : FieldsSpec F W}
    {lo hi n num : Nat} {P : Bool → WireType → List Byte → V → Parse V}
    {Q : Bool → Nat → WireType → List Byte → W → Option (Parse W)} (h₁ : CheckParse C S P)
    (h₂ : FieldsParse F R lo hi n Q) :
    FieldsParse (.plain num C F) (.plain num S R) lo hi n (fun c id wt bs u =>
      if id = num then some ((P c wt bs u.1).map fun y => (y, u.2))
      else (Q c id wt bs u.2).map (Parse.map fun v => (u.1, v))) where
  none β _ c fuel id wt b bs p s h := by
    by_cases he : id = num
    · rw [if_pos he] at h; exact nomatch h
    · rw [if_neg he] at h
      simp only [FieldsClass.plain, he, ↓reduceIte,
        h₂.none β c fuel id wt b bs p s.2 (Option.map_eq_none_iff.mp h)]
  some β _ K fuel id wt b bs p s q hp hi hb hf h := by
    by_cases he : id = num
    · rw [if_pos he] at h
      injection h with h
      subst h
      simp only [FieldsClass.plain, he, ↓reduceIte]
      refine ⟨_, rfl, (h₁ β K fuel b bs wt s.1 hi.1 hb hf).map (g := fun x => (p, (x, s.2)))
        (fun _ => rfl) (Nat.le_refl _) ?_⟩
      rintro x v ⟨hx, rfl⟩
      exact ⟨hp, fun _ _ => rfl, ⟨hx, hi.2⟩, rfl⟩
    · rw [if_neg he] at h
      obtain ⟨q', hq, rfl⟩ := Option.map_eq_some_iff.mp h
      obtain ⟨r, hr, hpost⟩ := h₂.some β K fuel id wt b bs p s.2 q' hp hi.2 hb hf hq
      simp only [FieldsClass.plain, he, ↓reduceIte, hr]
      refine ⟨_, rfl, hpost.map (g := fun x => (x.1, (s.1, x.2))) (fun _ => rfl) (Nat.le_refl _) ?_⟩
      rintro ⟨p', t⟩ v ⟨q1, q2, q3, rfl⟩
      exact ⟨q1, q2, ⟨hi.1, q3⟩, rfl⟩

theorem fieldsParse_optional {C : FieldClass} {F : FieldsClass} {S : ClassSpec C V} {R : FieldsSpec F W}
    {idx hi n num : Nat} {P : Bool → WireType → List Byte → V → Parse V}
    {Q : Bool → Nat → WireType → List Byte → W → Option (Parse W)} {d : V} {e : W} (hn : hi ≤ n)
    (hb₁ : InitLaw C S d) (hb₂ : FieldsInit F R (idx + 1) hi n e) (h₁ : CheckParse C S P)
    (h₂ : FieldsParse F R (idx + 1) hi n Q) :
    FieldsParse (.optional num idx C F) (.optional num idx S R) idx hi n (fun c id wt bs u =>
      if id = num then some ((P c wt bs (u.1.getD d)).map fun y => (some y, u.2))
      else (Q c id wt bs u.2).map (Parse.map fun v => (u.1, v))) where
  none β _ c fuel id wt b bs p s h := by
    by_cases he : id = num
    · rw [if_pos he] at h; exact nomatch h
    · rw [if_neg he] at h
      simp only [FieldsClass.optional, he, ↓reduceIte,
        h₂.none β c fuel id wt b bs p s.2 (Option.map_eq_none_iff.mp h)]
  some β _ K fuel id wt b bs p s q hp hi' hb hf h := by
    have hlo := hb₂.lo_le
    have hin : idx < n := by omega
    by_cases he : id = num
    · rw [if_pos he] at h
      injection h with h
      subst h
      obtain ⟨p₁, hc₁, hw₁, hb₁'⟩ := Presence.setBit_eq (i := idx) hp hin
      simp only [FieldsClass.optional, he, ↓reduceIte, hc₁, Res.ok_bind]
      have hold : ((FieldsSpec.optional num idx S R).abs p.bit s).1.getD d = S.abs s.1 := by
        show (if p.bit idx then _ else _ : Option V).getD d = _
        cases hbit : p.bit idx
        · have := hi'.1.2 hbit
          rw [this, hb₁.init_abs]; rfl
        · rfl
      rw [hold]
      refine ⟨_, rfl, (h₁ β K fuel b bs wt s.1 hi'.1.1 hb hf).map (g := fun x => (p₁, (x, s.2)))
        (fun _ => rfl) (Nat.le_refl _) ?_⟩
      rintro x v ⟨hx, rfl⟩
      have hcg := hb₂.congr p.bit p₁.bit s.2 (by
        intro i h1 h2; rw [hb₁']; simp; omega)
      have hbi : p₁.bit idx = true := by rw [hb₁']; simp
      refine ⟨hw₁, ?_, ⟨⟨hx, by simp [hbi]⟩, hcg.2 hi'.2⟩, ?_⟩
      · intro j hj
        show p₁.bit j = _
        rw [hb₁']; simp; omega
      · show (if p₁.bit idx then _ else _, R.abs p₁.bit s.2) = (Option.some _, R.abs p.bit s.2)
        rw [hbi, ← hcg.1]; rfl
    · rw [if_neg he] at h
      obtain ⟨q', hq, rfl⟩ := Option.map_eq_some_iff.mp h
      obtain ⟨r, hr, hpost⟩ := h₂.some β K fuel id wt b bs p s.2 q' hp hi'.2 hb hf hq
      simp only [FieldsClass.optional, he, ↓reduceIte, hr]
      refine ⟨_, rfl, hpost.map (g := fun x => (x.1, (s.1, x.2))) (fun _ => rfl) (Nat.le_refl _) ?_⟩
      rintro ⟨p', t⟩ v ⟨q1, q2, q3, q4⟩
      dsimp only at q1 q2 q3 q4
      have hbi : p'.bit idx = p.bit idx := q2 idx (by omega)
      refine ⟨q1, fun j hj => q2 j (by omega), ⟨⟨hi'.1.1, ?_⟩, q3⟩, ?_⟩
      · show p'.bit idx = _ → _
        rw [hbi]; exact hi'.1.2
      · show (if p'.bit idx then _ else _, R.abs p'.bit t) = (if p.bit idx then _ else _, v)
        rw [hbi, q4]

/-! ## Oneofs -/

/-- What the union of a oneof holds. -/
def AltsGood {A : AltsClass} (S : AltsSpec A V) (id : Nat) (x : Option A.U) (v : V) : Prop :=
  ∃ z, x = some z ∧ S.num z = id ∧ S.Inv z ∧ S.abs z = v

structure AltsParse (A : AltsClass) (S : AltsSpec A V) (nums : List Nat)
    (P : Bool → Nat → WireType → List Byte → Option V → Option (Parse V)) : Prop where
  none : ∀ c id wt bs u, P c id wt bs u = none → id ∉ nums
  mem : ∀ c id wt bs u q, P c id wt bs u = some q → id ∈ nums
  some : ∀ (β : Type) [ReadBuffer β] (K : Cursor β) (fuel id : Nat) (wt : WireType) (b : β)
    (bs : List Byte) (u : A.U) (o : Option A.U) (q : Parse V), S.num u = id → S.Inv u →
    (o = Option.some u ∨ (A.construct id Option.none = Option.some u ∧
      ∀ u', o = Option.some u' → S.num u' ≠ id)) →
    K.At b bs → bs.length < fuel → P K.clip id wt bs (o.map S.abs) = some q →
    q.Holds K bs.length (AltsGood S id) (A.deserialize fuel id b wt (some u))

theorem altsParse_nil : AltsParse .nil .nil [] (fun _ _ _ _ _ => none) where
  none _ _ _ _ _ _ := List.not_mem_nil
  mem _ _ _ _ _ _ h := nomatch h
  some _ _ _ _ _ _ _ _ u := nomatch u

theorem altsParse_cons {C : FieldClass} {A : AltsClass} {S : ClassSpec C V} {R : AltsSpec A W}
    {num : Nat} {nums : List Nat} {P : Bool → WireType → List Byte → V → Parse V}
    {Q : Bool → Nat → WireType → List Byte → Option W → Option (Parse W)} {d : V} (hnum : num ∉ nums)
    (hb₁ : InitLaw C S d) (hb₂ : AltsInit A R nums) (h₁ : CheckParse C S P) (h₂ : AltsParse A R nums Q) :
    AltsParse (.cons num C A) (.cons num S R) (num :: nums) (fun c id wt bs u =>
      if id = num then some ((P c wt bs (leftD d u)).map Sum.inl)
      else (Q c id wt bs (rightOf u)).map (Parse.map Sum.inr)) where
  none c id wt bs u h := by
    by_cases he : id = num
    · rw [if_pos he] at h; exact nomatch h
    · rw [if_neg he] at h
      simp only [List.mem_cons, not_or]
      exact ⟨he, h₂.none _ _ _ _ _ (Option.map_eq_none_iff.mp h)⟩
  mem c id wt bs u q h := by
    by_cases he : id = num
    · rw [he]; exact List.mem_cons_self
    · rw [if_neg he] at h
      obtain ⟨q', hq, _⟩ := Option.map_eq_some_iff.mp h
      exact List.mem_cons_of_mem _ (h₂.mem _ _ _ _ _ _ hq)
  some β _ K fuel id wt b bs u o q hid hu ho hb hf h := by
    by_cases he : id = num
    · rw [if_pos he] at h
      injection h with h
      subst h
      subst he
      cases u with
      | inr u =>
        have : R.num u = id := hid
        exact absurd (this ▸ hb₂.num_mem u) hnum
      | inl x =>
        have hold : leftD d (o.map (AltsSpec.cons id S R).abs) = S.abs x := by
          rcases ho with rfl | ⟨hcon, hno⟩
          · rfl
          · have hx : x = C.init := by
              simp only [AltsClass.cons, ↓reduceIte] at hcon
              injection hcon with hcon
              injection hcon with hcon
              exact hcon.symm
            rw [hx, hb₁.init_abs]
            cases o with
            | none => rfl
            | some u' =>
              cases u' with
              | inl z => exact absurd rfl (hno _ rfl)
              | inr z => rfl
        rw [hold]
        simp only [AltsClass.cons, ↓reduceIte, AltsClass.left?, AltsClass.access, Res.ok_bind]
        refine (h₁ β K fuel b bs wt x hu hb hf).map (g := fun x => some (.inl x)) (fun _ => rfl)
          (Nat.le_refl _) ?_
        rintro z v ⟨hz, rfl⟩
        exact ⟨.inl z, rfl, rfl, hz, rfl⟩
    · rw [if_neg he] at h
      obtain ⟨q', hq, rfl⟩ := Option.map_eq_some_iff.mp h
      cases u with
      | inl x => exact absurd hid.symm he
      | inr u =>
        have hold : rightOf (o.map (AltsSpec.cons num S R).abs) = (AltsClass.right? o).map R.abs := by
          cases o with
          | none => rfl
          | some z => cases z <;> rfl
        rw [hold] at hq
        simp only [AltsClass.cons, he, ↓reduceIte, AltsClass.right?]
        refine (h₂.some β K fuel id wt b bs u (AltsClass.right? o) q' hid hu ?_ hb hf hq).map
          (g := AltsClass.inr?) (fun _ => rfl) (Nat.le_refl _) ?_
        · rcases ho with rfl | ⟨hcon, hno⟩
          · exact Or.inl rfl
          · right
            refine ⟨?_, ?_⟩
            · simp only [AltsClass.cons, he, ↓reduceIte] at hcon
              change AltsClass.inr? (A.construct id none) = _ at hcon
              cases hc : A.construct id none with
              | none => rw [hc] at hcon; exact nomatch hcon
              | some z =>
                rw [hc] at hcon
                injection hcon with hcon
                injection hcon with hcon
                rw [hcon]
            · intro u' hu'
              cases o with
              | none => exact nomatch hu'
              | some z =>
                cases z with
                | inl z => exact nomatch hu'
                | inr z =>
                  injection hu' with hu'
                  subst hu'
                  exact hno _ rfl
        · rintro z v ⟨z', rfl, q1, q2, rfl⟩
          exact ⟨.inr z', rfl, q1, q2, rfl⟩

/-- `deserialize_x` of a oneof. -/
theorem deserializeObj_parse {A : AltsClass} {S : AltsSpec A V} {nums : List Nat}
    {P : Bool → Nat → WireType → List Byte → Option V → Option (Parse V)} (hbase : AltsInit A S nums)
    (h0 : 0 ∉ nums) (hp : AltsParse A S nums P) {β : Type} [ReadBuffer β] (K : Cursor β)
    (fuel id : Nat) (wt : WireType) (b : β) (bs : List Byte) (o : OneofObj A.U) (q : Parse V)
    (ho : S.ObjInv o) (hb : K.At b bs) (hf : bs.length < fuel)
    (h : P K.clip id wt bs (o.live.map S.abs) = some q) :
    (match q with
      | .ok y bs => .ok (some y) bs
      | .fail e _ => .fail e none
      | .overrun => .overrun : Parse (Option V)).Holds K bs.length
      (fun o v => S.ObjInv o ∧ o.live.map S.abs = v) (A.deserializeObj fuel id b wt o) := by
  obtain ⟨u, hu0, hu1, hu2, hu3⟩ := activate_eq hbase h0 o ho id (hp.mem _ _ _ _ _ _ h)
  have := hp.some β K fuel id wt b bs u o.live q hu1 hu2 (by
    rcases hu3 with ⟨_, hl⟩ | ⟨hw, hcon, _⟩
    · exact Or.inl hl
    · refine Or.inr ⟨hcon, ?_⟩
      intro u' hu' hn
      unfold AltsSpec.ObjInv at ho
      rw [hu'] at ho
      exact hw (ho.1.trans hn)) hb hf h
  unfold AltsClass.deserializeObj
  rw [hu0, Res.ok_bind]
  cases q with
  | ok v rest =>
    refine Res.Post_bind.mpr (Res.Post.mono this ?_)
    rintro ⟨e, b', r⟩ ⟨q1, q2, q3, z, hz, q4, q5, q6⟩
    dsimp only at q1 q2 q3 hz
    subst q1
    subst hz
    simp only [ne_eq, not_true_eq_false, ↓reduceIte]
    exact ⟨rfl, q2, q3, ⟨q4.symm, q5⟩, congrArg some q6⟩
  | fail e v =>
    refine Res.Post_bind.mpr (Res.Post.mono this ?_)
    rintro ⟨e', b', r⟩ ⟨q1, q2, z, hz, q4, q5, q6⟩
    dsimp only at q1 hz
    subst q1
    subst hz
    dsimp only
    rw [if_pos q2, clearObj_eq hbase h0 _ (show S.ObjInv ⟨id, some z⟩ from ⟨q4.symm, q5⟩), Res.ok_bind]
    exact ⟨rfl, q2, rfl, rfl⟩
  | overrun => trivial

/-- What the oneofs of a message hold. -/
def OneofsGood {O : OneofsClass} (S : OneofsSpec O V) (x : O.State) (v : V) : Prop :=
  S.Inv x ∧ S.abs x = v

structure OneofsParse (O : OneofsClass) (S : OneofsSpec O V)
    (P : Bool → Nat → WireType → List Byte → V → Option (Parse V)) : Prop where
  none : ∀ (β : Type) [ReadBuffer β] (c : Bool) (fuel id : Nat) (wt : WireType) (b : β) (bs : List Byte)
    (s : O.State), P c id wt bs (S.abs s) = none → O.dispatch fuel id wt b s = none
  some : ∀ (β : Type) [ReadBuffer β] (K : Cursor β) (fuel id : Nat) (wt : WireType) (b : β)
    (bs : List Byte) (s : O.State) (q : Parse V), S.Inv s → K.At b bs → bs.length < fuel →
    P K.clip id wt bs (S.abs s) = some q →
    ∃ r, O.dispatch fuel id wt b s = some r ∧ q.Holds K bs.length (OneofsGood S) r

theorem oneofsParse_nil : OneofsParse .nil .nil (fun _ _ _ _ _ => none) where
  none _ _ _ _ _ _ _ _ _ _ := rfl
  some _ _ _ _ _ _ _ _ _ _ _ _ _ h := nomatch h

/-- The record of a member of the first oneof or of another. -/
def consParse (P : Bool → Nat → WireType → List Byte → Option V → Option (Parse V))
    (Q : Bool → Nat → WireType → List Byte → W → Option (Parse W)) (c : Bool) (id : Nat) (wt : WireType)
    (bs : List Byte) (u : Option V × W) : Option (Parse (Option V × W)) :=
  match P c id wt bs u.1 with
  | some (.ok y bs) => some (.ok (some y, u.2) bs)
  | some (.fail e _) => some (.fail e (none, u.2))
  | some .overrun => some .overrun
  | none => (Q c id wt bs u.2).map (Parse.map fun v => (u.1, v))

theorem oneofsParse_cons {A : AltsClass} {O : OneofsClass} {S : AltsSpec A V} {R : OneofsSpec O W}
    {nums : List Nat} {P : Bool → Nat → WireType → List Byte → Option V → Option (Parse V)}
    {Q : Bool → Nat → WireType → List Byte → W → Option (Parse W)} (h0 : 0 ∉ nums)
    (hb₁ : AltsInit A S nums) (h₁ : AltsParse A S nums P) (h₂ : OneofsParse O R Q) :
    OneofsParse (.cons A O) (.cons S R) (consParse P Q) where
  none β _ c fuel id wt b bs s h := by
    change (match P c id wt bs (s.1.live.map S.abs) with
      | some (.ok y bs) => some (Parse.ok (some y, R.abs s.2) bs)
      | some (.fail e _) => some (.fail e (none, R.abs s.2))
      | some .overrun => some .overrun
      | none => (Q c id wt bs (R.abs s.2)).map (Parse.map fun v => (s.1.live.map S.abs, v))) = none at h
    cases hp : P c id wt bs (s.1.live.map S.abs) with
    | some q => rw [hp] at h; cases q <;> exact nomatch h
    | none =>
      rw [hp] at h
      have hn := h₁.none _ _ _ _ _ hp
      simp only [OneofsClass.cons, hb₁.hasCase, decide_eq_false hn, Bool.false_eq_true, ↓reduceIte,
        h₂.none β c fuel id wt b bs s.2 (Option.map_eq_none_iff.mp h)]
  some β _ K fuel id wt b bs s q hi hb hf h := by
    change (match P K.clip id wt bs (s.1.live.map S.abs) with
      | some (.ok y bs) => some (Parse.ok (some y, R.abs s.2) bs)
      | some (.fail e _) => some (.fail e (none, R.abs s.2))
      | some .overrun => some .overrun
      | none => (Q K.clip id wt bs (R.abs s.2)).map (Parse.map fun v => (s.1.live.map S.abs, v))) =
      some q at h
    cases hp : P K.clip id wt bs (s.1.live.map S.abs) with
    | some q' =>
      rw [hp] at h
      have hm := h₁.mem _ _ _ _ _ _ hp
      simp only [OneofsClass.cons, hb₁.hasCase, decide_eq_true hm, ↓reduceIte]
      refine ⟨_, rfl, ?_⟩
      have := (deserializeObj_parse hb₁ h0 h₁ K fuel id wt b bs s.1 q' hi.1 hb hf hp).map
        (f := fun v => (v, R.abs s.2)) (g := fun o => (o, s.2)) (Good' := OneofsGood (.cons S R))
        (k := fun q => .ok (q.1, q.2.1, (q.2.2, s.2))) (fun _ => rfl) (Nat.le_refl _) (by
          rintro o v ⟨g1, rfl⟩
          exact ⟨⟨g1, hi.2⟩, rfl⟩)
      cases q' <;> (injection h with h; subst h; exact this)
    | none =>
      rw [hp] at h
      have hn := h₁.none _ _ _ _ _ hp
      obtain ⟨q', hq, rfl⟩ := Option.map_eq_some_iff.mp h
      obtain ⟨r, hr, hpost⟩ := h₂.some β K fuel id wt b bs s.2 q' hi.2 hb hf hq
      simp only [OneofsClass.cons, hb₁.hasCase, decide_eq_false hn, Bool.false_eq_true, ↓reduceIte, hr]
      refine ⟨_, rfl, hpost.map (g := fun t => (s.1, t)) (fun _ => rfl) (Nat.le_refl _) ?_⟩
      rintro t v ⟨g1, rfl⟩
      exact ⟨⟨hi.1, g1⟩, rfl⟩

/-! ## Unknown fields -/

theorem skip_parse {β : Type} [ReadBuffer β] (K : Cursor β) (wt : WireType) (b : β) (bs : List Byte)
    (hb : K.At b bs) :
    match skipField K.clip wt bs with
    | .ok _ rest => (skipUnknownField b wt).Post fun q => q.1 = .noErrors ∧ K.At q.2 rest ∧
        rest.length ≤ bs.length
    | .fail e _ => (skipUnknownField b wt).Post fun q => q.1 = e ∧ e ≠ .noErrors
    | .overrun => True := by
  have hread : ∀ {α γ : Type} (rd : Reader α) (f : α → γ) (op : Res (Except Error γ × β)), ReaderLaw rd →
      K.Reads op (rd.map f bs) →
      match (match rd bs with
        | (.ok _, rest) => .ok () rest
        | (.error e, _) => .fail e () : Parse Unit) with
      | .ok _ rest => (do let (r, b) ← op; pure (errOf r, b) : Res (Error × β)).Post fun q =>
          q.1 = .noErrors ∧ K.At q.2 rest ∧ rest.length ≤ bs.length
      | .fail e _ => (do let (r, b) ← op; pure (errOf r, b) : Res (Error × β)).Post fun q =>
          q.1 = e ∧ e ≠ .noErrors
      | .overrun => True := by
    intro α γ rd f op hlaw h
    have hl := hlaw.le bs
    have hne := fun e => hlaw.error_ne bs (e := e)
    obtain ⟨⟨p, b'⟩, h0, h1, h2⟩ := h.exists
    rw [h0, Res.ok_bind]
    unfold Reader.map at h1 h2
    generalize rd bs = r at h1 h2 hl hne
    obtain ⟨r, rest⟩ := r
    cases r with
    | ok v => dsimp only at h1 h2; subst h1; exact ⟨rfl, h2, hl⟩
    | error e => dsimp only at h1 h2; subst h1; exact ⟨rfl, hne e rfl⟩
  cases wt with
  | varint => exact hread (readVarint 10) _ _ (readVarint_law 10) (Cursor.varint 64 (by decide) hb)
  | fixed64 => exact hread (readFixed 8) _ _ (readFixed_law 8 (by decide)) (Cursor.fixed 64 hb)
  | fixed32 => exact hread (readFixed 4) _ _ (readFixed_law 4 (by decide)) (Cursor.fixed 32 hb)
  | startGroup => exact ⟨rfl, hb, Nat.le_refl _⟩
  | endGroup => exact ⟨rfl, hb, Nat.le_refl _⟩
  | lengthDelimited =>
    show match (match readLen bs with
      | (.error e, _) => .fail e ()
      | (.ok n, rest) => if n ≤ rest.length ∨ K.clip = true then .ok () (rest.drop n) else .overrun :
        Parse Unit) with
      | .ok _ rest => (skipLengthDelimited b).Post fun q => q.1 = .noErrors ∧ K.At q.2 rest ∧
          rest.length ≤ bs.length
      | .fail e _ => (skipLengthDelimited b).Post fun q => q.1 = e ∧ e ≠ .noErrors
      | .overrun => True
    unfold skipLengthDelimited
    rcases K.len_cases hb with ⟨e, b', rest, h1, h2, h3, h4, h5⟩ | ⟨n, b', rest, h1, h2, h3, h4, h5⟩
    · rw [h1, h3, Res.ok_bind]
      exact ⟨rfl, h2⟩
    · rw [h1, h3, Res.ok_bind]
      dsimp only
      by_cases hn : n.toNat ≤ rest.length
      · rw [if_pos (Or.inl hn)]
        obtain ⟨r, b'', e, h6⟩ := K.advance_le b' rest n.toNat h4 hn
        rw [e]
        exact ⟨rfl, h6, by simp; omega⟩
      · by_cases hc : K.clip = true
        · rw [if_pos (Or.inr hc)]
          obtain ⟨r, b'', e, h6⟩ := K.advance_gt hc b' rest n.toNat h4 (by omega) h2
          rw [e]
          refine ⟨rfl, ?_, by simp; omega⟩
          rw [List.drop_of_length_le (by omega)]
          exact h6
        · rw [if_neg (by simp [hn, hc])]
          trivial

/-! ## Messages -/

section Msg
variable {F : FieldsClass} {O : OneofsClass} {S : FieldsSpec F V} {R : OneofsSpec O W} {n : Nat}
  {P : Bool → Nat → WireType → List Byte → V → Option (Parse V)}
  {Q : Bool → Nat → WireType → List Byte → W → Option (Parse W)}

/-- One record. -/
def stepParse (P : Bool → Nat → WireType → List Byte → V → Option (Parse V))
    (Q : Bool → Nat → WireType → List Byte → W → Option (Parse W)) (c : Bool) (num : Nat) (wt : WireType)
    (bs : List Byte) (u : V × W) : Parse (V × W) :=
  match P c num wt bs u.1 with
  | some r => r.map fun v => (v, u.2)
  | none =>
    match Q c num wt bs u.2 with
    | some r => r.map fun v => (u.1, v)
    | none => if num = 0 then .fail .invalidFieldId u else (skipField c wt bs).map fun _ => u

theorem step_parse (h₁ : FieldsParse F S 0 n n P) (h₂ : OneofsParse O R Q) {β : Type} [ReadBuffer β]
    (K : Cursor β) (fuel id : Nat) (wt : WireType) (b : β) (bs : List Byte) (m : MsgObj F.State O.State)
    (hi : (msgSpec n S R).Inv m) (hb : K.At b bs) (hf : bs.length < fuel) :
    (stepParse P Q K.clip id wt bs ((msgSpec n S R).abs m)).Holds K bs.length (Good (msgSpec n S R))
      (MsgObj.step F O fuel id wt b m) := by
  obtain ⟨hi1, hi2, hi3⟩ := hi
  unfold stepParse MsgObj.step
  cases hp : P K.clip id wt bs ((msgSpec n S R).abs m).1 with
  | some q =>
    obtain ⟨r, hr, hpost⟩ := h₁.some β K fuel id wt b bs m.presence m.fields q hi1 hi2 hb hf hp
    rw [hr]
    refine hpost.map (g := fun x => { m with presence := x.1, fields := x.2 }) (fun _ => rfl)
      (Nat.le_refl _) ?_
    rintro ⟨p', s'⟩ v ⟨q1, q2, q3, q4⟩
    exact ⟨⟨q1, q3, hi3⟩, Prod.ext q4 rfl⟩
  | none =>
    rw [h₁.none β K.clip fuel id wt b bs m.presence m.fields hp]
    cases hq : Q K.clip id wt bs ((msgSpec n S R).abs m).2 with
    | some q =>
      obtain ⟨r, hr, hpost⟩ := h₂.some β K fuel id wt b bs m.oneofs q hi3 hb hf hq
      rw [hr]
      refine hpost.map (g := fun x => { m with oneofs := x }) (fun _ => rfl) (Nat.le_refl _) ?_
      rintro s' v ⟨q3, q4⟩
      exact ⟨⟨hi1, hi2, q3⟩, Prod.ext rfl q4⟩
    | none =>
      rw [h₂.none β K.clip fuel id wt b bs m.oneofs hq]
      dsimp only
      by_cases h0 : id = 0
      · rw [if_pos h0, if_pos h0]
        exact ⟨rfl, by simp, ⟨hi1, hi2, hi3⟩, rfl⟩
      · rw [if_neg h0, if_neg h0]
        have := skip_parse K wt b bs hb
        cases hs : skipField K.clip wt bs with
        | ok v rest =>
          rw [hs] at this
          refine Res.Post_bind.mpr (Res.Post.mono this ?_)
          rintro ⟨e, b'⟩ ⟨q1, q2, q3⟩
          exact ⟨q1, q2, q3, ⟨hi1, hi2, hi3⟩, rfl⟩
        | fail e v =>
          rw [hs] at this
          refine Res.Post_bind.mpr (Res.Post.mono this ?_)
          rintro ⟨e, b'⟩ ⟨q1, q2⟩
          exact ⟨q1, q2, ⟨hi1, hi2, hi3⟩, rfl⟩
        | overrun => trivial

theorem readTag_law : ReaderLaw readTag := (readVarint_law 5).map _

theorem loop_parse (h₁ : FieldsParse F S 0 n n P) (h₂ : OneofsParse O R Q) {β : Type} [ReadBuffer β]
    (K : Cursor β) (fuel k k' : Nat) (b : β) (bs : List Byte) (m : MsgObj F.State O.State)
    (hi : (msgSpec n S R).Inv m) (hb : K.At b bs) (hf : bs.length < fuel) (hk : bs.length < k)
    (hk' : bs.length < k') :
    (parseLoop (stepParse P Q K.clip) k bs ((msgSpec n S R).abs m)).Holds K bs.length (Good (msgSpec n S R))
      (tagLoop (MsgObj.step F O fuel) k' b m) := by
  induction k generalizing k' b bs m with
  | zero => omega
  | succ k ih =>
    obtain ⟨k', rfl⟩ : ∃ j, k' = j + 1 := ⟨k' - 1, by omega⟩
    obtain ⟨⟨p, b'⟩, h0, h1, h2⟩ := (Cursor.tag hb).exists
    have hlt := readTag_law.lt bs
    have herr := readTag_law.error bs
    unfold parseLoop
    erw [tagLoop]
    rw [h0, Res.ok_bind]
    generalize readTag bs = r at h1 h2 hlt herr
    obtain ⟨r, rest⟩ := r
    dsimp only at h1 h2 hlt herr
    subst h2
    cases r with
    | error e =>
      rcases herr e rfl with ⟨rfl, rfl⟩ | rfl
      · exact ⟨rfl, h1, Nat.zero_le _, hi, rfl⟩
      · exact ⟨rfl, by simp, hi, rfl⟩
    | ok t =>
      obtain ⟨num, wt⟩ := t
      have hl := hlt _ rfl
      cases wt with
      | none => exact ⟨rfl, by simp, hi, rfl⟩
      | some wt =>
        dsimp only
        have := step_parse h₁ h₂ K fuel num wt b' rest m hi h1 (by omega)
        cases hs : stepParse P Q K.clip num wt rest ((msgSpec n S R).abs m) with
        | ok v rest' =>
          rw [hs] at this
          obtain ⟨⟨e, b'', m'⟩, g0, g1, g2, g3, g4, g5⟩ := Res.Post.exists this
          dsimp only at g1 g2 g3 g4 g5
          subst g1
          subst g5
          rw [g0, Res.ok_bind]
          dsimp only
          rw [if_pos rfl]
          have := ih k' b'' rest' m' g4 g2 (by omega) (by omega) (by omega)
          cases hq : parseLoop (stepParse P Q K.clip) k rest' ((msgSpec n S R).abs m') with
          | ok v r =>
            rw [hq] at this
            refine Res.Post.mono this ?_
            rintro q ⟨a1, a2, a3, a4⟩
            exact ⟨a1, a2, by omega, a4⟩
          | fail e v => rw [hq] at this; exact this
          | overrun => trivial
        | fail e v =>
          rw [hs] at this
          obtain ⟨⟨e', b'', m'⟩, g0, g1, g2, g3⟩ := Res.Post.exists this
          dsimp only at g1 g2 g3
          subst g1
          rw [g0, Res.ok_bind]
          dsimp only
          rw [if_neg g2]
          exact ⟨rfl, g2, g3⟩
        | overrun => trivial

theorem msg_bodyParse (h₁ : FieldsParse F S 0 n n P) (h₂ : OneofsParse O R Q) :
    BodyParse (messageClass n F O) (msgSpec n S R)
      (fun c bs u => parseLoop (stepParse P Q c) (bs.length + 1) bs u) := by
  intro β _ K fuel b bs m hi hb hf
  exact loop_parse h₁ h₂ K fuel (bs.length + 1) fuel b bs m hi hb hf (Nat.lt_succ_self _) hf

theorem msg_checkParse {T : ClassSpec (messageClass n F O) V} {P : Bool → List Byte → V → Parse V}
    (h : BodyParse (messageClass n F O) T P)
    (hend : ∀ c w u v rest, P c w u = .ok v rest → rest = []) :
    CheckParse (messageClass n F O) T (fun c wt bs u => expect .lengthDelimited wt u
      (match readLen bs with
        | (.error e, _) => .fail e u
        | (.ok n, rest) => window c n rest fun c w => P c w u)) := by
  intro β _ K fuel b bs wt x hx hb hf
  show Parse.Holds K _ _ (expect .lengthDelimited wt _ _) (MsgObj.deserializeCheckType F O fuel b wt x)
  unfold MsgObj.deserializeCheckType expect
  by_cases hw : wt = .lengthDelimited
  · rw [if_pos hw, if_pos hw]
    rcases K.len_cases hb with ⟨e, b', rest, h1, h2, h3, h4, h5⟩ | ⟨m, b', rest, h1, h2, h3, h4, h5⟩
    · rw [h1, h3, Res.ok_bind]
      exact ⟨rfl, h2, hx, rfl⟩
    · rw [h1, h3, Res.ok_bind]
      dsimp only
      exact window_holds K (N := bs.length) (Good := Good T) (f := fun c w => P c w (T.abs x))
        (op := fun s => (messageClass n F O).deserialize fuel s x) h4 h2 (by omega)
        (fun c w v rest hp => hend c w _ v rest hp) (fun L hL => h _ L fuel _ _ x hx hL (by
          rw [List.length_take]; omega))
  · rw [if_neg hw, if_neg hw]
    exact ⟨rfl, by simp, hx, rfl⟩

end Msg

/-! ## Declarations -/

theorem parseRecord_eq (fs : Fields) (os : Oneofs) : parseRecord fs os = stepParse fs.parse os.parse := by
  funext c num wt bs u
  unfold parseRecord stepParse
  cases fs.parse c num wt bs u.1 with
  | some r => rfl
  | none => cases os.parse c num wt bs u.2 <;> rfl

theorem oneofs_parse_eq (a : Alts) (rest : Oneofs) :
    (Oneofs.cons a rest).parse = consParse a.parse rest.parse := by
  funext c num wt bs u
  rw [Oneofs.parse]
  unfold consParse
  cases a.parse c num wt bs u.1 with
  | some r => cases r <;> rfl
  | none => rfl

/-- An element of an array, or all of them. -/
def ElemTy.parseRep (t : ElemTy) (c : Bool) (bs : List Byte) (u : List t.Held × List t.Held) :
    Parse (List t.Held × List t.Held) :=
  match t, u with
  | .scalar s, u => parseScalars s.read bs u
  | .str cap, u => parseElem false (fun bs u => parseStr cap bs u) bs u
  | .msg fs os, u => parseElem true (fun bs u => (ElemTy.msg fs os).parse c bs u) bs u

theorem fields_parse_repeated (n cap : Nat) (t : ElemTy) (rest : Fields) (c : Bool) (num : Nat)
    (wt : WireType) (bs : List Byte) (u : (Fields.repeated n cap t rest).Held) :
    (Fields.repeated n cap t rest).parse c num wt bs u =
      if num = n then
        some ((expect .lengthDelimited wt u.1 (t.parseRep c bs u.1)).map fun y => (y, u.2))
      else (rest.parse c num wt bs u.2).map (Parse.map fun v => (u.1, v)) := by
  cases t <;> rfl

theorem msg_parse_body {fs : Fields} {os : Oneofs}
    (hF : FieldsParse (fs.cls 0) (fs.heldSpec 0) 0 (0 + fs.nOptional) fs.nOptional fs.parse)
    (hO : OneofsParse os.cls os.heldSpec os.parse) :
    BodyParse (ElemTy.msg fs os).cls (ElemTy.msg fs os).heldSpec (parseMessage fs os) := by
  rw [Nat.zero_add] at hF
  have := msg_bodyParse hF hO
  rw [← parseRecord_eq] at this
  exact this

mutual
theorem ElemTy.checkParse : (t : ElemTy) → t.WF →
    CheckParse t.cls t.heldSpec (fun c wt bs u => expect t.wire wt u (t.parse c bs u)) ∧
    ∀ cap, cap < 2147483648 → BodyParse (repeatedClass t.cls cap) (repHeldSpec t.heldSpec cap) t.parseRep
  | .scalar s, _ => ⟨scalar_checkParse s, fun _ hc => rep_packed_bodyParse (scalar_packedRead s) hc⟩
  | .str cap, h => ⟨str_checkParse cap h.2, fun _ hc => rep_str_bodyParse cap h.2 hc⟩
  | .msg fs os, h => by
    have h' := h
    simp only [ElemTy.WF] at h'
    have hb := msg_parse_body (Fields.fieldsParse fs 0 fs.nOptional h'.1 (by omega))
      (Oneofs.oneofsParse os h'.2.1 (List.nodup_append.mp h'.2.2.1).2.1 (fun k hk =>
        (h'.2.2.2 k (List.mem_append_right _ hk)).1))
    exact ⟨msg_checkParse hb (fun _ _ _ _ _ hp => parseLoop_end _ _ _ _ _ _ hp),
      fun _ hc => rep_msg_bodyParse hb (fun _ _ _ _ _ hp => parseLoop_end _ _ _ _ _ _ hp) hc⟩
theorem Fields.fieldsParse : (fs : Fields) → (idx n : Nat) → fs.WF → idx + fs.nOptional ≤ n →
    FieldsParse (fs.cls idx) (fs.heldSpec idx) idx (idx + fs.nOptional) n fs.parse
  | .nil, idx, n, _, _ => fieldsParse_nil idx n
  | .plain num t rest, idx, n, h, hi => by
    simp only [Fields.WF] at h
    simp only [Fields.nOptional] at hi
    exact fieldsParse_plain (ElemTy.checkParse t h.1).1 (Fields.fieldsParse rest idx n h.2 hi)
  | .optional num t rest, idx, n, h, hi => by
    simp only [Fields.WF] at h
    simp only [Fields.nOptional] at hi
    have ih := Fields.fieldsParse rest (idx + 1) n h.2 (by omega)
    have hb := Fields.init_held rest (idx + 1) n h.2 (by omega)
    rw [show idx + 1 + rest.nOptional = idx + (rest.nOptional + 1) by omega] at ih hb
    exact fieldsParse_optional hi (ElemTy.init_held t h.1) hb
      (ElemTy.checkParse t h.1).1 ih
  | .repeated num cap t rest, idx, n, h, hi => by
    simp only [Fields.WF] at h
    simp only [Fields.nOptional] at hi
    have := fieldsParse_plain (num := num) (rep_checkParse ((ElemTy.checkParse t h.2.1).2 cap h.1))
      (Fields.fieldsParse rest idx n h.2.2 hi)
    cases t <;> exact this
theorem Alts.altsParse : (a : Alts) → a.WF → a.numbers.Nodup →
    AltsParse a.cls a.heldSpec a.numbers a.parse
  | .nil, _, _ => altsParse_nil
  | .cons num t rest, h, hd => by
    simp only [Alts.WF] at h
    simp only [Alts.numbers, List.nodup_cons] at hd
    exact altsParse_cons hd.1 (ElemTy.init_held t h.1) (Alts.init_held rest h.2 hd.2)
      (ElemTy.checkParse t h.1).1 (Alts.altsParse rest h.2 hd.2)
theorem Oneofs.oneofsParse : (os : Oneofs) → os.WF → os.numbers.Nodup → (∀ k ∈ os.numbers, 0 < k) →
    OneofsParse os.cls os.heldSpec os.parse
  | .nil, _, _, _ => oneofsParse_nil
  | .cons a rest, h, hd, hn => by
    simp only [Oneofs.WF] at h
    simp only [Oneofs.numbers] at hd hn
    have hd' := List.nodup_append.mp hd
    have := oneofsParse_cons (fun h0 => absurd (hn 0 (List.mem_append_left _ h0)) (by omega))
      (Alts.init_held a h.1 hd'.1) (Alts.altsParse a h.1 hd'.1)
      (Oneofs.oneofsParse rest h.2 hd'.2.1 (fun k hk => hn k (List.mem_append_right _ hk)))
    rw [← oneofs_parse_eq] at this
    exact this
end

theorem ElemTy.bodyParse (fs : Fields) (os : Oneofs) (h : (ElemTy.msg fs os).WF) :
    BodyParse (ElemTy.msg fs os).cls (ElemTy.msg fs os).heldSpec (parseMessage fs os) := by
  have h' := h
  simp only [ElemTy.WF] at h'
  exact msg_parse_body (Fields.fieldsParse fs 0 fs.nOptional h'.1 (by omega))
    (Oneofs.oneofsParse os h'.2.1 (List.nodup_append.mp h'.2.2.1).2.1 (fun k hk =>
      (h'.2.2.2 k (List.mem_append_right _ hk)).1))

end EP
