import Verif.Proof.ValueLemmas
import Verif.Proof.ZigZag
import Verif.Proof.BufferModels
import Verif.Spec.Observe

/-! # Encoding laws: scalars and strings -/

namespace EP
open Spec

variable {ω : Type} {V : Type}

/-- Sequencing in general form: `f` passes errors on. -/
theorem AppendsT.bind [WriteBuffer ω] {M : WriteModel ω} {c : List Byte} {room : Nat} {t t' : Bool}
    {bs bs' : List Byte} {r : Res (Error × ω)} {f : Error × ω → Res (Error × ω)}
    (h : AppendsT M t c room bs r)
    (herr : ∀ e w, e ≠ .noErrors → f (e, w) = .ok (e, w)) (ht : bs' = [] → t' = t)
    (hok : ∀ w, M.Rep w (c ++ bs) (room - bs.length) →
      AppendsT M t' (c ++ bs) (room - bs.length) bs' (f (.noErrors, w))) :
    AppendsT M t' c room (bs ++ bs') (r >>= f) := by
  have := AppendsT.seq (f := fun w => f (.noErrors, w)) h ht hok
  refine Eq.mp (congrArg (AppendsT M t' c room (bs ++ bs')) ?_) this
  congr 1
  funext ⟨e, w⟩
  by_cases he : e = .noErrors
  · subst he; simp
  · simp [he, herr e w he]

/-- Sequencing when the second part may be empty. -/
theorem AppendsT.bindLast [WriteBuffer ω] {M : WriteModel ω} {c : List Byte} {room : Nat} {t t' : Bool}
    {bs bs' : List Byte} {r : Res (Error × ω)} {f : Error × ω → Res (Error × ω)}
    (h : AppendsT M t c room bs r)
    (herr : ∀ e w, e ≠ .noErrors → f (e, w) = .ok (e, w))
    (hok : ∀ w, M.Rep w (c ++ bs) (room - bs.length) →
      AppendsT M t' (c ++ bs) (room - bs.length) bs' (f (.noErrors, w))) :
    AppendsT M (if bs'.isEmpty then t else t') c room (bs ++ bs') (r >>= f) := by
  refine AppendsT.bind h herr (fun h0 => by rw [h0]; rfl) (fun w hw => ?_)
  cases hb : bs'.isEmpty
  · exact hok w hw
  · have := hok w hw
    rw [List.isEmpty_iff.mp hb] at this ⊢
    exact this.empty

/-- Reporting `BUFFER_FULL` without writing. -/
theorem AppendsT.full [WriteBuffer ω] {M : WriteModel ω} {c : List Byte} {room : Nat} {t : Bool}
    {bs : List Byte} {w : ω} (h : M.Rep w c room) (hne : 0 < bs.length) (hlt : room < bs.length) :
    AppendsT M t c room bs (.ok (.bufferFull, w)) := by
  simp only [AppendsT, Res.Post_ok]
  exact Or.inr ⟨trivial, by omega, 0, room, hne, by simpa using h⟩

/-- `serialize(buffer)` appends the encoding.  (An empty string may not be pushed to a full buffer
with slack.) -/
def SerLaw (C : FieldClass) (S : ClassSpec C V) (enc : V → List Byte) (txt : V → Bool) : Prop :=
  ∀ (ω : Type) [WriteBuffer ω] (M : WriteModel ω) (x : C.State) (w : ω) (c : List Byte) (room : Nat),
    S.Inv x → (enc (S.abs x) ≠ [] ∨ M.slack = 0) → (enc (S.abs x)).length < 4294967296 →
    M.Rep w c room → AppendsT M (txt (S.abs x)) c room (enc (S.abs x)) (C.serialize x w)

/-- `serialize_with_id(…, optional = true)` appends the record. -/
def OptEnc (C : FieldClass) (S : ClassSpec C V) (num : Nat) (record : V → List Byte)
    (txt : V → Bool) : Prop :=
  ∀ (ω : Type) [WriteBuffer ω] (M : WriteModel ω) (x : C.State) (w : ω) (c : List Byte) (room : Nat),
    S.Inv x → (record (S.abs x)).length < 4294967296 →
    M.Rep w c room → AppendsT M (txt (S.abs x)) c room (record (S.abs x)) (C.serializeWithId num x w true)

/-- The code of a field without presence appends the record. -/
def PlainEnc (C : FieldClass) (S : ClassSpec C V) (num : Nat) (record : V → List Byte)
    (txt : V → Bool) : Prop :=
  ∀ (ω : Type) [WriteBuffer ω] (M : WriteModel ω) (x : C.State) (w : ω) (c : List Byte) (room : Nat),
    S.Inv x → (record (S.abs x)).length < 4294967296 →
    M.Rep w c room → AppendsT M (txt (S.abs x)) c room (record (S.abs x))
      (if C.plainGuard x = true then C.serializeWithId num x w false else pure (.noErrors, w))

/-- `serialized_size()` of anything obeying `SerLaw`. -/
theorem SerLaw.size {C : FieldClass} {S : ClassSpec C V} {enc : V → List Byte} {txt : V → Bool}
    (h : SerLaw C S enc txt)
    (x : C.State) (hx : S.Inv x) (hl : (enc (S.abs x)).length < 4294967296) :
    C.serializedSize x = .ok (enc (S.abs x)).length := by
  have := (h _ SizeCalc.model x ⟨0⟩ [] 4294967295 hx (Or.inr rfl) hl SizeCalc.new_rep).weaken
  unfold Appends at this
  obtain ⟨⟨e, w⟩, hr, hp⟩ := this.exists
  simp only [FieldClass.serializedSize, hr, Res.ok_bind, Res.pure_eq]
  rcases hp with ⟨_, hp, _⟩ | ⟨_, hp, _⟩
  · rw [hp, List.nil_append, u32_of_lt hl]
  · simp only [SizeCalc.model] at hp; omega

/-! ## Scalars -/

theorem ScalarTy.wireType_eq (s : ScalarTy) : s.wireType = s.wire := by cases s <;> rfl

theorem ScalarTy.isDefault_eq (s : ScalarTy) (v : s.Val) : s.isDefault v = s.numZero v := by
  cases s
  case doublefixed => exact and_low_eq_zero64 v
  case floatfixed => exact and_low_eq_zero v
  all_goals rfl

theorem ScalarTy.serialize_appends [WriteBuffer ω] (M : WriteModel ω) (s : ScalarTy) (v : s.Val)
    (w : ω) {c : List Byte} {room : Nat} (h : M.Rep w c room) :
    AppendsT M false c room (s.enc v) (s.serialize v w) := by
  cases s
  case int32 => exact serializeVarint_appends M (w := 32) (by decide) v w h
  case int64 => exact serializeVarint_appends M (w := 64) (by decide) v w h
  case uint32 => exact serializeVarint_appends M (w := 32) (by decide) v w h
  case uint64 => exact serializeVarint_appends M (w := 64) (by decide) v w h
  case sint32 =>
    have := serializeVarint_appends M (w := 32) (by decide) (zigZagEncode v) w h
    rw [zigZagEncode_spec (by decide)] at this
    exact this
  case sint64 =>
    have := serializeVarint_appends M (w := 64) (by decide) (zigZagEncode v) w h
    rw [zigZagEncode_spec (by decide)] at this
    exact this
  case boolean =>
    simp only [ScalarTy.enc, ScalarTy.serialize]
    rw [varint_lt (by split <;> decide)]
    have := AppendsT.push (x := if v then (1 : Byte) else 0) h
    rw [show BitVec.ofNat 8 (if v = true then 1 else 0) = if v = true then (1 : Byte) else 0 by
      split <;> rfl]
    exact this
  case enumeration => exact serializeVarint_appends M (w := 32) (by decide) v w h
  case fixed32 => exact serializeFixed_appends M (w := 32) (by decide) v w h
  case sfixed32 => exact serializeFixed_appends M (w := 32) (by decide) v w h
  case floatfixed => exact serializeFixed_appends M (w := 32) (by decide) v w h
  case fixed64 => exact serializeFixed_appends M (w := 64) (by decide) v w h
  case sfixed64 => exact serializeFixed_appends M (w := 64) (by decide) v w h
  case doublefixed => exact serializeFixed_appends M (w := 64) (by decide) v w h

theorem scalar_serLaw (s : ScalarTy) : SerLaw (scalarClass s) (scalarSpec s) s.enc (fun _ => false) := by
  intro ω _ M x w c room _ _ _ h
  exact s.serialize_appends M x w h

theorem scalar_withId [WriteBuffer ω] (M : WriteModel ω) (s : ScalarTy) (num : Nat)
    (hn : num < 536870912) (v : s.Val) (opt : Bool)
    (w : ω) {c : List Byte} {room : Nat} (h : M.Rep w c room) :
    AppendsT M false c room (tag num s.wire ++ s.enc v) ((scalarClass s).serializeWithId num v w opt) := by
  simp only [scalarClass, ScalarTy.wireType_eq]
  refine AppendsT.bind (serializeTag_appends M num s.wire hn w h) ?_ (fun _ => rfl) ?_
  · intro e w he; simp [he]
  · intro w hw; simpa using s.serialize_appends M v w hw

theorem scalar_optEnc (s : ScalarTy) (num : Nat) (hn : num < 536870912) :
    OptEnc (scalarClass s) (scalarSpec s) num (fun v => tag num s.wire ++ s.enc v)
      (fun _ => false) := by
  intro ω _ M x w c room _ _ h
  exact scalar_withId M s num hn x true w h

theorem scalar_plainEnc (s : ScalarTy) (num : Nat) (hn : num < 536870912) :
    PlainEnc (scalarClass s) (scalarSpec s) num
      (fun v => if s.isZero (if s.numZero v then s.zero else v) then []
        else tag num s.wire ++ s.enc (if s.numZero v then s.zero else v)) (fun _ => false) := by
  intro ω _ M x w c room _ _ h
  have hz : ∀ v : s.Val, s.numZero v = false → s.isZero v = false := by
    intro v hv
    cases hb : s.isZero v
    · rfl
    · rw [ScalarTy.isZero_iff] at hb
      rw [hb, ScalarTy.numZero_zero] at hv; cases hv
  have hz' : s.isZero s.zero = true := ScalarTy.isZero_iff.mpr rfl
  have hg : (scalarClass s).plainGuard x = !s.numZero x :=
    congrArg Bool.not (ScalarTy.isDefault_eq s x)
  show AppendsT M false c room (if s.isZero (if s.numZero x then s.zero else x) then []
        else tag num s.wire ++ s.enc (if s.numZero x then s.zero else x)) _
  rw [hg]
  cases hb : s.numZero x
  · simp only [Bool.false_eq_true, ↓reduceIte, hz x hb, Bool.not_false]
    exact scalar_withId M s num hn x false w h
  · simp only [↓reduceIte, hz', Bool.not_true, Bool.false_eq_true]
    exact AppendsT.nil h

/-! ## Strings and bytes -/

theorem StrObj.WF.chars_length {cap : Nat} {x : StrObj} (h : x.WF cap) : x.chars.length = x.len := by
  simp [StrObj.chars, h.1, h.2]

theorem str_serLaw (cap : Nat) (h0 : 0 < cap) (h31 : cap < 2147483648) :
    SerLaw (strClass cap) (strSpec cap) id (fun v => !v.isEmpty) := by
  intro ω _ M (x : StrObj) w c room (hx : x.WF cap) (hne : x.chars ≠ [] ∨ M.slack = 0) _ h
  have hl := hx.chars_length
  obtain ⟨h1, h2⟩ := id hx
  show AppendsT M (!x.chars.isEmpty) c room x.chars (StrObj.serialize x w)
  unfold StrObj.serialize
  rw [if_neg (by omega)]
  rcases M.pushBytes w c room x.chars h (by omega) with ⟨w', hp, hr⟩ | ⟨hp, hlt⟩
  · simp only [StrObj.chars] at hp
    simp only [hp, AppendsT, Res.ok_bind, Res.pure_eq, Res.Post_ok, pushError]
    refine Or.inl ⟨by simp, hr, fun hM hn => ?_⟩
    have := hM.pushBytes w c room x.chars w' h hp
    have := M.extra_le (!x.chars.isEmpty)
    omega
  · simp only [StrObj.chars] at hp
    simp only [hp, AppendsT, Res.ok_bind, Res.pure_eq, Res.Post_ok, pushError]
    have hne' : x.chars ≠ [] := by
      rcases hne with hne | hne
      · exact hne
      · intro h0
        rw [h0, List.length_nil] at hlt
        omega
    have hb : M.extra (!x.chars.isEmpty) = M.slack := by
      rw [List.isEmpty_eq_false_iff.mpr hne']; rfl
    rw [hb]
    exact Or.inr ⟨by simp, hlt, 0, room, List.length_pos_iff.mpr hne', by simpa using h⟩

theorem ofNat32_toNat {n : Nat} (h : n < 4294967296) : (BitVec.ofNat 32 n).toNat = n := by
  simp; omega

/-- A length prefix. -/
theorem serializeLen_appends [WriteBuffer ω] (M : WriteModel ω) (n : Nat) (hn : n < 4294967296)
    (w : ω) {c : List Byte} {room : Nat} (h : M.Rep w c room) :
    AppendsT M false c room (varint n) (serializeVarint (BitVec.ofNat 32 n) w) := by
  have := serializeVarint_appends M (by decide) (BitVec.ofNat 32 n) w h
  rwa [ofNat32_toNat hn] at this

theorem str_withId [WriteBuffer ω] (M : WriteModel ω) (cap : Nat) (h0 : 0 < cap)
    (h31 : cap < 2147483648) (num : Nat) (hn : num < 536870912) (x : StrObj) (hx : x.WF cap)
    (opt : Bool) (w : ω) {c : List Byte} {room : Nat} (h : M.Rep w c room) :
    AppendsT M (!x.chars.isEmpty) c room
      (if x.chars = [] ∧ opt = false then [] else tag num .lengthDelimited ++ lenDelim x.chars)
      (x.serializeWithId num w opt) := by
  have hl := hx.chars_length
  have h2 := hx.2
  have hempty : x.chars = [] ↔ x.len = 0 := by rw [← hl, List.length_eq_zero_iff]
  unfold StrObj.serializeWithId
  by_cases hcond : 0 < x.len ∨ opt = true
  · rw [if_pos hcond, if_neg (by rw [hempty]; rcases hcond with h | h <;> simp [h]; omega)]
    by_cases hav : x.len ≤ WriteBuffer.getAvailableSize w
    · rw [if_pos hav]
      refine AppendsT.bind (serializeTag_appends M num .lengthDelimited hn w h) ?_
        (fun h0 => absurd h0 (lenDelim_ne_nil _)) ?_
      · intro e w he; simp [he]
      · intro w hw
        simp only [↓reduceIte]
        rw [lenDelim, hl]
        refine AppendsT.bind (serializeLen_appends M x.len (by omega) w hw) ?_
          (fun h0 => by rw [h0]; rfl) ?_
        · intro e w he; simp [he]
        · intro w hw
          by_cases hpos : 0 < x.len
          · simp only [hpos, and_self, ↓reduceIte]
            exact str_serLaw cap h0 h31 _ M x w _ _ hx (Or.inl (by simp [strSpec, hempty]; omega))
              (by simp only [id, strSpec, hl]; omega) hw
          · simp only [hpos, and_false, ↓reduceIte]
            rw [hempty.mpr (by omega)]
            exact AppendsT.nil hw
    · rw [if_neg hav]
      have := M.avail w c room h
      have ht := List.length_pos_iff.mpr (tag_ne_nil num .lengthDelimited)
      refine AppendsT.full h ?_ ?_
      · simp only [List.length_append]; omega
      · simp only [List.length_append, lenDelim, hl]; omega
  · rw [if_neg hcond, if_pos]
    · exact AppendsT.nil h
    · simp only [not_or, Nat.not_lt, Nat.le_zero_eq, Bool.not_eq_true] at hcond
      exact ⟨hempty.mpr hcond.1, hcond.2⟩

theorem str_optEnc (cap : Nat) (h0 : 0 < cap) (h31 : cap < 2147483648) (num : Nat)
    (hn : num < 536870912) :
    OptEnc (strClass cap) (strSpec cap) num (fun v => tag num .lengthDelimited ++ lenDelim v)
      (fun v => !v.isEmpty) := by
  intro ω _ M x w c room hx _ h
  have := str_withId M cap h0 h31 num hn x hx true w h
  simp only [Bool.true_eq_false, and_false, ↓reduceIte] at this
  exact this

theorem str_plainEnc (cap : Nat) (h0 : 0 < cap) (h31 : cap < 2147483648) (num : Nat)
    (hn : num < 536870912) :
    PlainEnc (strClass cap) (strSpec cap) num
      (fun v => if v.isEmpty then [] else tag num .lengthDelimited ++ lenDelim v)
      (fun v => !v.isEmpty) := by
  intro ω _ M x w c room hx _ h
  have := str_withId M cap h0 h31 num hn x hx false w h
  simpa [strClass, strSpec, List.isEmpty_iff] using this

end EP
