import Verif.Proof.EncScalar
import Verif.Proof.Presence
import Verif.Spec.Trailing

/-! # Encoding laws: repeated fields, messages, declarations -/

namespace EP
open Spec

variable {ω V W : Type}

/-! ## Repeated fields -/

section Repeated
variable {E : FieldClass} {S : ClassSpec E V} {enc : V → List Byte} {txt : V → Bool} {cap : Nat}

theorem RepObj.getConst_eq (x : RepObj E.State) (i : Nat)
    (hd : x.data.length = cap) (hl : x.len ≤ cap) (hi : i < x.len) (hcap : cap < 2147483648) :
    ∃ h : i < x.data.length, x.getConst cap i = .ok x.data[i] := by
  have : i < x.data.length := by omega
  refine ⟨this, ?_⟩
  unfold RepObj.getConst RepObj.limit
  rw [u32sub_of_le (by omega) (by omega), Nat.min_eq_left (by omega), arrayGet_of_lt this]

theorem RepObj.elems_drop {α : Type} (x : RepObj α) (i : Nat) (h : i < x.data.length) (hi : i < x.len) :
    x.elems.drop i = x.data[i] :: x.elems.drop (i + 1) := by
  unfold RepObj.elems
  rw [List.drop_eq_getElem_cons (by simp; omega)]
  simp

theorem RepObj.elems_length {α : Type} (x : RepObj α) (hd : x.data.length = cap) (hl : x.len ≤ cap) :
    x.elems.length = x.len := by
  simp [RepObj.elems]; omega

theorem packedLoop_appends (hser : SerLaw E S enc (fun _ => false)) (hne : ∀ v, enc v ≠ []) [WriteBuffer ω]
    (M : WriteModel ω) (hcap : cap < 2147483648) (x : RepObj E.State) (hx : (repSpec S cap).Inv x)
    (n i : Nat) (hni : i + n = x.len) (w : ω) (c : List Byte) (room : Nat)
    (hlen : ((x.elems.drop i).map (fun d => enc (S.abs d))).flatten.length < 4294967296)
    (h : M.Rep w c room) :
    AppendsT M false c room ((x.elems.drop i).map (fun d => enc (S.abs d))).flatten
      (x.serializePackedLoop cap n i w) := by
  obtain ⟨hd, hl, hinv⟩ := hx
  induction n generalizing i w c room with
  | zero =>
    rw [List.drop_of_length_le (by rw [x.elems_length hd hl]; omega)]
    exact AppendsT.nil h
  | succ n ih =>
    obtain ⟨hi, hg⟩ := x.getConst_eq i hd hl (by omega) hcap
    unfold RepObj.serializePackedLoop
    rw [hg, Res.ok_bind]
    rw [x.elems_drop i hi (by omega), List.map_cons, List.flatten_cons] at hlen ⊢
    rw [List.length_append] at hlen
    refine AppendsT.bind (hser _ M _ w c room (hinv _ (List.getElem_mem hi)) (Or.inl (hne _))
      (by omega) h) ?_ (fun _ => rfl) ?_
    · intro e w he; simp [he]
    · intro w hw
      simp only [↓reduceIte]
      exact ih (i + 1) (by omega) w _ _ (by omega) hw

/-- The last element decides. -/
def lastFlag (l : List Bool) : Bool := l.getLast?.getD false

theorem lastFlag_cons (b : Bool) (l : List Bool) :
    lastFlag (b :: l) = if l.isEmpty then b else lastFlag l := by
  cases l with
  | nil => rfl
  | cons a l => simp [lastFlag, List.getLast?_cons_cons]

theorem unpackedLoop_appends (hser : SerLaw E S enc txt) (h0 : ∀ v, enc v = [] → txt v = false)
    [WriteBuffer ω]
    (M : WriteModel ω) (hcap : cap < 2147483648) (num : Nat) (hn : num < 536870912)
    (x : RepObj E.State) (hx : (repSpec S cap).Inv x)
    (n i : Nat) (hni : i + n = x.len) (w : ω) (c : List Byte) (room : Nat)
    (hlen : ((x.elems.drop i).map
      (fun d => tag num .lengthDelimited ++ lenDelim (enc (S.abs d)))).flatten.length < 4294967296)
    (h : M.Rep w c room) :
    AppendsT M (lastFlag ((x.elems.drop i).map (fun d => txt (S.abs d)))) c room
      ((x.elems.drop i).map (fun d => tag num .lengthDelimited ++ lenDelim (enc (S.abs d)))).flatten
      (x.serializeUnpackedLoop cap num n i w) := by
  obtain ⟨hd, hl, hinv⟩ := hx
  induction n generalizing i w c room with
  | zero =>
    rw [List.drop_of_length_le (by rw [x.elems_length hd hl]; omega)]
    exact AppendsT.nil h
  | succ n ih =>
    obtain ⟨hi, hg⟩ := x.getConst_eq i hd hl (by omega) hcap
    unfold RepObj.serializeUnpackedLoop
    rw [hg, Res.ok_bind]
    rw [x.elems_drop i hi (by omega), List.map_cons, List.flatten_cons] at hlen
    rw [x.elems_drop i hi (by omega), List.map_cons, List.map_cons, List.flatten_cons]
    simp only [List.length_append, lenDelim] at hlen
    have hdi := hinv _ (List.getElem_mem hi)
    rw [hser.size _ hdi (by omega), Res.ok_bind]
    rw [lenDelim, List.append_assoc, List.append_assoc, lastFlag_cons]
    have hem : (List.map (fun d => txt (S.abs d)) (x.elems.drop (i + 1))).isEmpty =
        ((x.elems.drop (i + 1)).map
          (fun d => tag num .lengthDelimited ++ lenDelim (enc (S.abs d)))).flatten.isEmpty := by
      cases x.elems.drop (i + 1) with
      | nil => rfl
      | cons d l =>
        simp [tag_ne_nil]
    rw [hem]
    refine AppendsT.bind (serializeTag_appends M num .lengthDelimited hn w h) ?_
      (fun h => absurd (List.append_eq_nil_iff.mp h).1 (varint_ne_nil _)) ?_
    · intro e w he; simp [he]
    · intro w hw
      simp only [↓reduceIte]
      rw [bind_assoc]
      refine AppendsT.bind (serializeLen_appends M _ (by omega) w hw) ?_ ?_ ?_
      · intro e w he; simp [he]
      · intro h
        obtain ⟨h1, h2⟩ := List.append_eq_nil_iff.mp h
        rw [h2, List.isEmpty_nil, if_pos rfl, h0 _ h1]
      · intro w hw
        refine AppendsT.bindLast (bs := enc (S.abs x.data[i])) ?_ ?_ ?_
        · by_cases hpos : 0 < (enc (S.abs x.data[i])).length
          · simp only [hpos, and_self, ↓reduceIte]
            exact hser _ M _ w _ _ hdi (Or.inl (List.length_pos_iff.mp hpos)) (by omega) hw
          · simp only [hpos, and_false, ↓reduceIte]
            have h1 : enc (S.abs x.data[i]) = [] := List.eq_nil_of_length_eq_zero (by omega)
            rw [h1] at hw ⊢
            exact AppendsT.nil hw
        · intro e w he; simp [he]
        · intro w hw
          simp only [↓reduceIte]
          exact ih (i + 1) (by omega) w _ _ (by simp only [lenDelim]; omega) hw

/-- The size a size calculator reports for a writer that appends `bs`. -/
theorem Appends.calcSize {bs : List Byte} {r : Res (Error × SizeCalc)}
    (h : Appends SizeCalc.model [] 4294967295 bs r) (hl : bs.length < 4294967296) :
    (do let (_, c) ← r; pure c.size : Res Nat) = .ok bs.length := by
  unfold Appends at h
  obtain ⟨⟨e, w⟩, hr, hp⟩ := h.exists
  simp only [hr, Res.ok_bind, Res.pure_eq]
  rcases hp with ⟨_, hp, _⟩ | ⟨_, hp, _⟩
  · rw [hp, List.nil_append, u32_of_lt hl]
  · simp only [SizeCalc.model] at hp; omega

theorem rep_plainEnc_packed (hser : SerLaw E S enc (fun _ => false)) (hne : ∀ v, enc v ≠ []) (hp : E.isPacked = true)
    (hcap : cap < 2147483648) (num : Nat) (hn : num < 536870912) :
    PlainEnc (repeatedClass E cap) (repSpec S cap) num
      (fun vs => if (vs.map enc).isEmpty then []
        else tag num .lengthDelimited ++ lenDelim (vs.map enc).flatten) (fun _ => false) := by
  intro ω _ M (x : RepObj E.State) w c room hx hlen h
  have hx' := hx
  obtain ⟨hd, hl, hinv⟩ := hx'
  have hmap : List.map enc ((repSpec S cap).abs x) = x.elems.map (fun d => enc (S.abs d)) := by
    show (x.elems.map S.abs).map enc = _
    rw [List.map_map]; rfl
  have hel := x.elems_length hd hl
  dsimp only at hlen ⊢
  rw [hmap] at hlen ⊢
  rw [show (repeatedClass E cap).plainGuard x = true from rfl, if_pos rfl]
  show AppendsT M _ c room _ (RepObj.serializeWithId cap num x w false)
  unfold RepObj.serializeWithId
  rw [if_pos hp]
  have hflat : (x.elems.map (fun d => enc (S.abs d))).flatten.length < 4294967296 := by
    split at hlen
    · rename_i hem; rw [List.isEmpty_iff.mp hem]; simp
    · simp only [List.length_append, lenDelim] at hlen; omega
  have hsize : x.serializedSizePacked cap = .ok (x.elems.map (fun d => enc (S.abs d))).flatten.length := by
    unfold RepObj.serializedSizePacked RepObj.serializePacked
    refine Appends.calcSize ?_ hflat
    have := (packedLoop_appends hser hne SizeCalc.model hcap x hx x.len 0 (by omega) ⟨0⟩ [] _
      (by simpa using hflat) SizeCalc.new_rep).weaken
    simpa using this
  rw [hsize, Res.ok_bind]
  by_cases hem : x.elems = []
  · simp only [hem, List.map_nil, List.flatten_nil, List.length_nil, Nat.lt_irrefl,
      Bool.false_eq_true, or_self, ↓reduceIte, List.isEmpty_nil]
    exact AppendsT.nil h
  · have hpos : 0 < (x.elems.map (fun d => enc (S.abs d))).flatten.length := by
      rw [List.length_pos_iff]
      intro h0
      rw [List.flatten_eq_nil_iff] at h0
      obtain ⟨d, hd⟩ := List.exists_mem_of_ne_nil _ hem
      exact hne _ (h0 _ (List.mem_map_of_mem hd))
    have : (x.elems.map (fun d => enc (S.abs d))).isEmpty = false := by
      cases hb : (x.elems.map (fun d => enc (S.abs d))).isEmpty
      · rfl
      · rw [List.isEmpty_iff, List.map_eq_nil_iff] at hb; exact absurd hb hem
    rw [this]
    rw [if_pos (Or.inl hpos), if_neg (by simp), lenDelim]
    refine AppendsT.bind (serializeTag_appends M num .lengthDelimited hn w h) ?_ (fun _ => rfl) ?_
    · intro e w he; simp [he]
    · intro w hw
      simp only [↓reduceIte]
      refine AppendsT.bind (serializeLen_appends M _ hflat w hw) ?_ (fun _ => rfl) ?_
      · intro e w he; simp [he]
      · intro w hw
        simp only [↓reduceIte]
        split
        · have := packedLoop_appends hser hne M hcap x hx x.len 0 (by omega) w _ _
            (by simpa using hflat) hw
          simpa [RepObj.serializePacked] using this
        · have := M.avail w _ _ hw
          exact AppendsT.full hw hpos (by omega)

theorem rep_plainEnc_unpacked (hser : SerLaw E S enc txt) (h0 : ∀ v, enc v = [] → txt v = false) (hp : E.isPacked = false)
    (hcap : cap < 2147483648) (num : Nat) (hn : num < 536870912) :
    PlainEnc (repeatedClass E cap) (repSpec S cap) num
      (fun vs => ((vs.map enc).map fun e => tag num .lengthDelimited ++ lenDelim e).flatten)
      (fun vs => lastFlag (vs.map txt)) := by
  intro ω _ M (x : RepObj E.State) w c room hx hlen h
  have hmap : List.map (fun e => tag num .lengthDelimited ++ lenDelim e) (List.map enc ((repSpec S cap).abs x))
      = x.elems.map (fun d => tag num .lengthDelimited ++ lenDelim (enc (S.abs d))) := by
    show ((x.elems.map S.abs).map enc).map _ = _
    rw [List.map_map, List.map_map]; rfl
  have htxt : List.map txt ((repSpec S cap).abs x) = x.elems.map (fun d => txt (S.abs d)) := by
    show (x.elems.map S.abs).map txt = _
    rw [List.map_map]; rfl
  dsimp only at hlen ⊢
  rw [hmap] at hlen ⊢
  rw [htxt]
  rw [show (repeatedClass E cap).plainGuard x = true from rfl, if_pos rfl]
  show AppendsT M _ c room _ (RepObj.serializeWithId cap num x w false)
  unfold RepObj.serializeWithId
  rw [if_neg (by simp [hp])]
  have hsize : x.serializedSizeUnpacked cap num = .ok (x.elems.map (fun d => tag num .lengthDelimited ++ lenDelim (enc (S.abs d)))).flatten.length := by
    unfold RepObj.serializedSizeUnpacked RepObj.serializeUnpacked
    refine Appends.calcSize ?_ hlen
    have := (unpackedLoop_appends hser h0 SizeCalc.model hcap num hn x hx x.len 0 (by omega) ⟨0⟩ [] _
      (by simpa using hlen) SizeCalc.new_rep).weaken
    simpa using this
  rw [hsize, Res.ok_bind]
  split
  · have := unpackedLoop_appends hser h0 M hcap num hn x hx x.len 0 (by omega) w _ _
      (by simpa using hlen) h
    simpa [RepObj.serializeUnpacked] using this
  · have := M.avail w _ _ h
    exact AppendsT.full h (by omega) (by omega)

end Repeated

/-! ## Fields -/

structure FieldsEnc (F : FieldsClass) (S : FieldsSpec F V) (n : Nat) (enc : V → List Byte)
    (txt : V → Bool) : Prop where
  error : ∀ {ω : Type} [WriteBuffer ω] (p : Presence) (s : F.State) (e : Error) (w : ω),
    Presence.WF n p → e ≠ .noErrors → F.serialize p s e w = .ok (e, w)
  ok : ∀ {ω : Type} [WriteBuffer ω] (M : WriteModel ω) (p : Presence) (s : F.State) (w : ω)
    (c : List Byte) (room : Nat), Presence.WF n p → S.Inv p.bit s →
    (enc (S.abs p.bit s)).length < 4294967296 → M.Rep w c room →
    AppendsT M (txt (S.abs p.bit s)) c room (enc (S.abs p.bit s)) (F.serialize p s .noErrors w)

theorem fieldsEnc_nil (n : Nat) : FieldsEnc .nil .nil n (fun _ => []) (fun _ => false) where
  error _ _ _ _ _ _ := rfl
  ok _ _ _ _ _ _ _ _ _ h := AppendsT.nil h

theorem fieldsEnc_plain {C : FieldClass} {F : FieldsClass} {S : ClassSpec C V} {R : FieldsSpec F W}
    {n num : Nat} {rec₁ : V → List Byte} {enc : W → List Byte} {txt₁ : V → Bool} {txt : W → Bool}
    (h₁ : PlainEnc C S num rec₁ txt₁) (h₂ : FieldsEnc F R n enc txt) :
    FieldsEnc (.plain num C F) (.plain num S R) n (fun v => rec₁ v.1 ++ enc v.2)
      (fun v => if (enc v.2).isEmpty then txt₁ v.1 else txt v.2) where
  error p s e w hp he := by
    simp only [FieldsClass.plain, he, and_false, ↓reduceIte, Res.pure_eq, Res.ok_bind]
    exact h₂.error p s.2 e w hp he
  ok M p s w c room hp hi hl h := by
    simp only [List.length_append] at hl
    refine AppendsT.bindLast (t := txt₁ (S.abs s.1)) (bs := rec₁ (S.abs s.1)) ?_ ?_ ?_
    · have := h₁ _ M s.1 w c room hi.1 (by simp only [FieldsSpec.plain] at hl; omega) h
      simpa using this
    · intro e w he; exact h₂.error p s.2 e w hp he
    · intro w hw
      exact h₂.ok M p s.2 w _ _ hp hi.2 (by simp only [FieldsSpec.plain] at hl; omega) hw

theorem fieldsEnc_optional {C : FieldClass} {F : FieldsClass} {S : ClassSpec C V} {R : FieldsSpec F W}
    {n num idx : Nat} (hidx : idx < n) {rec₁ : V → List Byte} {enc : W → List Byte}
    {txt₁ : V → Bool} {txt : W → Bool}
    (h₁ : OptEnc C S num rec₁ txt₁) (h₂ : FieldsEnc F R n enc txt) :
    FieldsEnc (.optional num idx C F) (.optional num idx S R) n
      (fun v => (match v.1 with | none => [] | some x => rec₁ x) ++ enc v.2)
      (fun v => if (enc v.2).isEmpty then (match v.1 with | none => false | some x => txt₁ x)
        else txt v.2) where
  error p s e w hp he := by
    simp only [FieldsClass.optional, Presence.has_eq hp hidx, Res.ok_bind, he, and_false,
      ↓reduceIte, Res.pure_eq]
    exact h₂.error p s.2 e w hp he
  ok M p s w c room hp hi hl h := by
    simp only [FieldsSpec.optional, FieldsClass.optional, Presence.has_eq hp hidx, Res.ok_bind,
      List.length_append] at hl ⊢
    cases hb : p.bit idx
    · simp only [hb, Bool.false_eq_true, ↓reduceIte, false_and, Res.pure_eq, Res.ok_bind,
        List.nil_append] at hl ⊢
      exact (h₂.ok M p s.2 w _ _ hp hi.2 (by simpa using hl) h).orNothing
    · simp only [hb, ↓reduceIte, and_self] at hl ⊢
      refine AppendsT.bindLast (h₁ _ M s.1 w c room hi.1.1 (by omega) h) ?_ ?_
      · intro e w he; exact h₂.error p s.2 e w hp he
      · intro w hw
        exact h₂.ok M p s.2 w _ _ hp hi.2 (by omega) hw

/-! ## Oneofs -/

structure AltsEnc (A : AltsClass) (S : AltsSpec A V) (nums : List Nat) (enc : V → List Byte)
    (txt : V → Bool) : Prop where
  num_mem : ∀ u, S.num u ∈ nums
  error : ∀ {ω : Type} [WriteBuffer ω] (u : A.U) (e : Error) (w : ω),
    e ≠ .noErrors → A.serialize (S.num u) (some u) e w = .ok (e, w)
  none : ∀ {ω : Type} [WriteBuffer ω] (which : Nat) (u : Option A.U) (e : Error) (w : ω),
    which ∉ nums → A.serialize which u e w = .ok (e, w)
  ok : ∀ {ω : Type} [WriteBuffer ω] (M : WriteModel ω) (u : A.U) (w : ω) (c : List Byte) (room : Nat),
    S.Inv u → (enc (S.abs u)).length < 4294967296 → M.Rep w c room →
    AppendsT M (txt (S.abs u)) c room (enc (S.abs u)) (A.serialize (S.num u) (some u) .noErrors w)

theorem altsEnc_nil : AltsEnc .nil .nil [] (fun v => nomatch v) (fun _ => false) where
  num_mem u := nomatch u
  error u := nomatch u
  none _ _ _ _ _ := rfl
  ok _ u := nomatch u

theorem altsEnc_cons {C : FieldClass} {A : AltsClass} {S : ClassSpec C V} {R : AltsSpec A W}
    {num : Nat} {nums : List Nat} (hnum : num ∉ nums) {rec₁ : V → List Byte} {enc : W → List Byte}
    {txt₁ : V → Bool} {txt : W → Bool}
    (h₁ : OptEnc C S num rec₁ txt₁) (h₂ : AltsEnc A R nums enc txt) :
    AltsEnc (.cons num C A) (.cons num S R) (num :: nums)
      (fun v => match v with | .inl x => rec₁ x | .inr y => enc y)
      (fun v => match v with | .inl x => txt₁ x | .inr y => txt y) where
  num_mem u := by
    cases u with
    | inl x => exact List.mem_cons_self
    | inr u => exact List.mem_cons_of_mem _ (h₂.num_mem u)
  error u e w he := by
    cases u with
    | inl x => simp [AltsClass.cons, AltsSpec.cons, he]
    | inr u =>
      have hne : R.num u ≠ num := fun h => hnum (h ▸ h₂.num_mem u)
      simp only [AltsClass.cons, AltsSpec.cons, hne, ↓reduceIte, AltsClass.right?]
      exact h₂.error u e w he
  none which u e w hw := by
    simp only [List.mem_cons, not_or] at hw
    simp only [AltsClass.cons, hw.1, ↓reduceIte]
    exact h₂.none which _ e w hw.2
  ok M u w c room hi hl h := by
    cases u with
    | inl x =>
      simp only [AltsClass.cons, AltsSpec.cons, ↓reduceIte, AltsClass.left?, AltsClass.access, Res.ok_bind]
      exact h₁ _ M x w c room hi hl h
    | inr u =>
      have hne : R.num u ≠ num := fun h => hnum (h ▸ h₂.num_mem u)
      simp only [AltsClass.cons, AltsSpec.cons, hne, ↓reduceIte, AltsClass.right?]
      exact h₂.ok M u w c room hi hl h

structure OneofsEnc (O : OneofsClass) (S : OneofsSpec O V) (enc : V → List Byte)
    (txt : V → Bool) : Prop where
  error : ∀ {ω : Type} [WriteBuffer ω] (s : O.State) (e : Error) (w : ω),
    S.Inv s → e ≠ .noErrors → O.serialize s e w = .ok (e, w)
  ok : ∀ {ω : Type} [WriteBuffer ω] (M : WriteModel ω) (s : O.State) (w : ω)
    (c : List Byte) (room : Nat), S.Inv s → (enc (S.abs s)).length < 4294967296 → M.Rep w c room →
    AppendsT M (txt (S.abs s)) c room (enc (S.abs s)) (O.serialize s .noErrors w)

theorem oneofsEnc_nil : OneofsEnc .nil .nil (fun _ => []) (fun _ => false) where
  error _ _ _ _ _ := rfl
  ok _ _ _ _ _ _ _ h := AppendsT.nil h

theorem oneofsEnc_cons {A : AltsClass} {O : OneofsClass} {S : AltsSpec A V} {R : OneofsSpec O W}
    {nums : List Nat} (h0 : 0 ∉ nums) {enc₁ : V → List Byte} {enc : W → List Byte}
    {txt₁ : V → Bool} {txt : W → Bool}
    (h₁ : AltsEnc A S nums enc₁ txt₁) (h₂ : OneofsEnc O R enc txt) :
    OneofsEnc (.cons A O) (.cons S R)
      (fun v => (match v.1 with | none => [] | some x => enc₁ x) ++ enc v.2)
      (fun v => if (enc v.2).isEmpty then (match v.1 with | none => false | some x => txt₁ x)
        else txt v.2) where
  error s e w hi he := by
    obtain ⟨⟨which, live⟩, s⟩ := s
    obtain ⟨hi, hi2⟩ := hi
    have : A.serialize which live e w = .ok (e, w) := by
      cases live with
      | none =>
        have : which = 0 := hi
        subst this
        exact h₁.none 0 none e w h0
      | some u =>
        have : which = S.num u := hi.1
        subst this
        exact h₁.error u e w he
    simp only [OneofsClass.cons, this, Res.ok_bind]
    exact h₂.error s e w hi2 he
  ok M s w c room hi hl h := by
    obtain ⟨⟨which, live⟩, s⟩ := s
    obtain ⟨hi, hi2⟩ := hi
    simp only [OneofsSpec.cons, OneofsClass.cons, List.length_append] at hl ⊢
    cases live with
    | none =>
      have : which = 0 := hi
      subst this
      simp only [Option.map_none, h₁.none 0 none .noErrors w h0, Res.ok_bind, List.nil_append,
        List.length_nil, Nat.zero_add] at hl ⊢
      exact (h₂.ok M s w c room hi2 hl h).orNothing
    | some u =>
      have : which = S.num u := hi.1
      subst this
      simp only [Option.map_some] at hl ⊢
      refine AppendsT.bindLast (h₁.ok M u w c room hi.2 (by omega) h) ?_ ?_
      · intro e w he; exact h₂.error s e w hi2 he
      · intro w hw
        exact h₂.ok M s w _ _ hi2 (by omega) hw

/-! ## Messages -/

section Message
variable {F : FieldsClass} {O : OneofsClass} {S : FieldsSpec F V} {R : OneofsSpec O W} {n : Nat}
  {encF : V → List Byte} {encO : W → List Byte} {txtF : V → Bool} {txtO : W → Bool}

/-- `serialize` of a message. -/
theorem msg_serialize (h₁ : FieldsEnc F S n encF txtF) (h₂ : OneofsEnc O R encO txtO) [WriteBuffer ω]
    (M : WriteModel ω) (m : MsgObj F.State O.State) (w : ω) (c : List Byte) (room : Nat)
    (hi : (msgSpec n S R).Inv m)
    (hl : (encF ((msgSpec n S R).abs m).1 ++ encO ((msgSpec n S R).abs m).2).length < 4294967296)
    (h : M.Rep w c room) :
    AppendsT M (if (encO ((msgSpec n S R).abs m).2).isEmpty then txtF ((msgSpec n S R).abs m).1
        else txtO ((msgSpec n S R).abs m).2) c room
      (encF ((msgSpec n S R).abs m).1 ++ encO ((msgSpec n S R).abs m).2) (m.serialize F O w) := by
  simp only [List.length_append] at hl
  refine AppendsT.bindLast (h₁.ok M _ _ w c room hi.1 hi.2.1 (by simp only [msgSpec] at hl; omega) h) ?_ ?_
  · intro e w he; exact h₂.error _ e w hi.2.2 he
  · intro w hw
    exact h₂.ok M _ w _ _ hi.2.2 (by simp only [msgSpec] at hl; omega) hw

theorem msg_serLaw (h₁ : FieldsEnc F S n encF txtF) (h₂ : OneofsEnc O R encO txtO) :
    SerLaw (messageClass n F O) (msgSpec n S R) (fun v => encF v.1 ++ encO v.2)
      (fun v => if (encO v.2).isEmpty then txtF v.1 else txtO v.2) := by
  intro ω _ M m w c room hi _ hl h
  exact msg_serialize h₁ h₂ M m w c room hi hl h

theorem msg_withId (h₁ : FieldsEnc F S n encF txtF) (h₂ : OneofsEnc O R encO txtO) [WriteBuffer ω]
    (M : WriteModel ω) (num : Nat) (hn : num < 536870912) (m : MsgObj F.State O.State)
    (hi : (msgSpec n S R).Inv m) (opt : Bool) (w : ω) (c : List Byte) (room : Nat)
    (bs : List Byte) (hbs : bs = encF ((msgSpec n S R).abs m).1 ++ encO ((msgSpec n S R).abs m).2)
    (t : Bool) (ht : t = if (encO ((msgSpec n S R).abs m).2).isEmpty
      then txtF ((msgSpec n S R).abs m).1 else txtO ((msgSpec n S R).abs m).2)
    (ht0 : bs = [] → t = false) (hl : bs.length < 4294967296)
    (h : M.Rep w c room) :
    AppendsT M t c room (if bs = [] ∧ opt = false then [] else tag num .lengthDelimited ++ lenDelim bs)
      (m.serializeWithId F O num w opt) := by
  have hsize : m.serializedSize F O = .ok bs.length := by
    subst hbs
    exact (msg_serLaw h₁ h₂).size m hi hl
  unfold MsgObj.serializeWithId
  rw [hsize, Res.ok_bind]
  by_cases hcond : 0 < bs.length ∨ opt = true
  · rw [if_pos hcond, if_neg (by
      rw [← List.length_eq_zero_iff]
      rintro ⟨h1, h2⟩
      rcases hcond with h | h
      · omega
      · rw [h2] at h; cases h)]
    rw [lenDelim]
    refine AppendsT.bind (serializeTag_appends M num .lengthDelimited hn w h) ?_
      (fun h => absurd (List.append_eq_nil_iff.mp h).1 (varint_ne_nil _)) ?_
    · intro e w he; simp [he]
    · intro w hw
      simp only [↓reduceIte]
      refine AppendsT.bind (serializeLen_appends M _ hl w hw) ?_ ht0 ?_
      · intro e w he; simp [he]
      · intro w hw
        simp only [↓reduceIte]
        split
        · subst hbs ht
          exact msg_serialize h₁ h₂ M m w _ _ hi hl hw
        · have := M.avail w _ _ hw
          exact AppendsT.full hw (by omega) (by omega)
  · rw [if_neg hcond, if_pos]
    · exact AppendsT.nil h
    · simp only [not_or, Nat.not_lt, Nat.le_zero_eq, Bool.not_eq_true] at hcond
      exact ⟨List.eq_nil_of_length_eq_zero hcond.1, hcond.2⟩

end Message

/-! ## Declarations -/

/-- The record of a field without presence. -/
def plainRecord (t : ElemTy) (num : Nat) (v : t.Val) : List Byte :=
  if t.isDflt (t.dropNegZero (t.canon v)) then []
  else tag num t.wire ++ t.wrap (t.encode (t.dropNegZero (t.canon v)))

/-- The record of a field with presence. -/
def optRecord (t : ElemTy) (num : Nat) (v : t.Val) : List Byte :=
  tag num t.wire ++ t.wrap (t.encode (t.canon v))

theorem FieldsEnc.congr {F : FieldsClass} {S : FieldsSpec F V} {n : Nat} {enc enc' : V → List Byte}
    {txt txt' : V → Bool} (h : FieldsEnc F S n enc txt) (he : ∀ v, enc v = enc' v)
    (ht : ∀ v, txt v = txt' v) : FieldsEnc F S n enc' txt' := funext he ▸ funext ht ▸ h

theorem AltsEnc.congr {A : AltsClass} {S : AltsSpec A V} {nums : List Nat} {enc enc' : V → List Byte}
    {txt txt' : V → Bool} (h : AltsEnc A S nums enc txt) (he : ∀ v, enc v = enc' v)
    (ht : ∀ v, txt v = txt' v) : AltsEnc A S nums enc' txt' := funext he ▸ funext ht ▸ h

theorem OneofsEnc.congr {O : OneofsClass} {S : OneofsSpec O V} {enc enc' : V → List Byte}
    {txt txt' : V → Bool} (h : OneofsEnc O S enc txt) (he : ∀ v, enc v = enc' v)
    (ht : ∀ v, txt v = txt' v) : OneofsEnc O S enc' txt' := funext he ▸ funext ht ▸ h

/-! The flags of a default value, and the flags in terms of the encoding. -/

mutual
theorem ElemTy.endsInText_dflt : (t : ElemTy) → (v : t.Val) → t.isDflt v = true →
    t.endsInText v = false
  | .scalar _, _, _ => rfl
  | .str _, v, h => by
    show (!List.isEmpty (α := Byte) v) = false
    rw [show List.isEmpty (α := Byte) v = true from h]; rfl
  | .msg fs os, v, h => by
    simp only [ElemTy.isDflt, Bool.and_eq_true] at h
    simp only [ElemTy.endsInText, h.2, ↓reduceIte]
    exact Fields.endsInText_dflt fs v.1 h.1
theorem Fields.endsInText_dflt : (fs : Fields) → (v : fs.Val) → fs.isDflt v = true →
    fs.endsInText v = false
  | .nil, _, _ => rfl
  | .plain _ t rest, v, h => by
    simp only [Fields.isDflt, Bool.and_eq_true] at h
    simp only [Fields.endsInText, h.2, ↓reduceIte]
    exact ElemTy.endsInText_dflt t v.1 h.1
  | .optional _ t rest, v, h => by
    simp only [Fields.isDflt, Bool.and_eq_true, Option.isNone_iff_eq_none] at h
    simp only [Fields.endsInText, h.2, ↓reduceIte, h.1]
  | .repeated _ _ t rest, v, h => by
    simp only [Fields.isDflt, Bool.and_eq_true, List.isEmpty_iff] at h
    simp only [Fields.endsInText, h.2, ↓reduceIte, h.1, List.map_nil, List.getLast?_nil]
end

theorem Fields.encode_isEmpty (fs : Fields) (v : fs.Val) : (fs.encode v).isEmpty = fs.isDflt v := by
  have := Fields.encodeWith_eq_nil (sc := ScalarTy.enc) fs v
  rw [Bool.eq_iff_iff, List.isEmpty_iff]
  exact this

theorem Oneofs.encode_isEmpty (os : Oneofs) (v : os.Val) : (os.encode v).isEmpty = os.isDflt v := by
  have := Oneofs.encodeWith_eq_nil (sc := ScalarTy.enc) os v
  rw [Bool.eq_iff_iff, List.isEmpty_iff]
  exact this

theorem ElemTy.msg_endsInText (fs : Fields) (os : Oneofs) (v : fs.Val × os.Val) :
    (if (os.encode (os.canon v.2)).isEmpty then fs.endsInText (fs.canon v.1)
      else os.endsInText (os.canon v.2)) = (ElemTy.msg fs os).endsInText ((ElemTy.msg fs os).canon v) := by
  rw [Oneofs.encode_isEmpty]
  rfl

theorem ElemTy.endsInText_nil (fs : Fields) (os : Oneofs) (v : fs.Val × os.Val)
    (h : fs.encode (fs.canon v.1) ++ os.encode (os.canon v.2) = []) :
    (ElemTy.msg fs os).endsInText ((ElemTy.msg fs os).canon v) = false :=
  ElemTy.endsInText_dflt _ _ ((ElemTy.msg_encodeWith_eq_nil (sc := ScalarTy.enc) fs os
    (fs.canon v.1, os.canon v.2)).mp h)

structure ElemEnc (t : ElemTy) : Prop where
  ser : SerLaw t.cls t.spec (fun v => t.encode (t.canon v)) (fun v => t.endsInText (t.canon v))
  opt : ∀ num, num < 536870912 → OptEnc t.cls t.spec num (optRecord t num)
    (fun v => t.endsInText (t.canon v))
  plain : ∀ num, num < 536870912 → PlainEnc t.cls t.spec num (plainRecord t num)
    (fun v => t.endsInText (t.dropNegZero (t.canon v)))

theorem ElemTy.isPacked_cls (t : ElemTy) : t.cls.isPacked = t.isScalar := by
  cases t <;> rfl

theorem elemEnc_msg {fs : Fields} {os : Oneofs}
    (h₁ : FieldsEnc (fs.cls 0) (fs.spec 0) fs.nOptional (fun v => fs.encode (fs.canon v))
      (fun v => fs.endsInText (fs.canon v)))
    (h₂ : OneofsEnc os.cls os.spec (fun v => os.encode (os.canon v))
      (fun v => os.endsInText (os.canon v))) : ElemEnc (.msg fs os) where
  ser := by
    have := msg_serLaw h₁ h₂
    refine Eq.mp (congrArg (SerLaw _ _ _) ?_) this
    funext v
    exact ElemTy.msg_endsInText fs os v
  opt num hn := by
    intro ω _ M m w c room hi hl h
    have := msg_withId h₁ h₂ M num hn m hi true w c room _ rfl _
      (ElemTy.msg_endsInText fs os _).symm (ElemTy.endsInText_nil fs os _) (by
      simp only [optRecord, ElemTy.wrap, List.length_append, lenDelim] at hl
      exact Nat.lt_of_le_of_lt (Nat.le_trans (Nat.le_add_left _ _) (Nat.le_add_left _ _)) hl) h
    simp only [Bool.true_eq_false, and_false, ↓reduceIte] at this
    exact this
  plain num hn := by
    intro ω _ M m w c room hi hl h
    have hiff := ElemTy.msg_encodeWith_eq_nil (sc := ScalarTy.enc) fs os
      (fs.canon ((msgSpec fs.nOptional (fs.spec 0) os.spec).abs m).1,
       os.canon ((msgSpec fs.nOptional (fs.spec 0) os.spec).abs m).2)
    have hrec : plainRecord (.msg fs os) num ((ElemTy.msg fs os).spec.abs m) =
        if (ElemTy.msg fs os).encode
          (fs.canon ((msgSpec fs.nOptional (fs.spec 0) os.spec).abs m).1,
           os.canon ((msgSpec fs.nOptional (fs.spec 0) os.spec).abs m).2) = [] ∧ false = false then []
        else tag num .lengthDelimited ++ lenDelim ((ElemTy.msg fs os).encode
          (fs.canon ((msgSpec fs.nOptional (fs.spec 0) os.spec).abs m).1,
           os.canon ((msgSpec fs.nOptional (fs.spec 0) os.spec).abs m).2)) := by
      rw [plainRecord]
      simp only [and_true]
      by_cases hd : (ElemTy.msg fs os).encode
          (fs.canon ((msgSpec fs.nOptional (fs.spec 0) os.spec).abs m).1,
           os.canon ((msgSpec fs.nOptional (fs.spec 0) os.spec).abs m).2) = []
      · rw [if_pos hd, if_pos]
        exact hiff.mp hd
      · rw [if_neg hd, if_neg]
        · rfl
        · exact fun h => hd (hiff.mpr h)
    rw [hrec] at hl ⊢
    refine msg_withId h₁ h₂ M num hn m hi false w c room _ rfl _
      (ElemTy.msg_endsInText fs os _).symm (ElemTy.endsInText_nil fs os _) ?_ h
    split at hl
    · rename_i hd
      have h0 := congrArg List.length hd.1
      exact Nat.lt_of_le_of_lt (Nat.le_of_eq h0) (by decide)
    · simp only [List.length_append, lenDelim] at hl
      exact Nat.lt_of_le_of_lt (Nat.le_trans (Nat.le_add_left _ _) (Nat.le_add_left _ _)) hl

mutual
theorem ElemTy.enc_law : (t : ElemTy) → t.WF → ElemEnc t
  | .scalar s, _ => ⟨scalar_serLaw s, fun num hn => scalar_optEnc s num hn,
      fun num hn => scalar_plainEnc s num hn⟩
  | .str cap, h => by
    simp only [ElemTy.WF] at h
    exact ⟨str_serLaw cap h.1 h.2, fun num hn => str_optEnc cap h.1 h.2 num hn,
      fun num hn => str_plainEnc cap h.1 h.2 num hn⟩
  | .msg fs os, h => by
    simp only [ElemTy.WF] at h
    refine elemEnc_msg (Fields.enc_law fs 0 _ h.1 ?_ (by omega)) (Oneofs.enc_law os h.2.1 ?_ ?_)
    · intro k hk; exact (h.2.2.2 k (List.mem_append_left _ hk)).2
    · exact (List.nodup_append.mp h.2.2.1).2.1
    · intro k hk; exact h.2.2.2 k (List.mem_append_right _ hk)
theorem Fields.enc_law : (fs : Fields) → (idx n : Nat) → fs.WF →
    (∀ k ∈ fs.numbers, k < 536870912) → idx + fs.nOptional ≤ n →
    FieldsEnc (fs.cls idx) (fs.spec idx) n (fun v => fs.encode (fs.canon v))
      (fun v => fs.endsInText (fs.canon v))
  | .nil, idx, n, _, _, _ => fieldsEnc_nil n
  | .plain num t rest, idx, n, h, hn, hi => by
    simp only [Fields.WF] at h
    simp only [Fields.nOptional] at hi
    simp only [Fields.numbers, List.mem_cons, forall_eq_or_imp] at hn
    refine (fieldsEnc_plain ((ElemTy.enc_law t h.1).plain num hn.1)
      (Fields.enc_law rest idx n h.2 hn.2 hi)).congr (fun _ => rfl) (fun v => ?_)
    rw [Fields.encode_isEmpty]
    rfl
  | .optional num t rest, idx, n, h, hn, hi => by
    simp only [Fields.WF] at h
    simp only [Fields.nOptional] at hi
    simp only [Fields.numbers, List.mem_cons, forall_eq_or_imp] at hn
    have := fieldsEnc_optional (num := num) (idx := idx) (n := n) (by omega)
      ((ElemTy.enc_law t h.1).opt num hn.1) (Fields.enc_law rest (idx + 1) n h.2 hn.2 (by omega))
    refine this.congr (fun v => ?_) (fun v => ?_)
    · obtain ⟨v, vs⟩ := v
      cases v <;> rfl
    · rw [Fields.encode_isEmpty]
      obtain ⟨v, vs⟩ := v
      cases v <;> rfl
  | .repeated num cap t rest, idx, n, h, hn, hi => by
    simp only [Fields.WF] at h
    simp only [Fields.nOptional] at hi
    simp only [Fields.numbers, List.mem_cons, forall_eq_or_imp] at hn
    have ih := Fields.enc_law rest idx n h.2.2 hn.2 hi
    have iht := ElemTy.enc_law t h.2.1
    cases hs : t.isScalar
    · have h0 : ∀ v, t.encode (t.canon v) = [] → t.endsInText (t.canon v) = false := by
        cases t with
        | scalar s => simp [ElemTy.isScalar] at hs
        | str cap =>
          intro v hv
          exact ElemTy.endsInText_dflt (.str cap) v (List.isEmpty_iff.mpr hv)
        | msg fs os => intro v hv; exact ElemTy.endsInText_nil fs os v hv
      have := fieldsEnc_plain (num := num) (rep_plainEnc_unpacked iht.ser h0 (by rw [ElemTy.isPacked_cls, hs]) h.1 num hn.1) ih
      refine this.congr (fun v => ?_) (fun v => ?_)
      · obtain ⟨v, vs⟩ := v
        show _ = encodeRepeated t num (List.map t.encode (List.map t.canon v)) ++ rest.encode (rest.canon vs)
        rw [encodeRepeated, hs, if_neg (by decide), List.map_map (g := t.encode)]
        rfl
      · rw [Fields.encode_isEmpty]
        obtain ⟨v, vs⟩ := v
        show (if rest.isDflt (rest.canon vs) then lastFlag _ else _) =
          if rest.isDflt (rest.canon vs) then
            (match (List.map t.endsInText (List.map t.canon v)).getLast? with
              | none => false
              | some b => b) else _
        rw [List.map_map]
        cases rest.isDflt (rest.canon vs)
        · rfl
        · simp only [↓reduceIte, lastFlag, Function.comp_def]
          cases (List.map (fun v => t.endsInText (t.canon v)) v).getLast? <;> rfl
    · have hne : ∀ v, t.encode (t.canon v) ≠ [] := by
        cases t with
        | scalar s => intro v; exact ScalarTy.enc_ne_nil s _
        | str cap => simp [ElemTy.isScalar] at hs
        | msg fs os => simp [ElemTy.isScalar] at hs
      have hf : ∀ v, t.endsInText v = false := by
        cases t with
        | scalar s => intro v; rfl
        | str cap => simp [ElemTy.isScalar] at hs
        | msg fs os => simp [ElemTy.isScalar] at hs
      have hser : SerLaw t.cls t.spec (fun v => t.encode (t.canon v)) (fun _ => false) :=
        Eq.mp (congrArg (SerLaw _ _ _) (funext fun v => hf _)) iht.ser
      have := fieldsEnc_plain (num := num) (rep_plainEnc_packed hser hne (by rw [ElemTy.isPacked_cls, hs]) h.1 num hn.1) ih
      refine this.congr (fun v => ?_) (fun v => ?_)
      · obtain ⟨v, vs⟩ := v
        show _ = encodeRepeated t num (List.map t.encode (List.map t.canon v)) ++ rest.encode (rest.canon vs)
        rw [encodeRepeated, hs, if_pos rfl, List.map_map (g := t.encode)]
        rfl
      · rw [Fields.encode_isEmpty]
        obtain ⟨v, vs⟩ := v
        show (if rest.isDflt (rest.canon vs) then false else _) =
          if rest.isDflt (rest.canon vs) then
            (match (List.map t.endsInText (List.map t.canon v)).getLast? with
              | none => false
              | some b => b) else _
        cases rest.isDflt (rest.canon vs)
        · rfl
        · simp only [↓reduceIte]
          cases hg : (List.map t.endsInText (List.map t.canon v)).getLast? with
          | none => rfl
          | some b =>
            obtain ⟨a, _, ha⟩ := List.mem_map.mp (List.mem_of_getLast? hg)
            rw [← ha, hf]
theorem Alts.enc_law : (a : Alts) → a.WF → a.numbers.Nodup →
    (∀ k ∈ a.numbers, k < 536870912) →
    AltsEnc a.cls a.spec a.numbers (fun v => a.encode (a.canon v))
      (fun v => a.endsInText (a.canon v))
  | .nil, _, _, _ => by
    exact altsEnc_nil.congr (fun v => nomatch v) (fun v => nomatch v)
  | .cons num t rest, h, hd, hn => by
    simp only [Alts.WF] at h
    simp only [Alts.numbers, List.nodup_cons] at hd
    simp only [Alts.numbers, List.mem_cons, forall_eq_or_imp] at hn
    have := altsEnc_cons hd.1 ((ElemTy.enc_law t h.1).opt num hn.1)
      (Alts.enc_law rest h.2 hd.2 hn.2)
    exact this.congr (fun v => by cases v <;> rfl) (fun v => by cases v <;> rfl)
theorem Oneofs.enc_law : (os : Oneofs) → os.WF → os.numbers.Nodup →
    (∀ k ∈ os.numbers, 0 < k ∧ k < 536870912) →
    OneofsEnc os.cls os.spec (fun v => os.encode (os.canon v))
      (fun v => os.endsInText (os.canon v))
  | .nil, _, _, _ => oneofsEnc_nil
  | .cons a rest, h, hd, hn => by
    simp only [Oneofs.WF] at h
    simp only [Oneofs.numbers] at hd hn
    have hd' := List.nodup_append.mp hd
    have := oneofsEnc_cons (S := a.spec) (fun h0 => absurd (hn 0 (List.mem_append_left _ h0)).1 (by omega))
      (Alts.enc_law a h.1 hd'.1 (fun k hk => (hn k (List.mem_append_left _ hk)).2))
      (Oneofs.enc_law rest h.2 hd'.2.1 (fun k hk => hn k (List.mem_append_right _ hk)))
    refine this.congr (fun v => ?_) (fun v => ?_)
    · obtain ⟨v, vs⟩ := v
      cases v <;> rfl
    · rw [Oneofs.encode_isEmpty]
      obtain ⟨v, vs⟩ := v
      cases v <;> rfl
end

end EP
