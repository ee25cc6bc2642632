import Verif.Spec.HandFields
import Verif.Proof.EncScalar
import Verif.Proof.DecScalar
import Verif.Proof.SpecMerge

/-!
# Fields written by hand: proofs
-/

namespace EP
open Spec

variable {ω β : Type}

/-! ## Writing -/

/-- The call for a type has the effect of `serialize_with_id` of the field class of the type. -/
theorem ScalarTy.put_eq [WriteBuffer ω] (s : ScalarTy) (num : Nat) (v : s.Val) (w : ω) (opt : Bool) :
    s.put num v w = (scalarClass s).serializeWithId num v w opt := by
  cases s <;> rfl

theorem ScalarTy.put_appends [WriteBuffer ω] (M : WriteModel ω) (s : ScalarTy) (num : Nat)
    (hn : num < 2 ^ 29) (v : s.Val) (w : ω) {c : List Byte} {room : Nat} (h : M.Rep w c room) :
    AppendsT M false c room (tag num s.wire ++ s.enc v) (s.put num v w) := by
  rw [s.put_eq num v w false]
  exact scalar_withId M s num (by omega) v false w h

theorem putAll_appends [WriteBuffer ω] (M : WriteModel ω) (fs : List HandField)
    (hn : ∀ f ∈ fs, f.num < 2 ^ 29) (w : ω) {c : List Byte} {room : Nat} (h : M.Rep w c room) :
    AppendsT M false c room (fs.flatMap HandField.bytes) (putAll fs w) := by
  induction fs generalizing w c room with
  | nil =>
    simp only [putAll, List.flatMap_nil, AppendsT, Res.pure_eq, Res.Post_ok]
    left
    simpa using h
  | cons f fs ih =>
    rw [List.flatMap_cons]
    simp only [putAll]
    refine AppendsT.bind (f.ty.put_appends M f.num (hn f (List.mem_cons_self ..)) f.val w h) ?_
      (fun _ => rfl) ?_
    · intro e w he; simp [he]
    · intro w hw
      simpa using ih (fun g hg => hn g (List.mem_cons_of_mem _ hg)) w hw

/-! ## Reading -/

theorem ScalarTy.get_eq [ReadBuffer β] (s : ScalarTy) (h : s ≠ .enumeration) (b : β) :
    s.get b = s.decode b := by
  cases s <;> first | rfl | exact absurd rfl h

theorem ScalarTy.get_payload [ReadBuffer β] (M : ReadModel β) (s : ScalarTy) (b : β)
    (bs rest : List Byte) (v : s.Val) (hb : M.Inv b) (hv : M.view b = bs ++ rest)
    (h : s.HandPayload bs v) :
    (s.get b).Post fun p => p.1 = .ok v ∧ M.Inv p.2 ∧ M.view p.2 = rest := by
  cases s
  case enumeration => exact scalar_decode M .int32 b bs rest v hb hv h
  case boolean =>
    obtain ⟨x, rfl, rfl⟩ := h
    exact deserializeBool_cons M x rest b hb hv
  all_goals
    rw [ScalarTy.get_eq _ (by decide)]
    exact scalar_decode M _ b bs rest v hb hv h

theorem bool_payload (v : Bool) : ∃ x : Byte, varint (if v then 1 else 0) = [x] ∧ v = (x != 0) := by
  cases v
  · exact ⟨0, by decide +kernel, rfl⟩
  · exact ⟨1, by decide +kernel, rfl⟩

theorem ScalarTy.hand_enc (s : ScalarTy) (v : s.Val) : s.HandPayload (s.enc v) v := by
  cases s
  case enumeration =>
    have := BitVec.isLt (w := 32) v
    exact ⟨_, varint_spec 64 _ (by decide) (by omega), by simp⟩
  case boolean => exact bool_payload v
  all_goals exact ScalarTy.payload_enc _ v

theorem signExtend_payload (v : BitVec 32) :
    ∃ n, Spec.Varint 64 (varint (v.signExtend 64).toNat) n ∧ v = BitVec.ofNat 32 n := by
  refine ⟨_, varint_spec 64 _ (by decide) (v.signExtend 64).isLt, ?_⟩
  rw [show BitVec.ofNat 32 (v.signExtend 64).toNat = (v.signExtend 64).setWidth 32 from by
    apply BitVec.eq_of_toNat_eq; simp]
  apply BitVec.eq_of_getElem_eq
  intro i hi
  rw [BitVec.getElem_setWidth, BitVec.getLsbD_signExtend]
  have h1 : i < 64 := by omega
  simp [h1, hi, BitVec.getLsbD_eq_getElem]

theorem ScalarTy.hand_standard (s : ScalarTy) (v : s.Val) : s.HandPayload (s.encStandard v) v := by
  cases s
  case enumeration => exact signExtend_payload v
  case int32 => exact signExtend_payload v
  case boolean => exact bool_payload v
  all_goals exact ScalarTy.payload_enc _ v

theorem HandField.record_bytes (f : HandField) (h : f.num < 2 ^ 29) : f.Record f.bytes := by
  have := wireNumber_lt f.ty.wire
  exact ⟨_, _, varint_spec 32 _ (by decide) (by omega), f.ty.hand_enc f.val, rfl⟩

theorem HandField.record_standard (f : HandField) (h : f.num < 2 ^ 29) : f.Record f.standard := by
  have := wireNumber_lt f.ty.wire
  exact ⟨_, _, varint_spec 32 _ (by decide) (by omega), f.ty.hand_standard f.val, rfl⟩

theorem getOne_record [ReadBuffer β] (M : ReadModel β) (dispatch : Nat → WireType → Option ScalarTy)
    (f : HandField) (hk : f.Known dispatch) (bs rest : List Byte) (hr : f.Record bs) (b : β)
    (hb : M.Inv b) (hv : M.view b = bs ++ rest) :
    (getOne dispatch b).Post fun p => p.1 = .ok f ∧ M.Inv p.2 ∧ M.view p.2 = rest := by
  obtain ⟨t, p, ht, hp, rfl⟩ := hr
  unfold getOne
  rw [Res.Post_bind]
  rw [List.append_assoc] at hv
  refine (deserializeTag_ok M t (p ++ rest) _ f.ty.wire f.num ht rfl b hb hv).mono ?_
  rintro ⟨r, b'⟩ ⟨h1, h2, h3⟩
  dsimp only at h1 h2 h3
  subst h1
  unfold HandField.Known at hk
  dsimp only
  rw [hk]
  dsimp only
  rw [Res.Post_bind]
  refine (f.ty.get_payload M b' p rest f.val h2 h3 hp).mono ?_
  rintro ⟨r, b''⟩ ⟨h4, h5⟩
  dsimp only at h4 h5
  subst h4
  exact ⟨rfl, h5⟩

theorem getAll_records [ReadBuffer β] (M : ReadModel β) (dispatch : Nat → WireType → Option ScalarTy)
    (fs : List HandField) (hk : ∀ f ∈ fs, f.Known dispatch) (bs rest : List Byte)
    (hr : HandRecords fs bs) (b : β) (hb : M.Inv b) (hv : M.view b = bs ++ rest) :
    (getAll dispatch fs.length b).Post fun p => p.1 = .ok fs ∧ M.Inv p.2 ∧ M.view p.2 = rest := by
  induction hr generalizing b rest with
  | nil => exact ⟨rfl, hb, by simpa using hv⟩
  | @cons f fs bs bs' hf _ ih =>
    simp only [List.length_cons, getAll]
    rw [Res.Post_bind]
    rw [List.append_assoc] at hv
    refine (getOne_record M dispatch f (hk f (List.mem_cons_self ..)) bs _ hf b hb hv).mono ?_
    rintro ⟨r, b'⟩ ⟨h1, h2, h3⟩
    dsimp only at h1 h2 h3
    subst h1
    dsimp only
    rw [Res.Post_bind]
    refine (ih (fun g hg => hk g (List.mem_cons_of_mem _ hg)) rest b' h2 h3).mono ?_
    rintro ⟨r, b''⟩ ⟨h4, h5⟩
    dsimp only at h4 h5
    subst h4
    exact ⟨rfl, h5⟩

theorem handRecords_of {enc : HandField → List Byte} (fs : List HandField)
    (h : ∀ f ∈ fs, f.Record (enc f)) : HandRecords fs (fs.flatMap enc) := by
  induction fs with
  | nil => exact .nil
  | cons f fs ih =>
    exact .cons (h f (List.mem_cons_self ..)) (ih fun g hg => h g (List.mem_cons_of_mem _ hg))

/-! ### What is read was there -/

theorem varint_sound [ReadBuffer β] (M : ReadModel β) (w : Nat) (hw : 0 < w) (b : β) (hb : M.Inv b) :
    (deserializeVarint w b).Post fun p => M.Inv p.2 ∧ ∀ x, p.1 = .ok x →
      ∃ bs rest n, M.view b = bs ++ rest ∧ Spec.Varint w bs n ∧ x = BitVec.ofNat w n ∧ M.view p.2 = rest := by
  rcases varint_cases (maxVarint w) (M.view b) with ⟨bs, rest, hv, h⟩ | ⟨h, hl⟩ | ⟨bs, rest, hv, h, hl⟩
  · refine (deserializeVarint_ok M w bs rest h b hb hv).mono ?_
    rintro p ⟨h1, h2, h3⟩
    refine ⟨h2, fun x hx => ⟨bs, rest, groups bs % 2 ^ w, hv, ⟨h, rfl⟩, ?_, h3⟩⟩
    rw [h1] at hx
    injection hx with hx
    rw [← hx]
    apply BitVec.eq_of_toNat_eq; simp
  · refine (deserializeVarint_short M w _ h hl b hb rfl).mono ?_
    rintro p ⟨h1, h2, h3⟩
    exact ⟨h2, fun x hx => by rw [h1] at hx; cases hx⟩
  · refine (deserializeVarint_long M w hw bs rest h hl b hb hv).mono ?_
    rintro p ⟨h1, h2, h3⟩
    exact ⟨h2, fun x hx => by rw [h1] at hx; cases hx⟩

theorem varint_map_sound [ReadBuffer β] (M : ReadModel β) (w : Nat) (f : BitVec 64 → BitVec w) (b : β)
    (hb : M.Inv b) : (do
      let (r, b) ← deserializeVarint 64 b
      pure (r.map f, b) : Res (Except Error (BitVec w) × β)).Post fun p =>
      M.Inv p.2 ∧ ∀ x, p.1 = .ok x → ∃ bs rest n, M.view b = bs ++ rest ∧ Spec.Varint 64 bs n ∧
        x = f (BitVec.ofNat 64 n) ∧ M.view p.2 = rest := by
  refine Res.Post_bind.mpr ?_
  refine (varint_sound M 64 (by decide) b hb).mono ?_
  rintro ⟨r, b'⟩ ⟨h1, h2⟩
  refine ⟨h1, fun x hx => ?_⟩
  cases r with
  | error e => cases hx
  | ok y =>
    injection hx with hx
    obtain ⟨bs, rest, n, h3, h4, h5, h6⟩ := h2 y rfl
    exact ⟨bs, rest, n, h3, h4, by rw [← hx, h5], h6⟩

theorem fixed_sound [ReadBuffer β] (M : ReadModel β) (w : Nat) (b : β) (hb : M.Inv b) :
    (deserializeFixed w b).Post fun p => M.Inv p.2 ∧ ∀ x, p.1 = .ok x →
      ∃ bs rest, M.view b = bs ++ rest ∧ (bs.length = w / 8 ∧ x = BitVec.ofNat w (ofLittleEndian bs)) ∧
        M.view p.2 = rest := by
  by_cases h : (M.view b).length < w / 8
  · refine (deserializeFixed_short M w b hb h).mono ?_
    rintro p ⟨h1, h2, h3⟩
    exact ⟨h2, fun x hx => by rw [h1] at hx; cases hx⟩
  · have hl : ((M.view b).take (w / 8)).length = w / 8 := by simp; omega
    refine (deserializeFixed_ok M w _ ((M.view b).drop (w / 8)) hl b hb (by simp)).mono ?_
    rintro p ⟨h1, h2, h3⟩
    refine ⟨h2, fun x hx => ⟨_, _, (List.take_append_drop _ _).symm, ⟨hl, ?_⟩, h3⟩⟩
    rw [h1] at hx
    injection hx with hx
    exact hx.symm

theorem zigzag_payload {w : Nat} (hw : 1 < w) (hw' : w ≤ 64) (n : Nat) (hn : n < 2 ^ 64) :
    zigzag (zigZagDecode ((BitVec.ofNat 64 n).setWidth w)).toInt = n % 2 ^ w := by
  rw [← zigZagEncode_spec (by omega), zigZag_encode_decode hw, setWidth_ofNat_of_lt hn,
    BitVec.toNat_ofNat]

theorem ScalarTy.get_sound [ReadBuffer β] (M : ReadModel β) (s : ScalarTy) (b : β) (hb : M.Inv b) :
    (s.get b).Post fun p => M.Inv p.2 ∧ ∀ x, p.1 = .ok x →
      ∃ bs rest, M.view b = bs ++ rest ∧ s.HandPayload bs x ∧ M.view p.2 = rest := by
  have hint : ∀ w, (deserializeInt w b).Post fun p => M.Inv p.2 ∧ ∀ x, p.1 = .ok x →
      ∃ bs rest, M.view b = bs ++ rest ∧ (∃ n, Spec.Varint 64 bs n ∧ x = BitVec.ofNat w n) ∧
        M.view p.2 = rest := by
    intro w
    refine (varint_map_sound M w (fun v => v.setWidth w) b hb).mono ?_
    rintro p ⟨h1, h2⟩
    refine ⟨h1, fun x hx => ?_⟩
    obtain ⟨bs, rest, n, h3, h4, h5, h6⟩ := h2 x hx
    exact ⟨bs, rest, h3, ⟨n, h4, by rw [h5, setWidth_ofNat_of_lt (Varint.lt h4)]⟩, h6⟩
  have huint : ∀ w, 0 < w → (deserializeVarint w b).Post fun p => M.Inv p.2 ∧ ∀ x, p.1 = .ok x →
      ∃ bs rest, M.view b = bs ++ rest ∧ (∃ n, Spec.Varint w bs n ∧ x = BitVec.ofNat w n) ∧
        M.view p.2 = rest := by
    intro w hw
    refine (varint_sound M w hw b hb).mono ?_
    rintro p ⟨h1, h2⟩
    refine ⟨h1, fun x hx => ?_⟩
    obtain ⟨bs, rest, n, h3, h4, h5, h6⟩ := h2 x hx
    exact ⟨bs, rest, h3, ⟨n, h4, h5⟩, h6⟩
  have hsint : ∀ w, 1 < w → w ≤ 64 → (deserializeSInt w b).Post fun p => M.Inv p.2 ∧ ∀ x, p.1 = .ok x →
      ∃ bs rest, M.view b = bs ++ rest ∧ (∃ n, Spec.Varint 64 bs n ∧ zigzag x.toInt = n % 2 ^ w) ∧
        M.view p.2 = rest := by
    intro w hw hw'
    refine (varint_map_sound M w (fun v => zigZagDecode (v.setWidth w)) b hb).mono ?_
    rintro p ⟨h1, h2⟩
    refine ⟨h1, fun x hx => ?_⟩
    obtain ⟨bs, rest, n, h3, h4, h5, h6⟩ := h2 x hx
    exact ⟨bs, rest, h3, ⟨n, h4, by rw [h5, zigzag_payload hw hw' n (Varint.lt h4)]⟩, h6⟩
  cases s with
  | int32 => exact hint 32
  | int64 => exact hint 64
  | enumeration => exact hint 32
  | uint32 => exact huint 32 (by decide)
  | uint64 => exact huint 64 (by decide)
  | sint32 => exact hsint 32 (by decide) (by decide)
  | sint64 =>
    refine (hsint 64 (by decide) (by decide)).mono ?_
    rintro p ⟨h1, h2⟩
    refine ⟨h1, fun x hx => ?_⟩
    obtain ⟨bs, rest, h3, ⟨n, h4, h5⟩, h6⟩ := h2 x hx
    rw [Nat.mod_eq_of_lt (Varint.lt h4)] at h5
    exact ⟨bs, rest, h3, by subst h5; exact h4, h6⟩
  | boolean =>
    cases hv : M.view b with
    | nil =>
      refine (deserializeBool_nil M b hb hv).mono ?_
      rintro p ⟨h1, h2, h3⟩
      exact ⟨h2, fun x hx => by rw [h1] at hx; cases hx⟩
    | cons y ys =>
      refine (deserializeBool_cons M y ys b hb hv).mono ?_
      rintro p ⟨h1, h2, h3⟩
      refine ⟨h2, fun x hx => ⟨[y], ys, rfl, ⟨y, rfl, ?_⟩, h3⟩⟩
      rw [h1] at hx
      injection hx with hx
      exact hx.symm
  | fixed32 => exact fixed_sound M 32 b hb
  | sfixed32 => exact fixed_sound M 32 b hb
  | floatfixed => exact fixed_sound M 32 b hb
  | fixed64 => exact fixed_sound M 64 b hb
  | sfixed64 => exact fixed_sound M 64 b hb
  | doublefixed => exact fixed_sound M 64 b hb

theorem ofNat?_some {n : Nat} {t : WireType} (h : WireType.ofNat? n = some t) : wireNumber t = n := by
  unfold WireType.ofNat? at h
  split at h <;> first | (cases h; rfl) | cases h

theorem tag_sound [ReadBuffer β] (M : ReadModel β) (b : β) (hb : M.Inv b) :
    (deserializeTag b).Post fun p => M.Inv p.2 ∧ ∀ wt num, p.1 = .ok (wt, num) →
      ∃ t rest, M.view b = t ++ rest ∧ Spec.Varint 32 t (8 * num + wireNumber wt) ∧ M.view p.2 = rest := by
  unfold deserializeTag
  rw [Res.Post_bind]
  refine (varint_sound M 32 (by decide) b hb).mono ?_
  rintro ⟨r, b'⟩ ⟨h1, h2⟩
  cases r with
  | error e => exact ⟨h1, fun _ _ h => by cases h⟩
  | ok v =>
    obtain ⟨t, rest, n, h3, h4, h5, h6⟩ := h2 v rfl
    have hn := Varint.lt h4
    dsimp only
    cases ho : WireType.ofNat? (v &&& 7).toNat with
    | none => exact ⟨h1, fun _ _ h => by cases h⟩
    | some wt =>
      refine ⟨h1, fun wt' num h => ?_⟩
      injection h with h
      injection h with ha hc
      subst ha hc
      refine ⟨t, rest, h3, ?_, h6⟩
      have e1 : (v &&& 7).toNat = n % 8 := by
        rw [h5, BitVec.toNat_and, BitVec.toNat_ofNat, Nat.mod_eq_of_lt hn]
        exact Nat.and_two_pow_sub_one_eq_mod n 3
      have e2 : (v >>> 3).toNat = n / 8 := by
        rw [h5, BitVec.toNat_ushiftRight, BitVec.toNat_ofNat, Nat.mod_eq_of_lt hn,
          Nat.shiftRight_eq_div_pow]
      rw [ofNat?_some ho, e1, e2]
      have : 8 * (n / 8) + n % 8 = n := by omega
      rw [this]; exact h4

theorem getOne_sound [ReadBuffer β] (M : ReadModel β) (dispatch : Nat → WireType → Option ScalarTy)
    (hd : ∀ num wt s, dispatch num wt = some s → wt = s.wire) (b : β) (hb : M.Inv b) :
    (getOne dispatch b).Post fun p => M.Inv p.2 ∧ ∀ f, p.1 = .ok f →
      ∃ bs rest, M.view b = bs ++ rest ∧ f.Record bs ∧ f.Known dispatch ∧ M.view p.2 = rest := by
  unfold getOne
  rw [Res.Post_bind]
  refine (tag_sound M b hb).mono ?_
  rintro ⟨r, b'⟩ ⟨h1, h2⟩
  cases r with
  | error e => exact ⟨h1, fun _ h => by cases h⟩
  | ok q =>
    obtain ⟨wt, num⟩ := q
    obtain ⟨t, rest, h3, h4, h5⟩ := h2 wt num rfl
    dsimp only
    cases hs : dispatch num wt with
    | none => exact ⟨h1, fun _ h => by cases h⟩
    | some s =>
      have hw := hd num wt s hs
      subst hw
      dsimp only
      rw [Res.Post_bind]
      refine (s.get_sound M b' h1).mono ?_
      rintro ⟨r, b''⟩ ⟨h6, h7⟩
      refine ⟨h6, fun f hf => ?_⟩
      cases r with
      | error e => cases hf
      | ok v =>
        injection hf with hf
        subst hf
        obtain ⟨bs, rest', h8, h9, h10⟩ := h7 v rfl
        refine ⟨t ++ bs, rest', ?_, ⟨t, bs, h4, h9, rfl⟩, hs, h10⟩
        rw [h3, ← h5, h8, List.append_assoc]

theorem getAll_sound [ReadBuffer β] (M : ReadModel β) (dispatch : Nat → WireType → Option ScalarTy)
    (hd : ∀ num wt s, dispatch num wt = some s → wt = s.wire) (n : Nat) (b : β) (hb : M.Inv b) :
    (getAll dispatch n b).Post fun p => M.Inv p.2 ∧ ∀ fs, p.1 = .ok fs → fs.length = n ∧
      ∃ bs rest, M.view b = bs ++ rest ∧ HandRecords fs bs ∧ (∀ f ∈ fs, f.Known dispatch) ∧
        M.view p.2 = rest := by
  induction n generalizing b with
  | zero =>
    refine ⟨hb, fun fs h => ?_⟩
    injection h with h
    subst h
    exact ⟨rfl, [], _, rfl, .nil, nofun, rfl⟩
  | succ n ih =>
    rw [getAll, Res.Post_bind]
    refine (getOne_sound M dispatch hd b hb).mono ?_
    rintro ⟨r, b'⟩ ⟨h1, h2⟩
    cases r with
    | error e => exact ⟨h1, fun _ h => by cases h⟩
    | ok f =>
      obtain ⟨bs, rest, h3, h4, h5, h6⟩ := h2 f rfl
      dsimp only
      rw [Res.Post_bind]
      refine (ih b' h1).mono ?_
      rintro ⟨r, b''⟩ ⟨h7, h8⟩
      refine ⟨h7, fun fs h => ?_⟩
      cases r with
      | error e => cases h
      | ok gs =>
        injection h with h
        subst h
        obtain ⟨h9, bs', rest', h10, h11, h12, h13⟩ := h8 gs rfl
        refine ⟨by rw [List.length_cons, h9], bs ++ bs', rest', ?_, .cons h4 h11, ?_, h13⟩
        · rw [h3, ← h6, h10, List.append_assoc]
        · intro g hg
          rcases List.mem_cons.mp hg with rfl | hg
          · exact h5
          · exact h12 g hg

/-! ## Flat messages -/

theorem flatMap_ite (c : Bool) (f : HandField) :
    (if c then [] else [f]).flatMap HandField.bytes = if c then [] else f.bytes := by
  cases c
  · exact List.append_nil _
  · rfl

theorem Fields.hand_encode : (fs : Fields) → fs.Flat → (v : fs.Val) →
    (fs.hand v).flatMap HandField.bytes = fs.encode v
  | .nil, _, _ => rfl
  | .plain num (.scalar s) rest, h, v => by
    have ih := Fields.hand_encode rest h v.2
    simp only [Fields.hand, List.flatMap_append, ih, Fields.encode, Fields.encodeWith, ElemTy.isDflt]
    congr 1
    exact flatMap_ite (s.isZero v.1) ⟨num, s, v.1⟩
  | .optional num (.scalar s) rest, h, v => by
    have ih := Fields.hand_encode rest h v.2
    simp only [Fields.hand, List.flatMap_append, ih, Fields.encode, Fields.encodeWith]
    congr 1
    cases v.1 with
    | none => rfl
    | some x => exact List.append_nil _
  | .plain _ (.str _) _, h, _ => h.elim
  | .plain _ (.msg _ _) _, h, _ => h.elim
  | .optional _ (.str _) _, h, _ => h.elim
  | .optional _ (.msg _ _) _, h, _ => h.elim
  | .repeated _ _ _ _, h, _ => h.elim

theorem Fields.hand_numbers : (fs : Fields) → fs.Flat → (v : fs.Val) →
    ∀ f ∈ fs.hand v, f.num ∈ fs.numbers
  | .nil, _, _, f, hf => by simp [Fields.hand] at hf
  | .plain num (.scalar s) rest, h, v, f, hf => by
    rw [Fields.hand, List.mem_append] at hf
    simp only [Fields.numbers, List.mem_cons]
    rcases hf with hf | hf
    · split at hf
      · simp at hf
      · simp only [List.mem_cons, List.not_mem_nil, or_false] at hf
        subst hf; exact Or.inl rfl
    · exact Or.inr (Fields.hand_numbers rest h v.2 f hf)
  | .optional num (.scalar s) rest, h, v, f, hf => by
    rw [Fields.hand, List.mem_append] at hf
    simp only [Fields.numbers, List.mem_cons]
    rcases hf with hf | hf
    · cases hv : v.1 with
      | none => rw [hv] at hf; simp at hf
      | some x =>
        rw [hv] at hf
        simp only [List.mem_cons, List.not_mem_nil, or_false] at hf
        subst hf; exact Or.inl rfl
    · exact Or.inr (Fields.hand_numbers rest h v.2 f hf)
  | .plain _ (.str _) _, h, _, _, _ => h.elim
  | .plain _ (.msg _ _) _, h, _, _, _ => h.elim
  | .optional _ (.str _) _, h, _, _, _ => h.elim
  | .optional _ (.msg _ _) _, h, _, _, _ => h.elim
  | .repeated _ _ _ _, h, _, _, _ => h.elim

theorem Fields.hand_known : (fs : Fields) → fs.Flat → fs.numbers.Nodup → (v : fs.Val) →
    ∀ f ∈ fs.hand v, f.Known fs.dispatch
  | .nil, _, _, _, f, hf => by simp [Fields.hand] at hf
  | .plain num (.scalar s) rest, h, hd, v, f, hf => by
    have hn := hf
    rw [Fields.numbers, List.nodup_cons] at hd
    rw [Fields.hand, List.mem_append] at hf
    unfold HandField.Known Fields.dispatch
    rcases hf with hf | hf
    · split at hf
      · simp at hf
      · simp only [List.mem_cons, List.not_mem_nil, or_false] at hf
        subst hf; simp
    · have h1 := Fields.hand_numbers rest h v.2 f hf
      have h2 : f.num ≠ num := fun e => hd.1 (e ▸ h1)
      rw [if_neg (fun e => h2 e.1)]
      exact Fields.hand_known rest h hd.2 v.2 f hf
  | .optional num (.scalar s) rest, h, hd, v, f, hf => by
    rw [Fields.numbers, List.nodup_cons] at hd
    rw [Fields.hand, List.mem_append] at hf
    unfold HandField.Known Fields.dispatch
    rcases hf with hf | hf
    · cases hv : v.1 with
      | none => rw [hv] at hf; simp at hf
      | some x =>
        rw [hv] at hf
        simp only [List.mem_cons, List.not_mem_nil, or_false] at hf
        subst hf; simp
    · have h1 := Fields.hand_numbers rest h v.2 f hf
      have h2 : f.num ≠ num := fun e => hd.1 (e ▸ h1)
      rw [if_neg (fun e => h2 e.1)]
      exact Fields.hand_known rest h hd.2 v.2 f hf
  | .plain _ (.str _) _, h, _, _, _, _ => h.elim
  | .plain _ (.msg _ _) _, h, _, _, _, _ => h.elim
  | .optional _ (.str _) _, h, _, _, _, _ => h.elim
  | .optional _ (.msg _ _) _, h, _, _, _, _ => h.elim
  | .repeated _ _ _ _, h, _, _, _, _ => h.elim

/-- Scalars have no maximum length. -/
theorem Fields.fits_flat : (fs : Fields) → fs.Flat → (v : fs.Val) → fs.Fits v
  | .nil, _, _ => trivial
  | .plain _ (.scalar _) rest, h, v => ⟨trivial, Fields.fits_flat rest h v.2⟩
  | .optional _ (.scalar _) rest, h, v => ⟨fun _ _ => trivial, Fields.fits_flat rest h v.2⟩
  | .plain _ (.str _) _, h, _ => h.elim
  | .plain _ (.msg _ _) _, h, _ => h.elim
  | .optional _ (.str _) _, h, _ => h.elim
  | .optional _ (.msg _ _) _, h, _ => h.elim
  | .repeated _ _ _ _, h, _ => h.elim

/-- After a tag only a value of the right wire type is read. -/
theorem Fields.dispatch_wire : (fs : Fields) → (num : Nat) → (wt : WireType) → (s : ScalarTy) →
    fs.dispatch num wt = some s → wt = s.wire
  | .nil, _, _, _, h => by cases h
  | .plain n (.scalar s') rest, num, wt, s, h => by
    unfold Fields.dispatch at h
    split at h
    · rename_i hc
      injection h with h
      rw [← h]; exact hc.2
    · exact Fields.dispatch_wire rest num wt s h
  | .optional n (.scalar s') rest, num, wt, s, h => by
    unfold Fields.dispatch at h
    split at h
    · rename_i hc
      injection h with h
      rw [← h]; exact hc.2
    · exact Fields.dispatch_wire rest num wt s h
  | .plain _ (.str _) rest, num, wt, s, h => Fields.dispatch_wire rest num wt s h
  | .plain _ (.msg _ _) rest, num, wt, s, h => Fields.dispatch_wire rest num wt s h
  | .optional _ (.str _) rest, num, wt, s, h => Fields.dispatch_wire rest num wt s h
  | .optional _ (.msg _ _) rest, num, wt, s, h => Fields.dispatch_wire rest num wt s h
  | .repeated _ _ _ rest, num, wt, s, h => Fields.dispatch_wire rest num wt s h

end EP
