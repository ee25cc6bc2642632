import Verif.Proof.Parse
import Verif.Proof.Blank

/-! # The reference decoder on well formed records (specification level) -/

namespace EP
open Spec

/-! ## Readers -/

theorem readVarint_ok (k : Nat) (p r : List Byte) (h : IsVarint k p) :
    readVarint k (p ++ r) = (.ok (groups p), r) := by
  induction k generalizing p with
  | zero => exact h.elim
  | succ k ih =>
    cases p with
    | nil => exact h.elim
    | cons b p =>
      simp only [IsVarint] at h
      simp only [List.cons_append, readVarint]
      cases hb : cont b with
      | true =>
        rw [if_pos hb] at h
        rw [if_pos rfl, Reader.map, ih p h]
        rfl
      | false =>
        rw [if_neg (by simp [hb])] at h
        subst h
        rw [if_neg (by simp)]
        have : b.toNat < 128 := by simpa [cont] using hb
        simp only [groups, List.nil_append]
        rw [Nat.mod_eq_of_lt this]
        rfl

theorem readVarint_cut (k : Nat) (q : List Byte) (h : CutVarint k q) :
    readVarint k q = (.error .endOfBuffer, []) := by
  induction k generalizing q with
  | zero => exact absurd h.1 (Nat.not_lt_zero _)
  | succ k ih =>
    cases q with
    | nil => rfl
    | cons b q =>
      rw [readVarint, if_pos (h.2 b List.mem_cons_self), Reader.map,
        ih q ⟨by simpa using h.1, fun c hc => h.2 c (List.mem_cons_of_mem _ hc)⟩]

theorem readFixed_ok (p r : List Byte) : readFixed p.length (p ++ r) = (.ok (ofLittleEndian p), r) := by
  unfold readFixed
  rw [if_neg (by simp)]
  simp

theorem readFixed_cut (k : Nat) (q : List Byte) (h : q.length < k) : readFixed k q = (.error .endOfBuffer, []) :=
  if_pos h

theorem Reader.map_ok {α γ : Type} {f : α → γ} {rd : Reader α} {bs r : List Byte} {a : α}
    (h : rd bs = (.ok a, r)) : rd.map f bs = (.ok (f a), r) := by
  unfold Reader.map
  rw [h]

theorem Reader.map_error {α γ : Type} {f : α → γ} {rd : Reader α} {bs r : List Byte} {e : Error}
    (h : rd bs = (.error e, r)) : rd.map f bs = (.error e, r) := by
  unfold Reader.map
  rw [h]

theorem readLen_ok {p : List Byte} {n : Nat} (r : List Byte) (h : Varint 32 p n) : readLen (p ++ r) = (.ok n, r) := by
  rw [readLen, Reader.map_ok (readVarint_ok 5 p r h.1), h.2]

theorem readLen_cut {q : List Byte} (h : CutVarint 5 q) : readLen q = (.error .endOfBuffer, []) :=
  Reader.map_error (readVarint_cut 5 q h)

theorem readTag_ok {p : List Byte} {num : Nat} {wt : WireType} (r : List Byte)
    (h : Varint 32 p (8 * num + wireNumber wt)) : readTag (p ++ r) = (.ok (num, some wt), r) := by
  rw [readTag, Reader.map_ok (readVarint_ok 5 p r h.1)]
  have hw : wireNumber wt < 8 := by cases wt <;> decide
  have h1 : groups p % 2 ^ 32 / 8 = num := by rw [← h.2]; omega
  have h2 : groups p % 8 = wireNumber wt := by
    have : groups p % 2 ^ 32 % 8 = groups p % 8 := Nat.mod_mod_of_dvd _ (by decide)
    rw [← this, ← h.2]; omega
  simp only [h1, h2]
  congr 3
  cases wt <;> rfl

theorem readTag_cut {q : List Byte} (h : CutVarint 5 q) : readTag q = (.error .endOfBuffer, []) :=
  Reader.map_error (readVarint_cut 5 q h)

theorem unzigzag_zigzag (i : Int) : unzigzag (zigzag i) = i := by
  unfold unzigzag zigzag
  split <;> split <;> omega

theorem ScalarTy.read_ok (s : ScalarTy) {p : List Byte} {v : s.Val} (r : List Byte) (h : s.Payload p v) :
    s.read (p ++ r) = (.ok v, r) := by
  have e64 : ∀ n, Varint 64 p n → ∀ w, w ≤ 64 → BitVec.ofNat w (groups p) = BitVec.ofNat w n := by
    intro n hn w hw
    apply BitVec.eq_of_toNat_eq
    simp only [BitVec.toNat_ofNat]
    rw [hn.2, Nat.mod_mod_of_dvd _ (Nat.pow_dvd_pow 2 hw)]
  have e32 : ∀ n, Varint 32 p n → BitVec.ofNat 32 (groups p) = BitVec.ofNat 32 n := by
    intro n hn
    apply BitVec.eq_of_toNat_eq
    simp only [BitVec.toNat_ofNat]
    rw [hn.2, Nat.mod_mod]
  cases s with
  | int32 =>
    obtain ⟨n, h, rfl⟩ := h
    rw [ScalarTy.read, Reader.map_ok (readVarint_ok 10 p r h.1), e64 n h 32 (by decide)]
  | int64 =>
    obtain ⟨n, h, rfl⟩ := h
    rw [ScalarTy.read, Reader.map_ok (readVarint_ok 10 p r h.1), e64 n h 64 (by decide)]
  | uint64 =>
    obtain ⟨n, h, rfl⟩ := h
    rw [ScalarTy.read, Reader.map_ok (readVarint_ok 10 p r h.1), e64 n h 64 (by decide)]
  | uint32 =>
    obtain ⟨n, h, rfl⟩ := h
    rw [ScalarTy.read, Reader.map_ok (readVarint_ok 5 p r h.1), e32 n h]
  | enumeration =>
    obtain ⟨n, h, rfl⟩ := h
    rw [ScalarTy.read, Reader.map_ok (readVarint_ok 5 p r h.1), e32 n h]
  | sint32 =>
    obtain ⟨n, h, hz⟩ := h
    rw [ScalarTy.read, Reader.map_ok (readVarint_ok 10 p r h.1)]
    have : groups p % 2 ^ 32 = zigzag (BitVec.toInt (n := 32) v) := by
      rw [hz, h.2, Nat.mod_mod_of_dvd _ (by decide)]
    simp only [this, unzigzag_zigzag, BitVec.ofInt_toInt]
  | sint64 =>
    rw [ScalarTy.read, Reader.map_ok (readVarint_ok 10 p r h.1)]
    have : groups p % 2 ^ 64 = zigzag (BitVec.toInt (n := 64) v) := h.2.symm
    simp only [this, unzigzag_zigzag, BitVec.ofInt_toInt]
  | boolean =>
    obtain ⟨n, hn, h, rfl⟩ := h
    have hp : p = [BitVec.ofNat 8 n] := by rw [h]; simp [varint, hn]
    rw [ScalarTy.read, Reader.map_ok (a := n) (r := r)]
    · simp only [bne, decide_not]
      rfl
    · rw [hp]
      have := readFixed_ok [BitVec.ofNat 8 n] r
      rw [List.length_singleton] at this
      rw [this]
      simp only [ofLittleEndian, BitVec.toNat_ofNat]
      rw [Nat.mod_eq_of_lt (by omega)]
      rfl
  | fixed32 => obtain ⟨h, rfl⟩ := h; rw [ScalarTy.read, Reader.map_ok (h ▸ readFixed_ok p r)]
  | sfixed32 => obtain ⟨h, rfl⟩ := h; rw [ScalarTy.read, Reader.map_ok (h ▸ readFixed_ok p r)]
  | floatfixed => obtain ⟨h, rfl⟩ := h; rw [ScalarTy.read, Reader.map_ok (h ▸ readFixed_ok p r)]
  | fixed64 => obtain ⟨h, rfl⟩ := h; rw [ScalarTy.read, Reader.map_ok (h ▸ readFixed_ok p r)]
  | sfixed64 => obtain ⟨h, rfl⟩ := h; rw [ScalarTy.read, Reader.map_ok (h ▸ readFixed_ok p r)]
  | doublefixed => obtain ⟨h, rfl⟩ := h; rw [ScalarTy.read, Reader.map_ok (h ▸ readFixed_ok p r)]

theorem ScalarTy.read_cut (s : ScalarTy) {q : List Byte} (h : s.Bad q .endOfBuffer) :
    s.read q = (.error .endOfBuffer, []) := by
  have hv : ∀ {w : Nat}, BadVarint w q .endOfBuffer → CutVarint (maxVarint w) q := by
    intro w h
    rcases h with h | h
    · exact h.1
    · exact nomatch h.2
  cases s <;> first
    | exact Reader.map_error (readVarint_cut _ q (hv h))
    | exact Reader.map_error (readFixed_cut _ q h.1)
    | (obtain ⟨rfl, _⟩ := h; rfl)

/-! ## Records -/

theorem skipField_ok (clip : Bool) {wt : WireType} {p : List Byte} (r : List Byte) (h : UnknownPayload wt p) :
    skipField clip wt (p ++ r) = .ok () r := by
  cases wt with
  | varint => simp only [skipField, readVarint_ok 10 p r h]
  | fixed64 =>
    have h : p.length = 8 := h
    simp only [skipField, ← h, readFixed_ok p r]
  | fixed32 =>
    have h : p.length = 4 := h
    simp only [skipField, ← h, readFixed_ok p r]
  | lengthDelimited =>
    obtain ⟨body, pl, h1, rfl⟩ := h
    simp only [skipField, List.append_assoc, readLen_ok (body ++ r) h1]
    rw [if_pos (Or.inl (by simp))]
    simp
  | startGroup => exact h.elim
  | endGroup => exact h.elim

theorem parsePacked_ok {H : Type} {read : Reader H} {P : List Byte → H → Prop}
    (hP : ∀ p r y, P p y → read (p ++ r) = (.ok y, r)) {good : List Byte} {ys : List H} (h : Packed P good ys)
    (bad : List Byte) (hb : read bad = (.error .endOfBuffer, [])) (xs hs : List H) (hl : ys.length ≤ hs.length) :
    parsePacked read (good ++ bad) xs hs = .ok (xs ++ ys, hs.drop ys.length) [] := by
  induction h generalizing xs hs with
  | nil => rw [parsePacked, List.nil_append, hb]; simp
  | cons h1 _ ih =>
    rw [parsePacked, List.append_assoc, hP _ _ _ h1]
    cases hs with
    | nil => simp at hl
    | cons g gs =>
      simp only
      rw [ih (xs ++ [_]) gs (by simpa using hl)]
      simp

mutual
theorem Fields.parse_none : (fs : Fields) → (clip : Bool) → (num : Nat) → (wt : WireType) → (bs : List Byte) →
    (u : fs.Held) → num ∉ fs.numbers → fs.parse clip num wt bs u = none
  | .nil, _, _, _, _, _, _ => rfl
  | .plain n t rest, clip, num, wt, bs, u, h => by
    simp only [Fields.numbers, List.mem_cons, not_or] at h
    rw [Fields.parse, if_neg h.1, Fields.parse_none rest clip num wt bs u.2 h.2]; rfl
  | .optional n t rest, clip, num, wt, bs, u, h => by
    simp only [Fields.numbers, List.mem_cons, not_or] at h
    rw [Fields.parse, if_neg h.1, Fields.parse_none rest clip num wt bs u.2 h.2]; rfl
  | .repeated n cap t rest, clip, num, wt, bs, u, h => by
    simp only [Fields.numbers, List.mem_cons, not_or] at h
    rw [fields_parse_repeated, if_neg h.1, Fields.parse_none rest clip num wt bs u.2 h.2]; rfl
theorem Alts.parse_none : (a : Alts) → (clip : Bool) → (num : Nat) → (wt : WireType) → (bs : List Byte) →
    (u : Option a.Held) → num ∉ a.numbers → a.parse clip num wt bs u = none
  | .nil, _, _, _, _, _, _ => rfl
  | .cons n t rest, clip, num, wt, bs, u, h => by
    simp only [Alts.numbers, List.mem_cons, not_or] at h
    rw [Alts.parse, if_neg h.1, Alts.parse_none rest clip num wt bs (rightOf u) h.2]; rfl
theorem Oneofs.parse_none : (os : Oneofs) → (clip : Bool) → (num : Nat) → (wt : WireType) → (bs : List Byte) →
    (u : os.Held) → num ∉ os.numbers → os.parse clip num wt bs u = none
  | .nil, _, _, _, _, _, _ => rfl
  | .cons a rest, clip, num, wt, bs, u, h => by
    simp only [Oneofs.numbers, List.mem_append, not_or] at h
    rw [oneofs_parse_eq]
    unfold consParse
    rw [Alts.parse_none a clip num wt bs u.1 h.1]
    simp only
    rw [Oneofs.parse_none rest clip num wt bs u.2 h.2]; rfl
end

mutual
theorem Fields.hrecord_mem : (fs : Fields) → (num : Nat) → (wt : WireType) → (bs : List Byte) →
    (u v : fs.Held) → fs.HRecord num wt bs u v → num ∈ fs.numbers
  | .nil, _, _, _, _, _, h => h.elim
  | .plain n t rest, num, wt, bs, u, v, h => by
    rcases h with h | h
    · exact List.mem_cons.mpr (Or.inl h.1)
    · exact List.mem_cons_of_mem _ (Fields.hrecord_mem rest num wt bs _ _ h.1)
  | .optional n t rest, num, wt, bs, u, v, h => by
    rcases h with h | h
    · exact List.mem_cons.mpr (Or.inl h.1)
    · exact List.mem_cons_of_mem _ (Fields.hrecord_mem rest num wt bs _ _ h.1)
  | .repeated n cap t rest, num, wt, bs, u, v, h => by
    rcases h with h | h
    · exact List.mem_cons.mpr (Or.inl h.1)
    · exact List.mem_cons_of_mem _ (Fields.hrecord_mem rest num wt bs _ _ h.1)
theorem Alts.hrecord_mem : (a : Alts) → (num : Nat) → (wt : WireType) → (bs : List Byte) →
    (u : Option a.Held) → (v : a.Held) → a.HRecord num wt bs u v → num ∈ a.numbers
  | .nil, _, _, _, _, _, h => h.elim
  | .cons n t rest, num, wt, bs, u, v, h => by
    rcases h with h | ⟨y, h, _⟩
    · exact List.mem_cons.mpr (Or.inl h.1)
    · exact List.mem_cons_of_mem _ (Alts.hrecord_mem rest num wt bs _ _ h)
theorem Oneofs.hrecord_mem : (os : Oneofs) → (num : Nat) → (wt : WireType) → (bs : List Byte) →
    (u v : os.Held) → os.HRecord num wt bs u v → num ∈ os.numbers
  | .nil, _, _, _, _, _, h => h.elim
  | .cons a rest, num, wt, bs, u, v, h => by
    rcases h with ⟨⟨y, h, _⟩, _⟩ | h
    · exact List.mem_append_left _ (Alts.hrecord_mem a num wt bs _ _ h)
    · exact List.mem_append_right _ (Oneofs.hrecord_mem rest num wt bs _ _ h.1)
end

/-- The loop over records gets through a stream of complete records. -/
theorem parseLoop_stream {α : Type} {Step : List Byte → α → α → Prop}
    {record : Nat → WireType → List Byte → α → Parse α}
    (hS : ∀ bs u v, Step bs u v → ∃ num wt t p, Varint 32 t (8 * num + wireNumber wt) ∧ bs = t ++ p ∧
      ∀ r, record num wt (p ++ r) u = .ok v r)
    {pre : List Byte} {u w : α} (h : Stream Step pre u w) (k : Nat) (tail : List Byte)
    (hk : (pre ++ tail).length < k) :
    ∃ k', tail.length < k' ∧ parseLoop record k (pre ++ tail) u = parseLoop record k' tail w := by
  induction h generalizing k with
  | nil v => exact ⟨k, hk, rfl⟩
  | cons h1 _ ih =>
    obtain ⟨num, wt, t, p, g1, rfl, g3⟩ := hS _ _ _ h1
    have ht : 0 < t.length := by
      cases t with
      | nil => exact g1.1.elim
      | cons b t => simp
    cases k with
    | zero => exact absurd hk (Nat.not_lt_zero _)
    | succ k =>
      obtain ⟨k', e1, e2⟩ := ih k (by simp only [List.length_append] at hk ⊢; omega)
      refine ⟨k', e1, ?_⟩
      rw [parseLoop]
      simp only [List.append_assoc, readTag_ok _ g1, g3]
      rw [← e2]

theorem parseLoop_done {α : Type} (record : Nat → WireType → List Byte → α → Parse α) (k : Nat) (hk : 0 < k)
    (tail : List Byte) (u : α) (h : CutVarint 5 tail) : parseLoop record k tail u = .ok u [] := by
  obtain ⟨k, rfl⟩ : ∃ j, k = j + 1 := ⟨k - 1, by omega⟩
  rw [parseLoop, readTag_cut h]

theorem parseRecord_step {fs : Fields} {os : Oneofs} (hd : (fs.numbers ++ os.numbers).Nodup) (clip : Bool)
    (hF : ∀ num wt p r u v, fs.HRecord num wt p u v → fs.parse clip num wt (p ++ r) u = some (.ok v r))
    (hO : ∀ num wt p r u v, os.HRecord num wt p u v → os.parse clip num wt (p ++ r) u = some (.ok v r))
    (bs : List Byte) (u v : fs.Held × os.Held)
    (h : RecordStep (fs.numbers ++ os.numbers) fs.HRecord os.HRecord bs u v) :
    ∃ num wt t p, Varint 32 t (8 * num + wireNumber wt) ∧ bs = t ++ p ∧
      ∀ r, parseRecord fs os clip num wt (p ++ r) u = .ok v r := by
  obtain ⟨num, wt, t, p, h1, h2, h3⟩ := h
  refine ⟨num, wt, t, p, h1, h2, fun r => ?_⟩
  have hd' := List.nodup_append.mp hd
  obtain ⟨v1, v2⟩ := v
  unfold parseRecord
  rcases h3 with ⟨h3, h4⟩ | ⟨h3, h4⟩ | ⟨h3, h4, h5, h6⟩
  · rw [hF _ _ _ r _ _ h3]
    dsimp only at h4
    rw [h4]; rfl
  · have hm := Oneofs.hrecord_mem os _ _ _ _ _ h3
    rw [Fields.parse_none fs clip num wt _ u.1 (fun hm' => hd'.2.2 num hm' num hm rfl), hO _ _ _ r _ _ h3]
    dsimp only at h4
    rw [h4]; rfl
  · simp only [List.mem_append, not_or] at h4
    rw [Fields.parse_none fs clip num wt _ u.1 h4.1, Oneofs.parse_none os clip num wt _ u.2 h4.2]
    simp only
    rw [if_neg (by omega), skipField_ok clip r h5, h6]; rfl

theorem window_ok {α : Type} {clip : Bool} {body r : List Byte} {v : α} {rest : List Byte}
    {f : Bool → List Byte → Parse α} (h : f true body = .ok v rest) :
    window clip body.length (body ++ r) f = .ok v r := by
  unfold window
  rw [decide_eq_true (by simp), Bool.or_true]
  simp [h]

theorem CutVarint.nil : CutVarint 5 [] := ⟨by decide, fun _ h => nomatch h⟩

theorem parseElem_msg {H : Type} {parse : List Byte → H → Parse H} {bs : List Byte} {xs hs : List H} {h : H}
    {n : Nat} {rest : List Byte} (hl : readLen bs = (.ok n, rest)) :
    parseElem true parse bs (xs, h :: hs) = (parse bs h).map fun y => (xs ++ [y], hs) := by
  unfold parseElem
  simp only [hl]

theorem parseMessage_loop (fs : Fields) (os : Oneofs) (clip : Bool) (bs : List Byte) (u : fs.Held × os.Held) :
    parseMessage fs os clip bs u = parseLoop (fun num wt bs (u : fs.Held × os.Held) =>
        match fs.parse clip num wt bs u.1 with
        | some r => r.map fun v => (v, u.2)
        | none =>
          match os.parse clip num wt bs u.2 with
          | some r => r.map fun v => (u.1, v)
          | none => if num = 0 then .fail .invalidFieldId u else (skipField clip wt bs).map fun _ => u)
        (bs.length + 1) bs u := rfl

theorem msg_parse_eq (fs : Fields) (os : Oneofs) (clip : Bool) (bs : List Byte) (u : (ElemTy.msg fs os).Held) :
    (ElemTy.msg fs os).parse clip bs u =
      match readLen bs with
      | (.error e, _) => .fail e u
      | (.ok n, rest) => window clip n rest fun clip w => parseMessage fs os clip w u := by
  rw [ElemTy.parse]
  rfl

theorem parseStr_ok (cap : Nat) (u r : List Byte) {pl body : List Byte} (h1 : Varint 32 pl body.length)
    (h2 : body.length ≤ cap) : parseStr cap (pl ++ body ++ r) u = .ok body r := by
  unfold parseStr
  rw [List.append_assoc, readLen_ok _ h1]
  simp only
  rw [if_neg (Nat.not_lt.mpr h2), if_neg (by simp)]
  simp

theorem ne_of_mem {α : Type} {a b : α} {l : List α} (h : a ∈ l) (h' : b ∉ l) : a ≠ b := fun e => h' (e ▸ h)

/-! The record of the first field, and of another one. -/

theorem plain_here {n num : Nat} {t : ElemTy} {rest : Fields} {clip : Bool} {wt : WireType} {bs : List Byte}
    {u : (Fields.plain n t rest).Held} (h1 : num = n) (h2 : wt = t.wire) {z : Parse t.Held}
    (e : t.parse clip bs u.1 = z) :
    (Fields.plain n t rest).parse clip num wt bs u = some (z.map fun y => (y, u.2)) := by
  rw [Fields.parse, if_pos h1, expect, if_pos h2, e]; rfl

theorem plain_next {n num : Nat} {t : ElemTy} {rest : Fields} {clip : Bool} {wt : WireType} {bs : List Byte}
    {u : (Fields.plain n t rest).Held} (h1 : num ≠ n) {z : Option (Parse rest.Held)}
    (e : rest.parse clip num wt bs u.2 = z) :
    (Fields.plain n t rest).parse clip num wt bs u = z.map (Parse.map fun v => (u.1, v)) := by
  rw [Fields.parse, if_neg h1, e]; rfl

theorem optional_here {n num : Nat} {t : ElemTy} {rest : Fields} {clip : Bool} {wt : WireType} {bs : List Byte}
    {u : (Fields.optional n t rest).Held} (h1 : num = n) (h2 : wt = t.wire) {z : Parse t.Held}
    (e : t.parse clip bs (u.1.getD t.fresh) = z) :
    (Fields.optional n t rest).parse clip num wt bs u = some (z.map fun y => (some y, u.2)) := by
  rw [Fields.parse, if_pos h1, expect, if_pos h2, e]; rfl

theorem optional_next {n num : Nat} {t : ElemTy} {rest : Fields} {clip : Bool} {wt : WireType} {bs : List Byte}
    {u : (Fields.optional n t rest).Held} (h1 : num ≠ n) {z : Option (Parse rest.Held)}
    (e : rest.parse clip num wt bs u.2 = z) :
    (Fields.optional n t rest).parse clip num wt bs u = z.map (Parse.map fun v => (u.1, v)) := by
  rw [Fields.parse, if_neg h1, e]; rfl

theorem repeated_here {n num cap : Nat} {t : ElemTy} {rest : Fields} {clip : Bool} {wt : WireType} {bs : List Byte}
    {u : (Fields.repeated n cap t rest).Held} (h1 : num = n) (h2 : wt = .lengthDelimited)
    {z : Parse (List t.Held × List t.Held)} (e : t.parseRep clip bs u.1 = z) :
    (Fields.repeated n cap t rest).parse clip num wt bs u = some (z.map fun y => (y, u.2)) := by
  rw [fields_parse_repeated, if_pos h1, expect, if_pos h2, e]

theorem repeated_next {n num cap : Nat} {t : ElemTy} {rest : Fields} {clip : Bool} {wt : WireType} {bs : List Byte}
    {u : (Fields.repeated n cap t rest).Held} (h1 : num ≠ n) {z : Option (Parse rest.Held)}
    (e : rest.parse clip num wt bs u.2 = z) :
    (Fields.repeated n cap t rest).parse clip num wt bs u = z.map (Parse.map fun v => (u.1, v)) := by
  rw [fields_parse_repeated, if_neg h1, e]

theorem member_here {n num : Nat} {t : ElemTy} {rest : Alts} {clip : Bool} {wt : WireType} {bs : List Byte}
    {u : Option (Alts.cons n t rest).Held} (h1 : num = n) (h2 : wt = t.wire) {z : Parse t.Held}
    (e : t.parse clip bs (leftD t.fresh u) = z) :
    (Alts.cons n t rest).parse clip num wt bs u = some (z.map Sum.inl) := by
  rw [Alts.parse, if_pos h1, expect, if_pos h2, e]; rfl

theorem member_next {n num : Nat} {t : ElemTy} {rest : Alts} {clip : Bool} {wt : WireType} {bs : List Byte}
    {u : Option (Alts.cons n t rest).Held} (h1 : num ≠ n) {z : Option (Parse rest.Held)}
    (e : rest.parse clip num wt bs (rightOf u) = z) :
    (Alts.cons n t rest).parse clip num wt bs u = z.map (Parse.map Sum.inr) := by
  rw [Alts.parse, if_neg h1, e]; rfl

theorem oneof_here {a : Alts} {rest : Oneofs} {num : Nat} {clip : Bool} {wt : WireType} {bs : List Byte}
    {u : (Oneofs.cons a rest).Held} {y : a.Held} {r : List Byte}
    (e : a.parse clip num wt bs u.1 = some (.ok y r)) :
    (Oneofs.cons a rest).parse clip num wt bs u = some (.ok (some y, u.2) r) := by
  rw [oneofs_parse_eq]
  unfold consParse
  rw [e]; rfl

theorem oneof_next {a : Alts} {rest : Oneofs} {num : Nat} {clip : Bool} {wt : WireType} {bs : List Byte}
    {u : (Oneofs.cons a rest).Held} (h1 : num ∉ a.numbers) {z : Option (Parse rest.Held)}
    (e : rest.parse clip num wt bs u.2 = z) :
    (Oneofs.cons a rest).parse clip num wt bs u = z.map (Parse.map fun v => (u.1, v)) := by
  rw [oneofs_parse_eq]
  unfold consParse
  rw [a.parse_none clip num wt bs u.1 h1, e]

mutual
/-- No two fields of a message have the same number. -/
def ElemTy.Distinct : ElemTy → Prop
  | .scalar _ => True
  | .str _ => True
  | .msg fs os => fs.Distinct ∧ os.Distinct ∧ (fs.numbers ++ os.numbers).Nodup
def Fields.Distinct : Fields → Prop
  | .nil => True
  | .plain _ t rest => t.Distinct ∧ rest.Distinct
  | .optional _ t rest => t.Distinct ∧ rest.Distinct
  | .repeated _ _ t rest => t.Distinct ∧ rest.Distinct
def Alts.Distinct : Alts → Prop
  | .nil => True
  | .cons _ t rest => t.Distinct ∧ rest.Distinct
def Oneofs.Distinct : Oneofs → Prop
  | .nil => True
  | .cons a rest => a.Distinct ∧ rest.Distinct
end

mutual
theorem ElemTy.WF.distinct : {t : ElemTy} → t.WF → t.Distinct
  | .scalar _, _ => trivial
  | .str _, _ => trivial
  | .msg fs os, h => by
    simp only [ElemTy.WF] at h
    exact ⟨Fields.WF.distinct h.1, Oneofs.WF.distinct h.2.1, h.2.2.1⟩
theorem Fields.WF.distinct : {fs : Fields} → fs.WF → fs.Distinct
  | .nil, _ => trivial
  | .plain _ t rest, h => by
    simp only [Fields.WF] at h
    exact ⟨ElemTy.WF.distinct h.1, Fields.WF.distinct h.2⟩
  | .optional _ t rest, h => by
    simp only [Fields.WF] at h
    exact ⟨ElemTy.WF.distinct h.1, Fields.WF.distinct h.2⟩
  | .repeated _ _ t rest, h => by
    simp only [Fields.WF] at h
    exact ⟨ElemTy.WF.distinct h.2.1, Fields.WF.distinct h.2.2⟩
theorem Alts.WF.distinct : {a : Alts} → a.WF → a.Distinct
  | .nil, _ => trivial
  | .cons _ t rest, h => by
    simp only [Alts.WF] at h
    exact ⟨ElemTy.WF.distinct h.1, Alts.WF.distinct h.2⟩
theorem Oneofs.WF.distinct : {os : Oneofs} → os.WF → os.Distinct
  | .nil, _ => trivial
  | .cons a rest, h => by
    simp only [Oneofs.WF] at h
    exact ⟨Alts.WF.distinct h.1, Oneofs.WF.distinct h.2⟩
end

mutual
theorem ElemTy.parse_ok : (t : ElemTy) → t.Distinct → (clip : Bool) → (p r : List Byte) → (u v : t.Held) →
    t.HPayload p u v → t.parse clip (p ++ r) u = .ok v r
  | .scalar s, _, clip, p, r, u, v, h => by
    rw [ElemTy.parse]
    unfold parseScalar
    rw [s.read_ok r h]
  | .str cap, _, clip, p, r, u, v, h => by
    obtain ⟨⟨pl, h1, rfl⟩, h2⟩ := h
    rw [ElemTy.parse]
    exact parseStr_ok cap u r h1 h2
  | .msg fs os, hw, clip, p, r, u, v, h => by
    simp only [ElemTy.HPayload] at h
    obtain ⟨body, ⟨pl, h1, rfl⟩, hs⟩ := h
    simp only [ElemTy.Distinct] at hw
    have hd := List.nodup_append.mp hw.2.2
    rw [msg_parse_eq, List.append_assoc, readLen_ok _ h1]
    refine window_ok (rest := []) ?_
    unfold parseMessage
    obtain ⟨k', e1, e2⟩ := parseLoop_stream
      (parseRecord_step hw.2.2 true (fun num wt p r u v => Fields.parse_ok fs hw.1 hd.1 true num wt p r u v)
        (fun num wt p r u v => Oneofs.parse_ok os hw.2.1 hd.2.1 true num wt p r u v)) hs (body.length + 1) []
      (by simp)
    rw [List.append_nil] at e2
    exact e2.trans (parseLoop_done _ _ e1 _ _ .nil)
theorem Fields.parse_ok : (fs : Fields) → fs.Distinct → fs.numbers.Nodup → (clip : Bool) → (num : Nat) → (wt : WireType) →
    (p r : List Byte) → (u v : fs.Held) → fs.HRecord num wt p u v →
    fs.parse clip num wt (p ++ r) u = some (.ok v r)
  | .nil, _, _, _, _, _, _, _, _, _, h => h.elim
  | .plain n t rest, hw, hd, clip, num, wt, p, r, u, (v1, v2), h => by
    simp only [Fields.Distinct] at hw
    simp only [Fields.numbers, List.nodup_cons] at hd
    rcases h with ⟨h1, h2, h3, h4⟩ | ⟨h3, h4⟩
    · obtain rfl : v2 = u.2 := h4
      exact (plain_here h1 h2 (ElemTy.parse_ok t hw.1 clip p r _ _ h3) :)
    · have hm := Fields.hrecord_mem rest _ _ _ _ _ h3
      obtain rfl : v1 = u.1 := h4
      exact (plain_next (ne_of_mem hm hd.1) (Fields.parse_ok rest hw.2 hd.2 clip num wt p r _ _ h3) :)
  | .optional n t rest, hw, hd, clip, num, wt, p, r, u, (v1, v2), h => by
    simp only [Fields.Distinct] at hw
    simp only [Fields.numbers, List.nodup_cons] at hd
    rcases h with ⟨h1, h2, ⟨y, h3, h5⟩, h4⟩ | ⟨h3, h4⟩
    · obtain rfl : v2 = u.2 := h4
      obtain rfl : v1 = some y := h5
      exact (optional_here h1 h2 (ElemTy.parse_ok t hw.1 clip p r _ _ h3) :)
    · have hm := Fields.hrecord_mem rest _ _ _ _ _ h3
      obtain rfl : v1 = u.1 := h4
      exact (optional_next (ne_of_mem hm hd.1) (Fields.parse_ok rest hw.2 hd.2 clip num wt p r _ _ h3) :)
  | .repeated n cap t rest, hw, hd, clip, num, wt, p, r, ((xs, hs), u2), (v1, v2), h => by
    simp only [Fields.Distinct] at hw
    simp only [Fields.numbers, List.nodup_cons] at hd
    rcases h with ⟨h1, h2, h3, h4⟩ | ⟨h3, h4⟩
    · obtain rfl : v2 = u2 := h4
      suffices hp : t.parseRep clip (p ++ r) (xs, hs) = .ok v1 r from
        (repeated_here (u := ((xs, hs), v2)) h1 h2 hp :)
      cases t with
      | scalar s =>
        rw [if_pos (by rfl)] at h3
        obtain ⟨body, ys, ⟨pl, g1, rfl⟩, g2, g3, g4⟩ := h3
        obtain rfl : v1 = (xs ++ ys, hs.drop ys.length) := g4
        unfold ElemTy.parseRep parseScalars
        rw [List.append_assoc, readLen_ok _ g1]
        refine window_ok (rest := []) ?_
        have := parsePacked_ok (read := s.read) (P := fun b y => s.Payload b y) (fun p r y h => s.read_ok r h) g2 []
          (by cases s <;> rfl) xs hs g3
        rw [List.append_nil] at this
        exact this
      | str c =>
        rw [if_neg (by simp [ElemTy.isScalar])] at h3
        obtain ⟨g, gs, y, g1, g2, g3⟩ := h3
        obtain rfl : hs = g :: gs := g1
        obtain rfl : v1 = (xs ++ [y], gs) := g3
        have := ElemTy.parse_ok (.str c) hw.1 clip p r g y g2
        rw [ElemTy.parse] at this
        exact congrArg (Parse.map (fun y : (ElemTy.str c).Held => (xs ++ [y], gs))) this
      | msg fs os =>
        rw [if_neg (by simp [ElemTy.isScalar])] at h3
        obtain ⟨g, gs, y, g1, g2, g3⟩ := h3
        obtain rfl : hs = g :: gs := g1
        obtain rfl : v1 = (xs ++ [y], gs) := g3
        have := ElemTy.parse_ok (.msg fs os) hw.1 clip p r g y g2
        simp only [ElemTy.HPayload] at g2
        obtain ⟨body, ⟨pl, k1, rfl⟩, _⟩ := g2
        refine (parseElem_msg (by rw [List.append_assoc]; exact readLen_ok _ k1)).trans ?_
        exact congrArg (Parse.map (fun y => (xs ++ [y], gs))) this
    · have hm := Fields.hrecord_mem rest _ _ _ _ _ h3
      obtain rfl : v1 = (xs, hs) := h4
      exact (repeated_next (u := ((xs, hs), u2)) (ne_of_mem hm hd.1)
        (Fields.parse_ok rest hw.2 hd.2 clip num wt p r _ _ h3) :)
theorem Alts.parse_ok : (a : Alts) → a.Distinct → a.numbers.Nodup → (clip : Bool) → (num : Nat) → (wt : WireType) →
    (p r : List Byte) → (u : Option a.Held) → (v : a.Held) → a.HRecord num wt p u v →
    a.parse clip num wt (p ++ r) u = some (.ok v r)
  | .nil, _, _, _, _, _, _, _, _, _, h => h.elim
  | .cons n t rest, hw, hd, clip, num, wt, p, r, u, v, h => by
    simp only [Alts.Distinct] at hw
    simp only [Alts.numbers, List.nodup_cons] at hd
    rcases h with ⟨h1, h2, y, h3, rfl⟩ | ⟨y, h3, rfl⟩
    · exact (member_here h1 h2 (ElemTy.parse_ok t hw.1 clip p r _ _ h3) :)
    · have hm := Alts.hrecord_mem rest _ _ _ _ _ h3
      exact (member_next (ne_of_mem hm hd.1) (Alts.parse_ok rest hw.2 hd.2 clip num wt p r _ _ h3) :)
theorem Oneofs.parse_ok : (os : Oneofs) → os.Distinct → os.numbers.Nodup → (clip : Bool) → (num : Nat) → (wt : WireType) →
    (p r : List Byte) → (u v : os.Held) → os.HRecord num wt p u v →
    os.parse clip num wt (p ++ r) u = some (.ok v r)
  | .nil, _, _, _, _, _, _, _, _, _, h => h.elim
  | .cons a rest, hw, hd, clip, num, wt, p, r, u, (v1, v2), h => by
    simp only [Oneofs.Distinct] at hw
    simp only [Oneofs.numbers] at hd
    have hd' := List.nodup_append.mp hd
    rcases h with ⟨⟨y, h3, h5⟩, h4⟩ | ⟨h3, h4⟩
    · obtain rfl : v2 = u.2 := h4
      obtain rfl : v1 = some y := h5
      exact (oneof_here (Alts.parse_ok a hw.1 hd'.1 clip num wt p r _ _ h3) :)
    · have hm := Oneofs.hrecord_mem rest _ _ _ _ _ h3
      obtain rfl : v1 = u.1 := h4
      exact (oneof_next (fun hm' => hd'.2.2 num hm' num hm rfl)
        (Oneofs.parse_ok rest hw.2 hd'.2.1 clip num wt p r _ _ h3) :)
end

end EP
