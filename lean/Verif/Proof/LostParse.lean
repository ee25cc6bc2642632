import Verif.Proof.ParseRecords
import Verif.Proof.Lost

/-! # The reference decoder on input that ends inside a record -/

namespace EP
open Spec

/-- Leftovers are blank and complete. -/
abbrev ElemTy.Neat (t : ElemTy) (u : t.Held) : Prop := t.Blank u ∧ t.Sized u

/-- Decoded completely, with the visible result `v`. -/
def Parse.Shows {H V : Type} (seen : H → V) (Neat : H → Prop) (v : V) (p : Parse H) : Prop :=
  ∃ v', p = .ok v' [] ∧ seen v' = v ∧ Neat v'

/-- With nothing left. -/
def Parse.drained {α : Type} : Parse α → Parse α
  | .ok v _ => .ok v []
  | .fail e v => .fail e v
  | .overrun => .overrun

theorem window_short {α : Type} {clip : Bool} {n : Nat} {body : List Byte} {f : Bool → List Byte → Parse α}
    (h : body.length < n) : window clip n body f = (f clip body).drained := by
  unfold window
  rw [decide_eq_false (by omega), Bool.or_false, List.take_of_length_le (by omega), List.drop_of_length_le (by omega)]
  cases f clip body <;> rfl

theorem parseLoop_tag {α : Type} {record : Nat → WireType → List Byte → α → Parse α} {k : Nat} {t q : List Byte}
    {num : Nat} {wt : WireType} {u : α} (ht : Varint 32 t (8 * num + wireNumber wt)) (hk : (t ++ q).length < k) :
    (∀ v, record num wt q u = .ok v [] → parseLoop record k (t ++ q) u = .ok v []) ∧
    (record num wt q u = .overrun → parseLoop record k (t ++ q) u = .overrun) := by
  have hl : 0 < t.length := by
    cases t with
    | nil => exact ht.1.elim
    | cons b t => simp
  rw [List.length_append] at hk
  obtain ⟨k, rfl⟩ : ∃ j, k = j + 1 := ⟨k - 1, by omega⟩
  rw [parseLoop, readTag_ok q ht]
  refine ⟨fun v e => ?_, fun e => ?_⟩
  · simp only [e]
    exact parseLoop_done record k (by omega) [] v .nil
  · simp only [e]

/-- Getting through the complete records at the front. -/
theorem message_front (fs : Fields) (os : Oneofs) (hw : (ElemTy.msg fs os).WF) (clip : Bool) {pre tail : List Byte}
    {u : (ElemTy.msg fs os).Held} {w : (ElemTy.msg fs os).Val}
    (hs : Records fs os pre ((ElemTy.msg fs os).seen u) w) (hi : (ElemTy.msg fs os).Neat u) :
    ∃ w' : (ElemTy.msg fs os).Held, ∃ k, tail.length < k ∧
      parseMessage fs os clip (pre ++ tail) u = parseLoop (parseRecord fs os clip) k tail w' ∧
      (ElemTy.msg fs os).seen w' = w ∧ (ElemTy.msg fs os).Neat w' := by
  obtain ⟨w', h1, h2, h3⟩ := Stream.lift
    (I := fun u : fs.Held × os.Held => (fs.Blank u.1 ∧ fs.Sized u.1) ∧ os.Blank u.2 ∧ os.Sized u.2)
    (recordStep_lift (fun num wt bs u v => Fields.lift fs num wt bs u v)
      (fun num wt bs u v => Oneofs.lift os num wt bs u v)) hs u rfl
    ⟨⟨hi.1.1, hi.2.1⟩, hi.1.2, hi.2.2⟩
  simp only [ElemTy.WF] at hw
  have hd := List.nodup_append.mp hw.2.2.1
  obtain ⟨k', e1, e2⟩ := parseLoop_stream
    (parseRecord_step hw.2.2.1 clip (fun num wt p r u v => Fields.parse_ok fs hw.1.distinct hd.1 clip num wt p r u v)
      (fun num wt p r u v => Oneofs.parse_ok os hw.2.1.distinct hd.2.1 clip num wt p r u v)) h1 ((pre ++ tail).length + 1) tail
    (by omega)
  exact ⟨w', k', e1, e2, h2, ⟨h3.1.1, h3.2.1⟩, h3.1.2, h3.2.2⟩

mutual
theorem Fields.lost_mem : (fs : Fields) → (num : Nat) → (wt : WireType) → (q : List Byte) →
    (u : fs.Val) → (fs.Overlong num wt q u ∨ ∃ v, fs.Lost num wt q u v) → num ∈ fs.numbers
  | .nil, _, _, _, _, h => by rcases h with h | ⟨v, h⟩ <;> exact h.elim
  | .plain n t rest, num, wt, q, u, h => by
    rcases h with (h | h) | ⟨v, h | h⟩
    · exact List.mem_cons.mpr (Or.inl h.1)
    · exact List.mem_cons_of_mem _ (Fields.lost_mem rest num wt q _ (Or.inl h))
    · exact List.mem_cons.mpr (Or.inl h.1)
    · exact List.mem_cons_of_mem _ (Fields.lost_mem rest num wt q _ (Or.inr ⟨_, h.1⟩))
  | .optional n t rest, num, wt, q, u, h => by
    rcases h with (h | h) | ⟨v, h | h⟩
    · exact List.mem_cons.mpr (Or.inl h.1)
    · exact List.mem_cons_of_mem _ (Fields.lost_mem rest num wt q _ (Or.inl h))
    · exact List.mem_cons.mpr (Or.inl h.1)
    · exact List.mem_cons_of_mem _ (Fields.lost_mem rest num wt q _ (Or.inr ⟨_, h.1⟩))
  | .repeated n cap t rest, num, wt, q, u, h => by
    rcases h with (h | h) | ⟨v, h | h⟩
    · exact List.mem_cons.mpr (Or.inl h.1)
    · exact List.mem_cons_of_mem _ (Fields.lost_mem rest num wt q _ (Or.inl h))
    · exact List.mem_cons.mpr (Or.inl h.1)
    · exact List.mem_cons_of_mem _ (Fields.lost_mem rest num wt q _ (Or.inr ⟨_, h.1⟩))
theorem Alts.lost_mem : (a : Alts) → (num : Nat) → (wt : WireType) → (q : List Byte) →
    (u : Option a.Val) → (a.Overlong num wt q u ∨ ∃ v, a.Lost num wt q u v) → num ∈ a.numbers
  | .nil, _, _, _, _, h => by rcases h with h | ⟨v, h⟩ <;> exact h.elim
  | .cons n t rest, num, wt, q, u, h => by
    rcases h with (h | h) | ⟨v, h | ⟨y, h, _⟩⟩
    · exact List.mem_cons.mpr (Or.inl h.1)
    · exact List.mem_cons_of_mem _ (Alts.lost_mem rest num wt q _ (Or.inl h))
    · exact List.mem_cons.mpr (Or.inl h.1)
    · exact List.mem_cons_of_mem _ (Alts.lost_mem rest num wt q _ (Or.inr ⟨_, h⟩))
theorem Oneofs.lost_mem : (os : Oneofs) → (num : Nat) → (wt : WireType) → (q : List Byte) →
    (u : os.Val) → (os.Overlong num wt q u ∨ ∃ v, os.Lost num wt q u v) → num ∈ os.numbers
  | .nil, _, _, _, _, h => by rcases h with h | ⟨v, h⟩ <;> exact h.elim
  | .cons a rest, num, wt, q, u, h => by
    rcases h with (h | h) | ⟨v, ⟨⟨y, h, _⟩, _⟩ | h⟩
    · exact List.mem_append_left _ (Alts.lost_mem a num wt q _ (Or.inl h))
    · exact List.mem_append_right _ (Oneofs.lost_mem rest num wt q _ (Or.inl h))
    · exact List.mem_append_left _ (Alts.lost_mem a num wt q _ (Or.inr ⟨_, h⟩))
    · exact List.mem_append_right _ (Oneofs.lost_mem rest num wt q _ (Or.inr ⟨_, h.1⟩))
end

theorem parseRecord_field {fs : Fields} {os : Oneofs} {clip : Bool} {num : Nat} {wt : WireType} {q : List Byte}
    {u : fs.Held × os.Held} {z : Parse fs.Held} (e : fs.parse clip num wt q u.1 = some z) :
    parseRecord fs os clip num wt q u = z.map fun v => (v, u.2) := by
  unfold parseRecord
  rw [e]

theorem parseRecord_oneof {fs : Fields} {os : Oneofs} {clip : Bool} {num : Nat} {wt : WireType} {q : List Byte}
    {u : fs.Held × os.Held} {z : Parse os.Held} (hn : num ∉ fs.numbers) (e : os.parse clip num wt q u.2 = some z) :
    parseRecord fs os clip num wt q u = z.map fun v => (u.1, v) := by
  unfold parseRecord
  rw [fs.parse_none clip num wt q u.1 hn, e]

theorem parseRecord_overlong {fs : Fields} {os : Oneofs} {num : Nat} {p body : List Byte} {n : Nat}
    {u : fs.Held × os.Held} (h0 : 0 < num) (hn : num ∉ fs.numbers ++ os.numbers) (hp : Varint 32 p n)
    (hl : body.length < n) : parseRecord fs os false num .lengthDelimited (p ++ body) u = .overrun := by
  simp only [List.mem_append, not_or] at hn
  unfold parseRecord
  rw [fs.parse_none false num _ _ u.1 hn.1, os.parse_none false num _ _ u.2 hn.2]
  simp only
  rw [if_neg (by omega)]
  simp only [skipField, readLen_ok body hp]
  rw [if_neg (by simp; omega)]
  rfl

section
variable {fs : Fields} {os : Oneofs}
local notation "T" => ElemTy.msg fs os

theorem message_lost (hw : (T).WF) (clip : Bool)
    (hF : ∀ num wt q u v, fs.Lost num wt q (fs.seen u) v → fs.Blank u ∧ fs.Sized u →
      ∃ z, fs.parse clip num wt q u = some z ∧ z.Shows fs.seen (fun u => fs.Blank u ∧ fs.Sized u) v)
    (hO : ∀ num wt q u v, os.Lost num wt q (os.seen u) v → os.Blank u ∧ os.Sized u →
      ∃ z, os.parse clip num wt q u = some z ∧ z.Shows os.seen (fun u => os.Blank u ∧ os.Sized u) v)
    (bs : List Byte) (u : (T).Held) (v : (T).Val) (h : Lost fs os bs ((T).seen u) v) (hi : (T).Neat u) :
    (parseMessage fs os clip bs u).Shows (T).seen (T).Neat v := by
  obtain ⟨pre, tail, w, rfl, hs, h⟩ := h
  obtain ⟨w', k, h1, h2, rfl, h4⟩ := message_front fs os hw clip (tail := tail) hs hi
  rw [h2]
  simp only [ElemTy.WF] at hw
  have hd := List.nodup_append.mp hw.2.2.1
  rcases h with ⟨hc, rfl⟩ | ⟨tg, q, num, wt, rfl, ht, h⟩
  · exact ⟨w', parseLoop_done _ _ (by omega) _ _ hc, rfl, h4⟩
  · obtain ⟨v1, v2⟩ := v
    rcases h with ⟨h, h'⟩ | ⟨h, h'⟩
    · obtain ⟨z, e1, x, rfl, e3, e4⟩ := hF num wt q w'.1 _ h ⟨h4.1.1, h4.2.1⟩
      exact ⟨(x, w'.2), (parseLoop_tag ht h1).1 _ (parseRecord_field e1), Prod.ext e3 h'.symm,
        ⟨e4.1, h4.1.2⟩, e4.2, h4.2.2⟩
    · obtain ⟨z, e1, x, rfl, e3, e4⟩ := hO num wt q w'.2 _ h ⟨h4.1.2, h4.2.2⟩
      have hm := os.lost_mem num wt q _ (Or.inr ⟨_, h⟩)
      exact ⟨(w'.1, x), (parseLoop_tag ht h1).1 _ (parseRecord_oneof (fun hm' => hd.2.2 num hm' num hm rfl) e1),
        Prod.ext h'.symm e3, ⟨h4.1.1, e4.1⟩, h4.2.1, e4.2⟩

theorem message_overlong (hw : (T).WF)
    (hF : ∀ num wt q u, fs.Overlong num wt q (fs.seen u) → fs.Blank u ∧ fs.Sized u →
      fs.parse false num wt q u = some .overrun)
    (hO : ∀ num wt q u, os.Overlong num wt q (os.seen u) → os.Blank u ∧ os.Sized u →
      os.parse false num wt q u = some .overrun)
    (bs : List Byte) (u : (T).Held) (h : Overlong fs os bs ((T).seen u)) (hi : (T).Neat u) :
    parseMessage fs os false bs u = .overrun := by
  obtain ⟨pre, tg, q, num, wt, w, rfl, hs, ht, h⟩ := h
  obtain ⟨w', k, h1, h2, rfl, h4⟩ := message_front fs os hw false (tail := tg ++ q) hs hi
  rw [h2]
  simp only [ElemTy.WF] at hw
  have hd := List.nodup_append.mp hw.2.2.1
  refine (parseLoop_tag ht h1).2 ?_
  rcases h with h | h | ⟨h0, hn, rfl, p, body, n, rfl, g1, g2⟩
  · exact parseRecord_field (hF num wt q w'.1 h ⟨h4.1.1, h4.2.1⟩)
  · have hm := os.lost_mem num wt q _ (Or.inl h)
    exact parseRecord_oneof (fun hm' => hd.2.2 num hm' num hm rfl) (hO num wt q w'.2 h ⟨h4.1.2, h4.2.2⟩)
  · exact parseRecord_overlong h0 hn g1 g2

theorem msg_short {clip : Bool} {p body : List Byte} {n : Nat} {u : (T).Held} (hp : Varint 32 p n)
    (hl : body.length < n) : (T).parse clip (p ++ body) u = (parseMessage fs os clip body u).drained := by
  rw [msg_parse_eq, readLen_ok body hp]
  exact window_short (f := fun clip w => parseMessage fs os clip w u) hl

end

theorem packed_lost_parse {H : Type} {read : Reader H} {P : List Byte → H → Prop}
    (hP : ∀ p r y, P p y → read (p ++ r) = (.ok y, r))
    (hC : ∀ q r y, r ≠ [] → P (q ++ r) y → read q = (.error .endOfBuffer, []))
    (h0 : read [] = (.error .endOfBuffer, [])) {q : List Byte} {ys : List H} (h : PackedLost P q ys) (xs hs : List H)
    (hl : ys.length ≤ hs.length) : parseScalars read q (xs, hs) = .ok (xs ++ ys, hs.drop ys.length) [] := by
  unfold parseScalars
  rcases h with ⟨rfl, r, n, h1, h2⟩ | ⟨p, good, bad, r, y, n, rfl, h1, h2, h3, h4, h5⟩
  · rw [readLen_cut (cut_of_isVarint h1 h2.1)]
    have := parsePacked_ok hP .nil [] h0 xs hs hl
    simp only [List.append_nil] at this
    simp only [window, List.take_nil, List.drop_nil, this]
    simp
  · rw [readLen_ok _ h1]
    have := parsePacked_ok hP h3 bad (hC _ _ _ h4 h5) xs hs hl
    simp only [window_short h2, this]; rfl

mutual
theorem ElemTy.parse_lost : (t : ElemTy) → t.WF → (clip : Bool) → (q : List Byte) → (u : t.Held) → (v : t.Val) →
    t.Lost q (t.seen u) v → t.Neat u → (t.parse clip q u).Shows t.seen t.Neat v
  | .scalar _, _, _, _, _, _, h, _ => h.elim
  | .str _, _, _, _, _, _, h, _ => h.elim
  | .msg fs os, hw, clip, q, u, v, h, hi => by
    simp only [ElemTy.Lost] at h
    obtain ⟨p, body, n, rfl, h1, h2, h3⟩ := h
    have hw' := hw
    simp only [ElemTy.WF] at hw'
    have hd := List.nodup_append.mp hw'.2.2.1
    obtain ⟨x, e1, e2, e3⟩ := message_lost hw clip (Fields.parse_lost fs hw'.1 hd.1 clip)
      (Oneofs.parse_lost os hw'.2.1 hd.2.1 clip) body u v h3 hi
    refine ⟨x, ?_, e2, e3⟩
    rw [msg_short h1 h2, e1]; rfl
theorem Fields.parse_lost : (fs : Fields) → fs.WF → fs.numbers.Nodup → (clip : Bool) → (num : Nat) →
    (wt : WireType) → (q : List Byte) → (u : fs.Held) → (v : fs.Val) → fs.Lost num wt q (fs.seen u) v →
    fs.Blank u ∧ fs.Sized u →
    ∃ z, fs.parse clip num wt q u = some z ∧ z.Shows fs.seen (fun u => fs.Blank u ∧ fs.Sized u) v
  | .nil, _, _, _, _, _, _, _, _, h, _ => h.elim
  | .plain n t rest, hw, hd, clip, num, wt, q, (u1, u2), (v1, v2), h, hi => by
    simp only [Fields.WF] at hw
    simp only [Fields.numbers, List.nodup_cons] at hd
    rcases h with ⟨h1, h2, h3, h4⟩ | ⟨h3, h4⟩
    · obtain ⟨w, e, k2, k3, k4⟩ := ElemTy.parse_lost t hw.1 clip q u1 v1 h3 ⟨hi.1.1, hi.2.1⟩
      exact ⟨_, plain_here (u := (u1, u2)) h1 h2 e, (w, u2), rfl, Prod.ext k2 h4.symm, ⟨k3, hi.1.2⟩, ⟨k4, hi.2.2⟩⟩
    · have hm := rest.lost_mem num wt q _ (Or.inr ⟨_, h3⟩)
      obtain ⟨z, e, w, rfl, k2, k3, k4⟩ := Fields.parse_lost rest hw.2 hd.2 clip num wt q u2 v2 h3 ⟨hi.1.2, hi.2.2⟩
      exact ⟨_, plain_next (u := (u1, u2)) (ne_of_mem hm hd.1) e, (u1, w), rfl, Prod.ext h4.symm k2, ⟨hi.1.1, k3⟩,
        ⟨hi.2.1, k4⟩⟩
  | .optional n t rest, hw, hd, clip, num, wt, q, (u1, u2), (v1, v2), h, hi => by
    simp only [Fields.WF] at hw
    simp only [Fields.numbers, List.nodup_cons] at hd
    rcases h with ⟨h1, h2, ⟨y, h3, h5⟩, h4⟩ | ⟨h3, h4⟩
    · have hg : t.seen (u1.getD t.fresh) = (u1.map t.seen).getD t.dflt ∧ t.Neat (u1.getD t.fresh) := by
        cases u1 with
        | none => exact ElemTy.fresh_spec t
        | some x => exact ⟨rfl, hi.1.1 x rfl, hi.2.1 x rfl⟩
      obtain ⟨w, e, k2, k3, k4⟩ := ElemTy.parse_lost t hw.1 clip q (u1.getD t.fresh) y (by rw [hg.1]; exact h3) hg.2
      have h5 : v1 = some y := h5
      subst h5
      refine ⟨_, optional_here (u := (u1, u2)) h1 h2 e, (some w, u2), rfl, Prod.ext (congrArg some k2) h4.symm,
        ⟨?_, hi.1.2⟩, ⟨?_, hi.2.2⟩⟩
      · intro x hx; injection hx with hx; subst hx; exact k3
      · intro x hx; injection hx with hx; subst hx; exact k4
    · have hm := rest.lost_mem num wt q _ (Or.inr ⟨_, h3⟩)
      obtain ⟨z, e, w, rfl, k2, k3, k4⟩ := Fields.parse_lost rest hw.2 hd.2 clip num wt q u2 v2 h3 ⟨hi.1.2, hi.2.2⟩
      exact ⟨_, optional_next (u := (u1, u2)) (ne_of_mem hm hd.1) e, (u1, w), rfl, Prod.ext h4.symm k2,
        ⟨hi.1.1, k3⟩, ⟨hi.2.1, k4⟩⟩
  | .repeated n cap t rest, hw, hd, clip, num, wt, q, ((xs, hs), u2), (v1, v2), h, hi => by
    simp only [Fields.WF] at hw
    simp only [Fields.numbers, List.nodup_cons] at hd
    rcases h with ⟨h1, h2, hlen, h4, h3⟩ | ⟨h3, h4⟩
    · obtain ⟨⟨hb, hb2⟩, ⟨hsz, hs1, hs2⟩, hsz2⟩ := id hi
      dsimp only at hb hsz hs1 hs2 hb2 hsz2 hlen
      have hlen : v1.length ≤ cap := hlen
      cases t with
      | scalar s =>
        rw [if_pos (by rfl)] at h3
        obtain ⟨ys, g2, g3⟩ := h3
        have g3 : v1 = List.map (ElemTy.scalar s).seen xs ++ ys := g3
        subst g3
        have hl : ys.length ≤ hs.length := by
          simp only [List.length_append, List.length_map] at hlen; omega
        obtain ⟨zs, hzs⟩ : ∃ zs : List (ElemTy.scalar s).Held, zs = ys := ⟨ys, rfl⟩
        have hzl : zs.length = ys.length := by rw [hzs]; rfl
        have e : (ElemTy.scalar s).parseRep clip q (xs, hs) = .ok (xs ++ zs, hs.drop zs.length) [] :=
          packed_lost_parse (P := fun b y => s.Payload b y) (fun p r y h => s.read_ok r h)
            (fun q r y hr h => s.read_cut (s.bad_of_cut hr h)) (by cases s <;> rfl) (hzs ▸ g2) xs hs (hzl ▸ hl)
        refine ⟨_, repeated_here (u := ((xs, hs), u2)) h1 h2 e, ((xs ++ zs, hs.drop zs.length), u2), rfl,
          Prod.ext ?_ h4.symm, ⟨fun hm => (nomatch hm), hb2⟩, ⟨⟨?_, fun _ _ => trivial, fun _ _ => trivial⟩, hsz2⟩⟩
        · show List.map (ElemTy.scalar s).seen (xs ++ zs) = List.map (ElemTy.scalar s).seen xs ++ ys
          rw [List.map_append, hzs]
          congr 1
          exact List.map_id _
        · show (xs ++ zs).length + (hs.drop zs.length).length = cap
          simp only [List.length_append, List.length_drop]; omega
      | str c =>
        rw [if_neg (by simp [ElemTy.isScalar])] at h3
        obtain ⟨y, g1, g3⟩ := h3
        exact g1.elim
      | msg fs os =>
        rw [if_neg (by simp [ElemTy.isScalar])] at h3
        obtain ⟨y, g1, g3⟩ := h3
        have g3 : v1 = List.map (ElemTy.msg fs os).seen xs ++ [y] := g3
        subst g3
        cases hs with
        | nil =>
          simp only [List.length_append, List.length_map, List.length_cons, List.length_nil] at hlen hsz
          omega
        | cons g gs =>
        obtain ⟨e1, e2⟩ := hb rfl g List.mem_cons_self
        obtain ⟨w, e, k2, k3, k4⟩ := ElemTy.parse_lost (.msg fs os) hw.2.1 clip q g y (by rw [e1]; exact g1)
          ⟨e2, hs2 g List.mem_cons_self⟩
        have hr : (ElemTy.msg fs os).parseRep clip q (xs, g :: gs) = .ok (xs ++ [w], gs) [] := by
          simp only [ElemTy.Lost] at g1
          obtain ⟨p, body, n, rfl, j1, _⟩ := g1
          refine (parseElem_msg (readLen_ok _ j1)).trans ?_
          exact congrArg (Parse.map (fun y => (xs ++ [y], gs))) e
        refine ⟨_, repeated_here (u := ((xs, g :: gs), u2)) h1 h2 hr, ((xs ++ [w], gs), u2), rfl,
          Prod.ext ?_ h4.symm, ⟨fun hm x hx => hb hm x (List.mem_cons_of_mem _ hx), hb2⟩, ⟨⟨?_, ?_, ?_⟩, hsz2⟩⟩
        · show List.map (ElemTy.msg fs os).seen (xs ++ [w]) = List.map (ElemTy.msg fs os).seen xs ++ [y]
          rw [List.map_append, ← k2]; rfl
        · show (xs ++ [w]).length + gs.length = cap
          simp only [List.length_append, List.length_cons, List.length_nil] at hsz ⊢; omega
        · intro x hx
          rcases List.mem_append.mp hx with hx | hx
          · exact hs1 x hx
          · rw [List.mem_singleton.mp hx]; exact k4
        · exact fun x hx => hs2 x (List.mem_cons_of_mem _ hx)
    · have hm := rest.lost_mem num wt q _ (Or.inr ⟨_, h3⟩)
      obtain ⟨z, e, w, rfl, k2, k3, k4⟩ := Fields.parse_lost rest hw.2.2 hd.2 clip num wt q u2 v2 h3
        ⟨hi.1.2, hi.2.2⟩
      exact ⟨_, repeated_next (u := ((xs, hs), u2)) (ne_of_mem hm hd.1) e, ((xs, hs), w), rfl, Prod.ext h4.symm k2,
        ⟨hi.1.1, k3⟩, ⟨hi.2.1, k4⟩⟩
theorem Alts.parse_lost : (a : Alts) → a.WF → a.numbers.Nodup → (clip : Bool) → (num : Nat) →
    (wt : WireType) → (q : List Byte) → (u : Option a.Held) → (v : a.Val) → a.Lost num wt q (u.map a.seen) v →
    (∀ x, u = some x → a.Blank x ∧ a.Sized x) →
    ∃ z, a.parse clip num wt q u = some z ∧ z.Shows a.seen (fun u => a.Blank u ∧ a.Sized u) v
  | .nil, _, _, _, _, _, _, _, v, _, _ => nomatch v
  | .cons n t rest, hw, hd, clip, num, wt, q, u, v, h, hi => by
    simp only [Alts.WF] at hw
    simp only [Alts.numbers, List.nodup_cons] at hd
    rcases h with ⟨h1, h2, y, h3, rfl⟩ | ⟨y, h3, rfl⟩
    · have hg : t.seen (leftD t.fresh u) = leftD t.dflt (u.map (Alts.cons n t rest).seen) ∧
          t.Neat (leftD t.fresh u) := by
        cases u with
        | none => exact ElemTy.fresh_spec t
        | some u =>
          cases u with
          | inl x => exact ⟨rfl, hi _ rfl⟩
          | inr x => exact ElemTy.fresh_spec t
      obtain ⟨w, e, k2, k3, k4⟩ := ElemTy.parse_lost t hw.1 clip q (leftD t.fresh u) y (by rw [hg.1]; exact h3) hg.2
      exact ⟨_, member_here h1 h2 e, .inl w, rfl, congrArg Sum.inl k2, k3, k4⟩
    · have hm := rest.lost_mem num wt q _ (Or.inr ⟨_, h3⟩)
      have hg : (rightOf u).map rest.seen = rightOf (u.map (Alts.cons n t rest).seen) ∧
          ∀ x, rightOf u = some x → rest.Blank x ∧ rest.Sized x := by
        cases u with
        | none => exact ⟨rfl, fun _ h => (nomatch h)⟩
        | some u =>
          cases u with
          | inl x => exact ⟨rfl, fun _ h => (nomatch h)⟩
          | inr x =>
            refine ⟨rfl, fun z hz => ?_⟩
            injection hz with hz
            subst hz
            exact hi _ rfl
      obtain ⟨z, e, w, rfl, k2, k3, k4⟩ := Alts.parse_lost rest hw.2 hd.2 clip num wt q (rightOf u) y
        (by rw [hg.1]; exact h3) hg.2
      exact ⟨_, member_next (ne_of_mem hm hd.1) e, .inr w, rfl, congrArg Sum.inr k2, k3, k4⟩
theorem Oneofs.parse_lost : (os : Oneofs) → os.WF → os.numbers.Nodup → (clip : Bool) → (num : Nat) →
    (wt : WireType) → (q : List Byte) → (u : os.Held) → (v : os.Val) → os.Lost num wt q (os.seen u) v →
    os.Blank u ∧ os.Sized u →
    ∃ z, os.parse clip num wt q u = some z ∧ z.Shows os.seen (fun u => os.Blank u ∧ os.Sized u) v
  | .nil, _, _, _, _, _, _, _, _, h, _ => h.elim
  | .cons a rest, hw, hd, clip, num, wt, q, (u1, u2), (v1, v2), h, hi => by
    simp only [Oneofs.WF] at hw
    simp only [Oneofs.numbers] at hd
    have hd' := List.nodup_append.mp hd
    rcases h with ⟨⟨y, h3, h5⟩, h4⟩ | ⟨h3, h4⟩
    · obtain ⟨z, e, w, rfl, k2, k3, k4⟩ := Alts.parse_lost a hw.1 hd'.1 clip num wt q u1 y h3
        (fun x hx => ⟨hi.1.1 x hx, hi.2.1 x hx⟩)
      have h5 : v1 = some y := h5
      subst h5
      refine ⟨_, oneof_here (u := (u1, u2)) e, (some w, u2), rfl, Prod.ext (congrArg some k2) h4.symm,
        ⟨?_, hi.1.2⟩, ⟨?_, hi.2.2⟩⟩
      · intro x hx; injection hx with hx; subst hx; exact k3
      · intro x hx; injection hx with hx; subst hx; exact k4
    · have hm := rest.lost_mem num wt q _ (Or.inr ⟨_, h3⟩)
      obtain ⟨z, e, w, rfl, k2, k3, k4⟩ := Oneofs.parse_lost rest hw.2 hd'.2.1 clip num wt q u2 v2 h3
        ⟨hi.1.2, hi.2.2⟩
      exact ⟨_, oneof_next (u := (u1, u2)) (fun hm' => hd'.2.2 num hm' num hm rfl) e, (u1, w), rfl,
        Prod.ext h4.symm k2, ⟨hi.1.1, k3⟩, ⟨hi.2.1, k4⟩⟩
end

mutual
theorem ElemTy.parse_overlong : (t : ElemTy) → t.WF → (q : List Byte) → (u : t.Held) →
    t.Overlong q (t.seen u) → t.Neat u → t.parse false q u = .overrun
  | .scalar _, _, _, _, h, _ => h.elim
  | .str _, _, _, _, h, _ => h.elim
  | .msg fs os, hw, q, u, h, hi => by
    simp only [ElemTy.Overlong] at h
    obtain ⟨p, body, n, rfl, h1, h2, h3⟩ := h
    have hw' := hw
    simp only [ElemTy.WF] at hw'
    have hd := List.nodup_append.mp hw'.2.2.1
    rw [msg_short h1 h2, message_overlong hw (Fields.parse_overlong fs hw'.1 hd.1)
      (Oneofs.parse_overlong os hw'.2.1 hd.2.1) body u h3 hi]; rfl
theorem Fields.parse_overlong : (fs : Fields) → fs.WF → fs.numbers.Nodup → (num : Nat) →
    (wt : WireType) → (q : List Byte) → (u : fs.Held) → fs.Overlong num wt q (fs.seen u) →
    fs.Blank u ∧ fs.Sized u → fs.parse false num wt q u = some .overrun
  | .nil, _, _, _, _, _, _, h, _ => h.elim
  | .plain n t rest, hw, hd, num, wt, q, (u1, u2), h, hi => by
    simp only [Fields.WF] at hw
    simp only [Fields.numbers, List.nodup_cons] at hd
    rcases h with ⟨h1, h2, h3⟩ | h3
    · exact plain_here (u := (u1, u2)) h1 h2 (ElemTy.parse_overlong t hw.1 q u1 h3 ⟨hi.1.1, hi.2.1⟩)
    · have hm := rest.lost_mem num wt q _ (Or.inl h3)
      exact (plain_next (u := (u1, u2)) (ne_of_mem hm hd.1)
        (Fields.parse_overlong rest hw.2 hd.2 num wt q u2 h3 ⟨hi.1.2, hi.2.2⟩) :)
  | .optional n t rest, hw, hd, num, wt, q, (u1, u2), h, hi => by
    simp only [Fields.WF] at hw
    simp only [Fields.numbers, List.nodup_cons] at hd
    rcases h with ⟨h1, h2, h3⟩ | h3
    · have hg : t.seen (u1.getD t.fresh) = (u1.map t.seen).getD t.dflt ∧ t.Neat (u1.getD t.fresh) := by
        cases u1 with
        | none => exact ElemTy.fresh_spec t
        | some x => exact ⟨rfl, hi.1.1 x rfl, hi.2.1 x rfl⟩
      exact optional_here (u := (u1, u2)) h1 h2
        (ElemTy.parse_overlong t hw.1 q (u1.getD t.fresh) (by rw [hg.1]; exact h3) hg.2)
    · have hm := rest.lost_mem num wt q _ (Or.inl h3)
      exact (optional_next (u := (u1, u2)) (ne_of_mem hm hd.1)
        (Fields.parse_overlong rest hw.2 hd.2 num wt q u2 h3 ⟨hi.1.2, hi.2.2⟩) :)
  | .repeated n cap t rest, hw, hd, num, wt, q, ((xs, hs), u2), h, hi => by
    simp only [Fields.WF] at hw
    simp only [Fields.numbers, List.nodup_cons] at hd
    rcases h with ⟨h1, h2, h5, hlen, h3⟩ | h3
    · obtain ⟨⟨hb, hb2⟩, ⟨hsz, hs1, hs2⟩, hsz2⟩ := id hi
      dsimp only at hb hsz hs1 hs2 hb2 hsz2
      replace hlen : (List.map t.seen xs).length < cap := hlen
      rw [List.length_map] at hlen
      cases t with
      | scalar s => exact nomatch h5
      | str c => exact h3.elim
      | msg fs os =>
        cases hs with
        | nil =>
          simp only [List.length_nil] at hsz
          omega
        | cons g gs =>
        obtain ⟨e1, e2⟩ := hb rfl g List.mem_cons_self
        have e := ElemTy.parse_overlong (.msg fs os) hw.2.1 q g (by rw [e1]; exact h3)
          ⟨e2, hs2 g List.mem_cons_self⟩
        have hr : (ElemTy.msg fs os).parseRep false q (xs, g :: gs) = .overrun := by
          simp only [ElemTy.Overlong] at h3
          obtain ⟨p, body, n, rfl, j1, _⟩ := h3
          refine (parseElem_msg (readLen_ok _ j1)).trans ?_
          exact congrArg (Parse.map (fun y => (xs ++ [y], gs))) e
        exact repeated_here (u := ((xs, g :: gs), u2)) h1 h2 hr
    · have hm := rest.lost_mem num wt q _ (Or.inl h3)
      exact (repeated_next (u := ((xs, hs), u2)) (ne_of_mem hm hd.1)
        (Fields.parse_overlong rest hw.2.2 hd.2 num wt q u2 h3 ⟨hi.1.2, hi.2.2⟩) :)
theorem Alts.parse_overlong : (a : Alts) → a.WF → a.numbers.Nodup → (num : Nat) →
    (wt : WireType) → (q : List Byte) → (u : Option a.Held) → a.Overlong num wt q (u.map a.seen) →
    (∀ x, u = some x → a.Blank x ∧ a.Sized x) → a.parse false num wt q u = some .overrun
  | .nil, _, _, _, _, _, _, h, _ => h.elim
  | .cons n t rest, hw, hd, num, wt, q, u, h, hi => by
    simp only [Alts.WF] at hw
    simp only [Alts.numbers, List.nodup_cons] at hd
    rcases h with ⟨h1, h2, h3⟩ | h3
    · have hg : t.seen (leftD t.fresh u) = leftD t.dflt (u.map (Alts.cons n t rest).seen) ∧
          t.Neat (leftD t.fresh u) := by
        cases u with
        | none => exact ElemTy.fresh_spec t
        | some u =>
          cases u with
          | inl x => exact ⟨rfl, hi _ rfl⟩
          | inr x => exact ElemTy.fresh_spec t
      exact member_here h1 h2 (ElemTy.parse_overlong t hw.1 q (leftD t.fresh u) (by rw [hg.1]; exact h3) hg.2)
    · have hm := rest.lost_mem num wt q _ (Or.inl h3)
      have hg : (rightOf u).map rest.seen = rightOf (u.map (Alts.cons n t rest).seen) ∧
          ∀ x, rightOf u = some x → rest.Blank x ∧ rest.Sized x := by
        cases u with
        | none => exact ⟨rfl, fun _ h => (nomatch h)⟩
        | some u =>
          cases u with
          | inl x => exact ⟨rfl, fun _ h => (nomatch h)⟩
          | inr x =>
            refine ⟨rfl, fun z hz => ?_⟩
            injection hz with hz
            subst hz
            exact hi _ rfl
      exact (member_next (ne_of_mem hm hd.1)
        (Alts.parse_overlong rest hw.2 hd.2 num wt q (rightOf u) (by rw [hg.1]; exact h3) hg.2) :)
theorem Oneofs.parse_overlong : (os : Oneofs) → os.WF → os.numbers.Nodup → (num : Nat) →
    (wt : WireType) → (q : List Byte) → (u : os.Held) → os.Overlong num wt q (os.seen u) →
    os.Blank u ∧ os.Sized u → os.parse false num wt q u = some .overrun
  | .nil, _, _, _, _, _, _, h, _ => h.elim
  | .cons a rest, hw, hd, num, wt, q, (u1, u2), h, hi => by
    simp only [Oneofs.WF] at hw
    simp only [Oneofs.numbers] at hd
    have hd' := List.nodup_append.mp hd
    rcases h with h3 | h3
    · have e := Alts.parse_overlong a hw.1 hd'.1 num wt q u1 h3 (fun x hx => ⟨hi.1.1 x hx, hi.2.1 x hx⟩)
      rw [oneofs_parse_eq]
      unfold consParse
      show (match a.parse false num wt q u1 with | _ => _) = _
      rw [e]; rfl
    · have hm := rest.lost_mem num wt q _ (Or.inl h3)
      exact (oneof_next (u := (u1, u2)) (fun hm' => hd'.2.2 num hm' num hm rfl)
        (Oneofs.parse_overlong rest hw.2 hd'.2.1 num wt q u2 h3 ⟨hi.1.2, hi.2.2⟩) :)
end

/-- Input that ends in a way that is not noticed. -/
theorem Lost.parse {fs : Fields} {os : Oneofs} (hw : (ElemTy.msg fs os).WF) (clip : Bool) {bs : List Byte}
    {u : (ElemTy.msg fs os).Held} {v : (ElemTy.msg fs os).Val} (h : Lost fs os bs ((ElemTy.msg fs os).seen u) v)
    (hi : (ElemTy.msg fs os).Neat u) :
    (parseMessage fs os clip bs u).Shows (ElemTy.msg fs os).seen (ElemTy.msg fs os).Neat v := by
  have hw' := hw
  simp only [ElemTy.WF] at hw'
  have hd := List.nodup_append.mp hw'.2.2.1
  exact message_lost hw clip (Fields.parse_lost fs hw'.1 hd.1 clip) (Oneofs.parse_lost os hw'.2.1 hd.2.1 clip) bs u v h hi

/-- Input that ends inside the contents of an unknown field. -/
theorem Overlong.parse {fs : Fields} {os : Oneofs} (hw : (ElemTy.msg fs os).WF) {bs : List Byte}
    {u : (ElemTy.msg fs os).Held} (h : Overlong fs os bs ((ElemTy.msg fs os).seen u))
    (hi : (ElemTy.msg fs os).Neat u) : parseMessage fs os false bs u = .overrun := by
  have hw' := hw
  simp only [ElemTy.WF] at hw'
  have hd := List.nodup_append.mp hw'.2.2.1
  exact message_overlong hw (Fields.parse_overlong fs hw'.1 hd.1) (Oneofs.parse_overlong os hw'.2.1 hd.2.1) bs u h hi

end EP
