import Verif.Model.Alias
import Verif.Spec.Alias
import Verif.Proof.Base
import Verif.Proof.Reach
import Verif.Proof.Accessors

/-! # Self-assignment and arguments from the same object -/

namespace EP

/-- `x`, unless that is undefined. -/
def okUnless {α : Type} (bad : Bool) (x : α) : Res α := if bad then .ub else .ok x

theorem okUnless_bind {α β : Type} (b : Bool) (x : α) (f : α → Res β) :
    (okUnless b x >>= f) = if b then .ub else f x := by cases b <;> rfl

theorem StrObj.setSelf_eq {cap : Nat} {x : StrObj} (h : x.WF cap) :
    x.setSelf cap = okUnless (!x.chars.isEmpty) x := by
  obtain ⟨h1, h2⟩ := h
  obtain ⟨len, data⟩ := x
  simp only at h1 h2
  unfold StrObj.setSelf StrObj.setOwn
  simp only [ge_iff_le, h2, ↓reduceIte, Nat.zero_add, List.drop_zero]
  by_cases h0 : len = 0
  · subst h0
    simp [arrayCopy, StrObj.chars, okUnless]
  · have : (List.take len data).isEmpty = false := by
      cases hd : List.take len data with
      | nil =>
        have := congrArg List.length hd
        rw [List.length_take, List.length_nil, h1] at this
        omega
      | cons => rfl
    rw [if_pos (Or.inr (by omega))]
    simp [StrObj.chars, okUnless, this]

section
variable {E : FieldClass}

/-- The elements from `i` to `i + n` are assigned to themselves. -/
theorem copyOwn_self (self : E.State → Res E.State) (bad : E.State → Bool) (n : Nat) :
    ∀ (i : Nat) (data : List E.State), i + n ≤ data.length →
    (∀ x ∈ data, self x = okUnless (bad x) x) →
    RepObj.copyOwn self 0 data i n = okUnless (((data.drop i).take n).any bad) data := by
  induction n with
  | zero => intro i data _ _; simp [RepObj.copyOwn, okUnless]
  | succ n ih =>
    intro i data hl hs
    have hi : i < data.length := by omega
    unfold RepObj.copyOwn RepObj.assignElem
    rw [if_pos (Nat.zero_add i).symm, arrayGet_of_lt hi, Res.ok_bind, hs _ (List.getElem_mem hi), okUnless_bind]
    rw [List.drop_eq_getElem_cons hi]
    simp only [List.take_succ_cons, List.any_cons]
    cases hb : bad data[i] with
    | true => rfl
    | false =>
      simp only [Bool.false_eq_true, ↓reduceIte, Bool.false_or]
      rw [arraySet_of_lt hi, List.set_getElem_self hi, Res.ok_bind]
      exact ih (i + 1) data (by omega) hs

theorem assignSelf_eq {V : Type} {S : ClassSpec E V} {cap : Nat} {x : RepObj E.State} (self : E.State → Res E.State)
    (bad : V → Bool) (hx : (repSpec S cap).Inv x) (hs : ∀ y, S.Inv y → self y = okUnless (bad (S.abs y)) y) :
    x.assignSelf self = okUnless (((repSpec S cap).abs x).any bad) x := by
  obtain ⟨h1, h2, h3⟩ := hx
  unfold RepObj.assignSelf
  rw [copyOwn_self self (fun y => bad (S.abs y)) x.len 0 x.data (by omega) (fun y hy => hs y (h3 y hy)),
    okUnless_bind]
  have : ((repSpec S cap).abs x).any bad = (List.take x.len (List.drop 0 x.data)).any (fun y => bad (S.abs y)) := by
    show (List.map S.abs (x.data.take x.len)).any bad = _
    rw [List.any_map]; rfl
  rw [this]
  cases (List.take x.len (List.drop 0 x.data)).any (fun y => bad (S.abs y)) <;> rfl

end

theorem ElemTy.selfSet_eq {t : ElemTy} (ht : ∀ x, t.Inv x → t.selfAssign x = okUnless (t.isMsg && t.hasText (t.abs x)) x)
    (x : t.cls.State) (hx : t.Inv x) : t.selfSet t.selfAssign x = okUnless (t.hasText (t.abs x)) x := by
  cases t with
  | scalar s => exact ht x hx
  | str cap => exact StrObj.setSelf_eq hx
  | msg fs os => exact ht x hx

mutual
theorem ElemTy.selfAssign_eq : (t : ElemTy) → t.WF → ∀ x, t.Inv x →
    t.selfAssign x = okUnless (t.isMsg && t.hasText (t.abs x)) x
  | .scalar _, _, _, _ => rfl
  | .str _, _, _, _ => rfl
  | .msg fs os, h, m, hm => by
    simp only [ElemTy.WF] at h
    obtain ⟨p, s, o⟩ := m
    obtain ⟨hp, hs, ho⟩ := hm
    show (do
      let (p, s) ← fs.selfAssign 0 (p, s)
      let o ← os.selfAssign o
      pure ⟨p, s, o⟩ : Res (MsgObj (fs.cls 0).State os.cls.State)) =
        okUnless (fs.hasText ((fs.spec 0).abs p.bit s) || os.hasText (os.spec.abs o)) _
    rw [Fields.selfAssign_eq fs 0 fs.nOptional h.1 (by omega) p s hp hs, okUnless_bind]
    cases fs.hasText ((fs.spec 0).abs p.bit s) with
    | true => rfl
    | false =>
      simp only [Bool.false_eq_true, ↓reduceIte, Bool.false_or]
      rw [Oneofs.selfAssign_eq os h.2.1 (List.nodup_append.mp h.2.2.1).2.1
        (fun k hk => (h.2.2.2 k (List.mem_append_right _ hk)).1) o ho, okUnless_bind]
      cases os.hasText (os.spec.abs o) <;> rfl
theorem Fields.selfAssign_eq : (fs : Fields) → (idx n : Nat) → fs.WF → idx + fs.nOptional ≤ n → ∀ p s,
    Presence.WF n p → (fs.spec idx).Inv p.bit s →
    fs.selfAssign idx (p, s) = okUnless (fs.hasText ((fs.spec idx).abs p.bit s)) (p, s)
  | .nil, _, _, _, _, _, _, _, _ => rfl
  | .plain num t rest, idx, n, h, hi, p, s, hp, hs => by
    simp only [Fields.WF] at h
    simp only [Fields.nOptional] at hi
    show (do
      let x ← t.selfSet t.selfAssign s.1
      let (p, r) ← rest.selfAssign idx (p, s.2)
      pure (p, x, r) : Res (Presence × t.cls.State × (rest.cls idx).State)) =
        okUnless (t.hasText (t.abs s.1) || rest.hasText ((rest.spec idx).abs p.bit s.2)) (p, s)
    rw [ElemTy.selfSet_eq (ElemTy.selfAssign_eq t h.1) s.1 hs.1, okUnless_bind]
    cases t.hasText (t.abs s.1) with
    | true => rfl
    | false =>
      simp only [Bool.false_eq_true, ↓reduceIte, Bool.false_or]
      rw [Fields.selfAssign_eq rest idx n h.2 hi p s.2 hp hs.2, okUnless_bind]
      cases rest.hasText ((rest.spec idx).abs p.bit s.2) <;> rfl
  | .optional num t rest, idx, n, h, hi, p, s, hp, hs => by
    simp only [Fields.WF] at h
    simp only [Fields.nOptional] at hi
    have hin : idx < n := by omega
    have ih := Fields.selfAssign_eq rest (idx + 1) n h.2 (by omega) p s.2 hp hs.2
    show (do
      let has ← Presence.has p idx
      let (p, x) ← (if has then do
          let p ← Presence.setBit p idx
          let x ← t.selfSet t.selfAssign s.1
          pure (p, x)
        else do
          let p ← Presence.clearBit p idx
          let x ← t.cls.clear s.1
          pure (p, x) : Res (Presence × t.cls.State))
      let (p, r) ← rest.selfAssign (idx + 1) (p, s.2)
      pure (p, x, r) : Res (Presence × t.cls.State × (rest.cls (idx + 1)).State)) =
        okUnless (Option.any t.hasText (if p.bit idx then some (t.abs s.1) else none) ||
          rest.hasText ((rest.spec (idx + 1)).abs p.bit s.2)) (p, s)
    rw [Presence.has_eq hp hin, Res.ok_bind]
    cases hb : p.bit idx with
    | true =>
      simp only [↓reduceIte]
      obtain ⟨q, e1, e2, e3⟩ := Presence.setBit_eq (i := idx) hp hin
      have : q = p := Presence.ext (e2.1.trans hp.1.symm) (fun j => by
        rw [e3]
        by_cases hj : j = idx
        · subst hj; simp [hb]
        · simp [hj])
      subst this
      rw [e1, Res.ok_bind, ElemTy.selfSet_eq (ElemTy.selfAssign_eq t h.1) s.1 hs.1.1, okUnless_bind]
      show _ = okUnless (t.hasText (t.abs s.1) || _) _
      cases t.hasText (t.abs s.1) with
      | true => rfl
      | false =>
        simp only [Bool.false_eq_true, ↓reduceIte, Bool.false_or, Res.ok_bind, Res.pure_eq]
        rw [ih, okUnless_bind]
        cases rest.hasText ((rest.spec (idx + 1)).abs q.bit s.2) <;> rfl
    | false =>
      simp only [Bool.false_eq_true, ↓reduceIte]
      obtain ⟨q, e1, e2, e3⟩ := Presence.clearBit_eq (i := idx) hp hin
      have : q = p := Presence.ext (e2.1.trans hp.1.symm) (fun j => by
        rw [e3]
        by_cases hj : j = idx
        · subst hj; simp [hb]
        · simp [hj])
      subst this
      rw [e1, Res.ok_bind, (ElemTy.base t h.1).clear s.1 hs.1.1, Res.ok_bind]
      show _ = okUnless (false || _) _
      simp only [Bool.false_or, Res.ok_bind, Res.pure_eq]
      rw [ih, okUnless_bind, ← hs.1.2 hb]
      cases rest.hasText ((rest.spec (idx + 1)).abs q.bit s.2) <;> rfl
  | .repeated num cap t rest, idx, n, h, hi, p, s, hp, hs => by
    simp only [Fields.WF] at h
    simp only [Fields.nOptional] at hi
    obtain ⟨x, r⟩ := s
    have e := assignSelf_eq (S := t.spec) (cap := cap) t.selfAssign (fun v => t.isMsg && t.hasText v) hs.1
      (ElemTy.selfAssign_eq t h.2.1)
    have ih := Fields.selfAssign_eq rest idx n h.2.2 hi p r hp hs.2
    show (do
      let x ← RepObj.assignSelf t.selfAssign x
      let (p, r) ← rest.selfAssign idx (p, r)
      pure (p, x, r) : Res (Presence × RepObj t.cls.State × (rest.cls idx).State)) =
        okUnless ((t.isMsg && List.any ((repSpec t.spec cap).abs x) t.hasText) ||
          rest.hasText ((rest.spec idx).abs p.bit r)) (p, x, r)
    have hand : ∀ l : List t.Val, (l.any fun v => t.isMsg && t.hasText v) = (t.isMsg && l.any t.hasText) := by
      intro l
      cases t.isMsg with
      | true => simp
      | false => simp
    rw [hand] at e
    refine (congrArg (· >>= fun x => do
      let (p, r) ← rest.selfAssign idx (p, r)
      pure (p, x, r)) e).trans ?_
    simp only
    rw [ih]
    cases t.isMsg && List.any ((repSpec t.spec cap).abs x) t.hasText <;>
      cases rest.hasText ((rest.spec idx).abs p.bit r) <;> rfl
theorem Alts.selfSet_eq : (a : Alts) → a.WF → a.numbers.Nodup → ∀ u, a.spec.Inv u →
    a.selfSet (a.spec.num u) (some u) = okUnless (a.hasText (a.spec.abs u)) (some u)
  | .nil, _, _, u, _ => nomatch u
  | .cons num t rest, h, hd, u, hu => by
    simp only [Alts.WF] at h
    simp only [Alts.numbers, List.nodup_cons] at hd
    cases u with
    | inl x =>
      show (if num = num then onLeft (t.selfSet t.selfAssign) (some (.inl x)) else _) = okUnless (t.hasText (t.abs x)) _
      rw [if_pos rfl]
      unfold onLeft
      simp only [AltsClass.left?, AltsClass.access, Res.ok_bind]
      rw [ElemTy.selfSet_eq (ElemTy.selfAssign_eq t h.1) x hu, okUnless_bind]
      cases t.hasText (t.abs x) <;> rfl
    | inr v =>
      have hne : rest.spec.num v ≠ num := fun e => hd.1 (e ▸ (Alts.base rest h.2 hd.2).num_mem v)
      show (if rest.spec.num v = num then _ else onRight (rest.selfSet (rest.spec.num v)) (some (.inr v))) =
        okUnless (rest.hasText (rest.spec.abs v)) _
      rw [if_neg hne]
      unfold onRight
      simp only [AltsClass.right?]
      rw [Alts.selfSet_eq rest h.2 hd.2 v hu, okUnless_bind]
      cases rest.hasText (rest.spec.abs v) <;> rfl
theorem Oneofs.selfAssign_eq : (os : Oneofs) → os.WF → os.numbers.Nodup → (∀ k ∈ os.numbers, 0 < k) → ∀ s,
    os.spec.Inv s → os.selfAssign s = okUnless (os.hasText (os.spec.abs s)) s
  | .nil, _, _, _, _, _ => rfl
  | .cons a rest, h, hd, hn, s, hs => by
    simp only [Oneofs.WF] at h
    simp only [Oneofs.numbers] at hd hn
    have hd' := List.nodup_append.mp hd
    have hb := Alts.base a h.1 hd'.1
    have h0 : 0 ∉ a.numbers := fun h0 => absurd (hn 0 (List.mem_append_left _ h0)) (by omega)
    have ih := Oneofs.selfAssign_eq rest h.2 hd'.2.1 (fun k hk => hn k (List.mem_append_right _ hk)) s.2 hs.2
    obtain ⟨⟨which, live⟩, r⟩ := s
    show (do
      let o ← (if a.cls.hasCase which then do
          let o ← a.cls.activate ⟨which, live⟩ which
          let u ← a.selfSet o.which o.live
          pure ⟨o.which, u⟩
        else pure ⟨which, live⟩ : Res (OneofObj a.cls.U))
      let r ← rest.selfAssign r
      pure (o, r) : Res (OneofObj a.cls.U × rest.cls.State)) =
        okUnless (Option.any a.hasText (live.map a.spec.abs) || rest.hasText (rest.spec.abs r)) (⟨which, live⟩, r)
    have ih : rest.selfAssign r = okUnless (rest.hasText (rest.spec.abs r)) r := ih
    rw [ih]
    cases live with
    | none =>
      have hw : which = 0 := hs.1
      subst hw
      rw [hb.hasCase, decide_eq_false h0]
      simp only [Bool.false_eq_true, ↓reduceIte, Res.pure_eq, Res.ok_bind, Option.map_none, Option.any_none,
        Bool.false_or]
      rw [okUnless_bind]
      cases rest.hasText (rest.spec.abs r) <;> rfl
    | some u =>
      have hw : which = a.spec.num u := hs.1.1
      subst hw
      rw [hb.hasCase, decide_eq_true (hb.num_mem u)]
      have : a.cls.activate ⟨a.spec.num u, some u⟩ (a.spec.num u) = .ok ⟨a.spec.num u, some u⟩ := by
        unfold AltsClass.activate
        rw [if_neg (by simp)]; rfl
      simp only [↓reduceIte, this, Res.ok_bind]
      rw [Alts.selfSet_eq a h.1 hd'.1 u hs.1.2, okUnless_bind]
      simp only [Option.map_some, Option.any_some]
      cases a.hasText (a.spec.abs u) with
      | true => rfl
      | false =>
        simp only [Bool.false_eq_true, ↓reduceIte, Bool.false_or, Res.pure_eq, Res.ok_bind]
        rw [okUnless_bind]
        cases rest.hasText (rest.spec.abs r) <;> rfl
end

/-! ## Arrays -/

section
variable {E : FieldClass}

/-- Moving elements towards the front reads each one before it is written. -/
theorem copyOwn_shift (self : E.State → Res E.State) (k : Nat) (hk : 0 < k) (n : Nat) :
    ∀ (i : Nat) (data : List E.State), k + i + n ≤ data.length →
    RepObj.copyOwn self k data i n = RepObj.copyElems data i ((data.drop (k + i)).take n) := by
  induction n with
  | zero => intro i data _; simp [RepObj.copyOwn, RepObj.copyElems]
  | succ n ih =>
    intro i data hl
    have hi : i < data.length := by omega
    have hj : k + i < data.length := by omega
    rw [List.drop_eq_getElem_cons hj]
    simp only [List.take_succ_cons]
    unfold RepObj.copyOwn RepObj.assignElem RepObj.copyElems
    rw [if_neg (show ¬ i = k + i by omega), arrayGet_of_lt hj, Res.ok_bind, arrayGet_of_lt hi, Res.ok_bind, Res.ok_bind]
    cases E.assign data[i] data[k + i] with
    | ub => rfl
    | diverge => rfl
    | ok z =>
      rw [Res.ok_bind, Res.ok_bind, arraySet_of_lt hi, Res.ok_bind, Res.ok_bind,
        ih (i + 1) (data.set i z) (by rw [List.length_set]; omega), List.drop_set_of_lt (show i < k + (i + 1) by omega)]
      rfl

theorem setDataOwn_shift (self : E.State → Res E.State) (cap : Nat) (x : RepObj E.State) (k n : Nat) (hk : 0 < k)
    (hl : k + n ≤ x.data.length) : x.setDataOwn self cap k n = x.setData cap ((x.data.drop k).take n) := by
  have hn : ((x.data.drop k).take n).length = n := by rw [List.length_take, List.length_drop]; omega
  unfold RepObj.setDataOwn RepObj.setData
  rw [hn, copyOwn_shift self k hk n 0 x.data hl]
  rfl

theorem assignElem_ne (self : E.State → Res E.State) (data : List E.State) {i j : Nat} (hne : i ≠ j) :
    RepObj.assignElem self data i j = (arrayGet data j >>= fun v => arrayGet data i >>= fun old =>
      E.assign old v >>= fun v => arraySet data i v) := if_neg hne

theorem assignElem_self (self : E.State → Res E.State) (data : List E.State) (i : Nat) (hi : i < data.length) {b : Bool}
    (hs : self data[i] = okUnless b data[i]) : RepObj.assignElem self data i i = okUnless b data := by
  unfold RepObj.assignElem
  rw [if_pos rfl, arrayGet_of_lt hi, Res.ok_bind, hs, okUnless_bind]
  cases b with
  | true => rfl
  | false =>
    simp only [Bool.false_eq_true, ↓reduceIte]
    rw [arraySet_of_lt hi, List.set_getElem_self hi]
    rfl

/-- `add` of an element of the same array. -/
theorem addOwn_eq (self : E.State → Res E.State) (cap : Nat) (x : RepObj E.State) (j : Nat)
    (hj : RepObj.limit cap j < x.data.length) (hne : RepObj.limit cap j ≠ x.len) :
    x.addOwn self cap j = (x.getConst cap j >>= x.add cap) := by
  unfold RepObj.addOwn RepObj.getConst RepObj.add
  rw [arrayGet_of_lt hj, Res.ok_bind]
  by_cases hc : cap > x.len
  · rw [if_pos hc, if_pos hc, assignElem_ne self x.data (Ne.symm hne), arrayGet_of_lt hj, Res.ok_bind]
    cases arrayGet x.data x.len with
    | ub => rfl
    | diverge => rfl
    | ok old =>
      simp only [Res.ok_bind]
      cases E.assign old x.data[RepObj.limit cap j] <;> rfl
  · rw [if_neg hc, if_neg hc]

/-- `set` with an element of the same array. -/
theorem setAtOwn_eq (self : E.State → Res E.State) (cap : Nat) (x : RepObj E.State) (i j : Nat)
    (hj : RepObj.limit cap j < x.data.length) (hne : RepObj.limit cap i ≠ RepObj.limit cap j) :
    x.setAtOwn self cap i j = (x.getConst cap j >>= x.setAt cap i) := by
  unfold RepObj.setAtOwn RepObj.getConst RepObj.setAt RepObj.modifyAt
  show (RepObj.assignElem self x.data _ _ >>= _ : Res _) = _
  rw [arrayGet_of_lt hj, Res.ok_bind, assignElem_ne self x.data hne, arrayGet_of_lt hj, Res.ok_bind]
  show _ = (arrayGet x.data (RepObj.limit cap i) >>= _ : Res _)
  cases arrayGet x.data (RepObj.limit cap i) with
  | ub => rfl
  | diverge => rfl
  | ok old =>
    simp only [Res.ok_bind]
    cases E.assign old x.data[RepObj.limit cap j] <;> rfl

theorem setAtOwn_self (self : E.State → Res E.State) (cap : Nat) (x : RepObj E.State) (i j : Nat)
    (hj : RepObj.limit cap j < x.data.length) (he : RepObj.limit cap i = RepObj.limit cap j) {b : Bool}
    (hs : self x.data[RepObj.limit cap j] = okUnless b x.data[RepObj.limit cap j]) :
    x.setAtOwn self cap i j = okUnless b (x.grow cap i) := by
  unfold RepObj.setAtOwn
  show (RepObj.assignElem self x.data _ _ >>= _ : Res _) = _
  rw [he, assignElem_self self x.data _ hj hs, okUnless_bind]
  cases b <;> rfl

end

/-! ## Oneofs -/

section
variable {fs : Fields} {os : Oneofs} {a : Alts} {num num' : Nat} {t t' : ElemTy}

/-- The argument of a setter of another member of the same oneof does not exist any more when it is read. -/
theorem Member.setFromMember_ub (s : OneofSlot os a) (m : Member a num t) (m' : Member a num' t')
    (part : t'.cls.State → Res t.cls.State) (h : (ElemTy.msg fs os).WF) {x : (ElemTy.msg fs os).Obj}
    (hx : (ElemTy.msg fs os).Inv x) (hne : num ≠ num') : Member.setFromMember (fs := fs) s m m' part x = .ub := by
  have hw := h
  simp only [ElemTy.WF] at hw
  have hn := List.nodup_append.mp hw.2.2.1
  have ha := s.wf hw.2.1 hn.2.1
  have h0 : 0 ∉ a.numbers := fun hm => by
    have := hw.2.2.2 0 (List.mem_append_right _ (s.mem hm))
    omega
  have ho := s.inv_state hx.2.2
  unfold Member.setFromMember
  show (s.access _ x.oneofs >>= _ : Res _) = _
  rw [s.access_eq, (m.activate ha.1 ha.2 h0 ho).1, Res.ok_bind]
  have : m'.readUnion (some (m.injState (m.current (s.state x.oneofs)))) = .ub := by
    have e := m'.projState_of_num ha.1 ha.2 (m.injState (m.current (s.state x.oneofs)))
      (by rw [m.num_injState]; exact hne)
    have : ∀ {a : Alts} {k : Nat} {u : ElemTy} (m : Member a k u) (v : a.cls.U), m.projState v = none →
        m.readUnion (some v) = .ub := by
      intro a k u m
      induction m with
      | here => intro v hv; rcases v with v | v <;> first | rfl | exact nomatch hv
      | after _ _ m ih => intro v hv; rcases v with v | v <;> first | rfl | exact ih v hv
    exact this m' _ e
  dsimp only
  rw [this]
  rfl

end

mutual
/-- Without string and bytes fields there is no text. -/
theorem ElemTy.hasText_of_hasStr : (t : ElemTy) → t.hasStr = false → ∀ v, t.hasText v = false
  | .scalar _, _, _ => rfl
  | .str _, h, _ => nomatch h
  | .msg fs os, h, v => by
    have h := Bool.or_eq_false_iff.mp h
    show (fs.hasText v.1 || os.hasText v.2) = false
    rw [Fields.hasText_of_hasStr fs h.1, Oneofs.hasText_of_hasStr os h.2]; rfl
theorem Fields.hasText_of_hasStr : (fs : Fields) → fs.hasStr = false → ∀ v, fs.hasText v = false
  | .nil, _, _ => rfl
  | .plain _ t rest, h, v => by
    have h := Bool.or_eq_false_iff.mp h
    show (t.hasText v.1 || rest.hasText v.2) = false
    rw [ElemTy.hasText_of_hasStr t h.1, Fields.hasText_of_hasStr rest h.2]; rfl
  | .optional _ t rest, h, v => by
    have h := Bool.or_eq_false_iff.mp h
    show (Option.any t.hasText v.1 || rest.hasText v.2) = false
    rw [Fields.hasText_of_hasStr rest h.2, Bool.or_false]
    obtain ⟨o, _⟩ := v
    cases o with
    | none => rfl
    | some w => exact ElemTy.hasText_of_hasStr t h.1 w
  | .repeated _ _ t rest, h, v => by
    have h := Bool.or_eq_false_iff.mp h
    show ((t.isMsg && List.any v.1 t.hasText) || rest.hasText v.2) = false
    rw [Fields.hasText_of_hasStr rest h.2, Bool.or_false]
    have : List.any v.1 t.hasText = false := by
      rw [List.any_eq_false]
      intro w _
      rw [ElemTy.hasText_of_hasStr t h.1 w]
      decide
    rw [this, Bool.and_false]
theorem Alts.hasText_of_hasStr : (a : Alts) → a.hasStr = false → ∀ v, a.hasText v = false
  | .nil, _, v => nomatch v
  | .cons _ t _, h, .inl x => ElemTy.hasText_of_hasStr t (Bool.or_eq_false_iff.mp h).1 x
  | .cons _ _ rest, h, .inr y => Alts.hasText_of_hasStr rest (Bool.or_eq_false_iff.mp h).2 y
theorem Oneofs.hasText_of_hasStr : (os : Oneofs) → os.hasStr = false → ∀ v, os.hasText v = false
  | .nil, _, _ => rfl
  | .cons a rest, h, v => by
    have h := Bool.or_eq_false_iff.mp h
    show (Option.any a.hasText v.1 || rest.hasText v.2) = false
    rw [Oneofs.hasText_of_hasStr rest h.2, Bool.or_false]
    obtain ⟨o, _⟩ := v
    cases o with
    | none => rfl
    | some w => exact Alts.hasText_of_hasStr a h.1 w
end

end EP
