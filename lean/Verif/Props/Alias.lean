import Verif.Proof.Alias
import Verif.Proof.Bounded
import Verif.Props.Objects

/-!
# Arguments that are a part of the object itself — C65, C66

The calls are those of Model/Alias.lean: what is assigned, added or set is (a part of) the object that is changed, and
is read while it changes.
-/

namespace EP
open Spec

/-! ## C65 -/

/-- Full statement of **C65**: assigning an object to itself leaves it as it is. -/
def C65_Statement (t : ElemTy) : Prop := ∀ x, t.WF → t.Reach x → t.selfAssign x = .ok x

/-- **C65**, exactly: `x = x` leaves every reachable object, in every bit, as it is — unless a string or bytes field of
the message (at any depth) is not empty; the code then calls `memcpy` with the same source and destination, which is
undefined. -/
theorem C65_exact (t : ElemTy) (x : t.Obj) (h : t.WF) (hx : t.Reach x) :
    t.selfAssign x = if t.isMsg = true ∧ t.hasText (t.abs x) = true then .ub else .ok x := by
  rw [ElemTy.selfAssign_eq t h x (ElemTy.reach_inv t h hx), okUnless]
  cases t.isMsg <;> cases t.hasText (t.abs x) <;> rfl

/-- **C65** for `set_x(get_x())`, with the same exception; here it also concerns a string field. -/
theorem C65_set_exact (t : ElemTy) (x : t.Obj) (h : t.WF) (hx : t.Reach x) :
    t.selfSet t.selfAssign x = if t.hasText (t.abs x) = true then .ub else .ok x := by
  rw [ElemTy.selfSet_eq (ElemTy.selfAssign_eq t h) x (ElemTy.reach_inv t h hx), okUnless]

/-- **C65** for declarations without string and bytes fields.  Missing: the others, when one of these fields is not
empty (`C65_exact`). -/
theorem C65_no_strings_partial (t : ElemTy) (hs : t.hasStr = false) : C65_Statement t := by
  intro x h hx
  rw [C65_exact t x h hx, ElemTy.hasText_of_hasStr t hs, if_neg (fun h => nomatch h.2)]

/-- **C65** for an object whose strings are all empty, a new or cleared one for example. -/
theorem C65_no_text_partial (t : ElemTy) (x : t.Obj) (h : t.WF) (hx : t.Reach x) (hv : t.hasText (t.abs x) = false) :
    t.selfAssign x = .ok x := by
  rw [C65_exact t x h hx, hv, if_neg (fun h => nomatch h.2)]

/-- `message { string s = 1; }` -/
abbrev aliasText : ElemTy := .msg (.plain 1 (.str 4) .nil) .nil

theorem aliasText_wf : aliasText.WF := by
  simp [ElemTy.WF, Fields.WF, Oneofs.WF, Fields.numbers, Oneofs.numbers]

/-- **C65** is false: a message with a string that is not empty. -/
theorem C65_false : ¬ ∀ t, C65_Statement t := by
  intro hall
  have e : aliasText.cls.deserialize 8 (ReadFixed.holding 8 [0x0A, 1, 0x61]) aliasText.cls.init = .ok (.noErrors, _, _) := rfl
  have hr := aliasText.reach_decoded (Source.holding 8 (by omega) [0x0A, 1, 0x61] (by decide)) 8 .init e
  exact nomatch (show aliasText.selfAssign _ = .ub from rfl).symm.trans (hall aliasText _ aliasText_wf hr)

/-! ## C66 -/

/-- Full statement of **C66**: an argument that is a part of the object itself is taken as it was before the call — the
call does what it does with a copy of the argument. -/
def C66_Statement : Prop :=
  (∀ (t : ElemTy) (cap : Nat) (x : RepObj t.cls.State), t.WF → cap < 2147483648 → t.RepReach cap x →
    (∀ j, j < x.len → x.addOwn t.selfAssign cap j = (x.getConst cap j >>= x.add cap)) ∧
    (∀ i j, j < x.len → x.setAtOwn t.selfAssign cap i j = (x.getConst cap j >>= x.setAt cap i)) ∧
    (∀ k n, k + n ≤ x.len → x.setDataOwn t.selfAssign cap k n = x.setData cap ((x.data.drop k).take n))) ∧
  (∀ (cap : Nat) (x : StrObj), (ElemTy.str cap).WF → (ElemTy.str cap).Reach x →
    (∀ k n, k + n ≤ x.len → x.setOwn cap k n = x.setData cap ((x.data.drop k).take n)) ∧
    (∀ k, 0 ∈ x.data.drop k → x.setCStrOwn cap k = x.setCStr cap ((x.data.drop k).takeWhile (· ≠ 0)))) ∧
  (∀ (fs : Fields) (os : Oneofs) (a : Alts) (num num' : Nat) (t t' : ElemTy) (s : OneofSlot os a) (m : Member a num t)
    (m' : Member a num' t') (part : t'.cls.State → Res t.cls.State) (x : (ElemTy.msg fs os).Obj),
    (ElemTy.msg fs os).WF → (ElemTy.msg fs os).Reach x → num ≠ num' →
    Member.setFromMember (fs := fs) s m m' part x = Member.setFromCopy (fs := fs) s m m' part x)

section arrays
variable {t : ElemTy} {cap : Nat}

theorem RepReach.inv {x : RepObj t.cls.State} (h : t.WF) (hc : cap < 2147483648)
    (hx : t.RepReach cap x) : (repSpec t.spec cap).Inv x :=
  ReachGen.keeps (ElemTy.rep_api_law h hc) (rep_base (cap := cap) (ElemTy.base t h)).init_inv hx

/-- **C66** for `a.add(a.get_const(j))` with an element of the list: always. -/
theorem C66_add (x : RepObj t.cls.State) (j : Nat) (h : t.WF) (hc : cap < 2147483648)
    (hx : t.RepReach cap x) (hj : j < x.len) :
    x.addOwn t.selfAssign cap j = (x.getConst cap j >>= x.add cap) := by
  have ix := RepReach.inv h hc hx
  have h1 : x.data.length = cap := ix.1
  have h2 : x.len ≤ cap := ix.2.1
  have hl := RepObj.limit_val (by omega) hc j
  exact addOwn_eq t.selfAssign cap x j (by omega) (by omega)

/-- **C66** for `a.set(i, a.get_const(j))` with two different places: always. -/
theorem C66_set (x : RepObj t.cls.State) (i j : Nat) (h : t.WF) (h0 : 0 < cap) (hc : cap < 2147483648)
    (hx : t.RepReach cap x) (hne : min i (cap - 1) ≠ min j (cap - 1)) :
    x.setAtOwn t.selfAssign cap i j = (x.getConst cap j >>= x.setAt cap i) := by
  have ix := RepReach.inv h hc hx
  have hi := RepObj.limit_val h0 hc i
  have hl := RepObj.limit_val h0 hc j
  have h1 : x.data.length = cap := ix.1
  exact setAtOwn_eq t.selfAssign cap x i j (by omega) (by omega)

/-- **C66** for `a.set(i, a.get_const(i))`, exactly: the elements stay as they are, unless the element is a message that
holds a non-empty string (as in C65). -/
theorem C66_set_same (x : RepObj t.cls.State) (i : Nat) (h : t.WF) (h0 : 0 < cap) (hc : cap < 2147483648)
    (hx : t.RepReach cap x) :
    ∃ v, x.getConst cap i = .ok v ∧ x.setAtOwn t.selfAssign cap i i =
      if t.isMsg = true ∧ t.hasText (t.abs v) = true then .ub else .ok ⟨max x.len (min i (cap - 1) + 1), x.data⟩ := by
  have ix := RepReach.inv h hc hx
  have hl := RepObj.limit_val h0 hc i
  have h1 : x.data.length = cap := ix.1
  have h2 : x.len ≤ cap := ix.2.1
  have hi : RepObj.limit cap i < x.data.length := by omega
  refine ⟨_, arrayGet_of_lt hi, ?_⟩
  rw [setAtOwn_self t.selfAssign cap x i i hi rfl (ElemTy.selfAssign_eq t h _ (ix.2.2 _ (List.getElem_mem hi))), okUnless]
  have hg : x.grow cap i = ⟨max x.len (min i (cap - 1) + 1), x.data⟩ := by
    unfold RepObj.grow
    rw [hl]
    simp only [ge_iff_le]
    congr 1
    split
    · rw [u32_of_lt (by omega)]; omega
    · omega
  rw [hg]
  show (if (t.isMsg && t.hasText (t.abs x.data[RepObj.limit cap i])) = true then _ else _) =
    if t.isMsg = true ∧ t.hasText (t.abs x.data[RepObj.limit cap i]) = true then _ else _
  cases t.isMsg <;> cases t.hasText (t.abs x.data[RepObj.limit cap i]) <;> rfl

/-- **C66** for `a.set_data(&a.get_const(k), n)` with `k > 0` (dropping the first `k` elements): always. -/
theorem C66_set_data (x : RepObj t.cls.State) (k n : Nat) (h : t.WF) (hc : cap < 2147483648)
    (hx : t.RepReach cap x) (hk : 0 < k) (hl : k + n ≤ cap) :
    x.setDataOwn t.selfAssign cap k n = x.setData cap ((x.data.drop k).take n) :=
  setDataOwn_shift t.selfAssign cap x k n hk (by rw [(RepReach.inv h hc hx).1]; exact hl)

/-- **C66** for `a.set_data(&a.get_const(0), n)` (keeping the first `n` elements), exactly: these stay as they are, unless
one of them is a message that holds a non-empty string. -/
theorem C66_set_data_front (x : RepObj t.cls.State) (n : Nat) (h : t.WF) (hc : cap < 2147483648)
    (hx : t.RepReach cap x) (hl : n ≤ cap) :
    x.setDataOwn t.selfAssign cap 0 n =
      if ∃ v ∈ x.data.take n, t.isMsg = true ∧ t.hasText (t.abs v) = true then .ub else .ok (.noErrors, ⟨n, x.data⟩) := by
  have ix := RepReach.inv h hc hx
  unfold RepObj.setDataOwn
  rw [if_pos hl, copyOwn_self t.selfAssign (fun y => t.isMsg && t.hasText (t.abs y)) n 0 x.data
    (by rw [ix.1]; omega) (fun y hy => ElemTy.selfAssign_eq t h y (ix.2.2 y hy)), okUnless_bind]
  have : (∃ v ∈ x.data.take n, t.isMsg = true ∧ t.hasText (t.abs v) = true) ↔
      ((x.data.drop 0).take n).any (fun y => t.isMsg && t.hasText (t.abs y)) = true := by
    simp [List.any_eq_true]
  simp only [this]
  rfl

end arrays

/-- **C66** for `s.set(s.get_const() + k, n)`, exactly: it does what it does with a copy of the characters, unless the
places the characters are copied from and to overlap, which `memcpy` does not allow. -/
theorem C66_string (cap : Nat) (x : StrObj) (k n : Nat) (h : (ElemTy.str cap).WF) (hx : (ElemTy.str cap).Reach x)
    (hl : k + n ≤ cap) :
    x.setOwn cap k n = if k < n then .ub else x.setData cap ((x.data.drop k).take n) := by
  have ix : x.WF cap := ElemTy.reach_inv (.str cap) h hx
  have h1 : x.data.length = cap := ix.1
  have hn : ((x.data.drop k).take n).length = n := by rw [List.length_take, List.length_drop]; omega
  unfold StrObj.setOwn StrObj.setData
  rw [hn, if_pos (show cap ≥ n by omega), if_pos (show cap ≥ n by omega)]
  by_cases hk : k < n
  · rw [if_pos (Or.inr hk), if_pos hk]
  · rw [if_neg (by omega), if_neg hk]

/-- **C66** for `s.set(s.get_const() + k)` of a string that has a NUL from `k` on, exactly: likewise, with the NUL (if
there is room for it). -/
theorem C66_c_string (cap : Nat) (x : StrObj) (k : Nat) (h : (ElemTy.str cap).WF) (hx : (ElemTy.str cap).Reach x)
    (h0 : 0 ∈ x.data.drop k) :
    x.setCStrOwn cap k = if k ≤ ((x.data.drop k).takeWhile (· ≠ 0)).length then .ub
      else x.setCStr cap ((x.data.drop k).takeWhile (· ≠ 0)) := by
  have ix : x.WF cap := ElemTy.reach_inv (.str cap) h hx
  have h1 : x.data.length = cap := ix.1
  have hc : 0 < cap ∧ cap < 2147483648 := h
  have hlt : ((x.data.drop k).takeWhile (· ≠ 0)).length + k < cap := by
    have : ((x.data.drop k).takeWhile (· ≠ 0)).length < (x.data.drop k).length := by
      have hle := (List.takeWhile_prefix (l := x.data.drop k) (p := fun b : Byte => decide (b ≠ 0))).length_le
      refine Nat.lt_of_le_of_ne hle fun he => ?_
      have := (List.takeWhile_prefix (l := x.data.drop k) (p := fun b : Byte => decide (b ≠ 0))).eq_of_length he
      rw [← this] at h0
      have hall := List.all_takeWhile (p := fun b : Byte => decide (b ≠ 0)) (l := x.data.drop k)
      rw [List.all_eq_true] at hall
      exact absurd (hall 0 h0) (by decide)
    rw [List.length_drop] at this
    omega
  unfold StrObj.setCStrOwn
  rw [if_pos h0]
  generalize (x.data.drop k).takeWhile (· ≠ 0) = str at hlt
  have e : (x.setLength cap (StrObj.strnlen str (u32 (cap + 1)))).len = str.length := by
    simp only [StrObj.setLength, StrObj.strnlen]
    rw [u32_of_lt (by omega)]; omega
  dsimp only
  rw [e, if_pos (show cap > str.length by omega), u32_of_lt (show str.length + 1 < _ by omega)]
  by_cases hk : k ≤ str.length
  · rw [if_pos hk, if_pos (show k < str.length + 1 by omega)]
  · rw [if_neg hk, if_neg (show ¬ k < str.length + 1 by omega)]

/-- **C66** for `x.set_b(x.get_a())` with two members of one oneof: never.  Whatever the object, and whatever part of `a`
is handed over, it is used after it was destroyed. -/
theorem C66_oneof_never {fs : Fields} {os : Oneofs} {a : Alts} {num num' : Nat} {t t' : ElemTy} (s : OneofSlot os a)
    (m : Member a num t) (m' : Member a num' t') (part : t'.cls.State → Res t.cls.State) (x : (ElemTy.msg fs os).Obj)
    (h : (ElemTy.msg fs os).WF) (hx : (ElemTy.msg fs os).Reach x) (hne : num ≠ num') :
    Member.setFromMember (fs := fs) s m m' part x = .ub :=
  Member.setFromMember_ub s m m' part h (ElemTy.reach_inv _ h hx) hne

/-- With a copy of the argument the same call is defined and sets `b` to the value of the part of `a`. -/
theorem C66_oneof_copy {fs : Fields} {os : Oneofs} {a : Alts} {num num' : Nat} {t t' : ElemTy} (s : OneofSlot os a)
    (m : Member a num t) (m' : Member a num' t') (part : t'.cls.State → Res t.cls.State) (x : (ElemTy.msg fs os).Obj)
    (v : t.Obj) (h : (ElemTy.msg fs os).WF) (hx : (ElemTy.msg fs os).Reach x) (hv : t.Reach v)
    (hp : (m'.get (fs := fs) s x >>= part) = .ok v) :
    ∃ y, Member.setFromCopy (fs := fs) s m m' part x = .ok y ∧ s.get ((ElemTy.msg fs os).abs y).2 = some (m.inj (t.abs v)) := by
  have ix := ElemTy.reach_inv _ h hx
  have ht : t.WF := by
    have hw := h
    simp only [ElemTy.WF] at hw
    exact m.wf (s.wf hw.2.1 (List.nodup_append.mp hw.2.2.1).2.1).1
  obtain ⟨hc, f, f1, f2⟩ := m.call_eq (fs := fs) s h ix
  obtain ⟨z, z1, _, z2, _⟩ := ((ElemTy.base t ht).set (m.current (s.member (fs := fs) x)) v hc
    (ElemTy.reach_inv t ht hv)).exists
  refine ⟨f z, ?_, ?_⟩
  · unfold Member.setFromCopy
    cases hg : m'.get (fs := fs) s x with
    | ub => rw [hg] at hp; exact nomatch hp
    | diverge => rw [hg] at hp; exact nomatch hp
    | ok old =>
      rw [hg, Res.ok_bind] at hp
      rw [Res.ok_bind, hp, Res.ok_bind, f1, z1]
      rfl
  · rw [(f2 z).abs]
    exact (s.get_put _ _).trans (congrArg some ((m.abs_injState z).trans (congrArg m.inj z2)))

/-! ### Cases -/

section
open Sample

/-- Whatever the object: `x.set_h(b)` with a flag `b` computed from a reference to the string member `i`. -/
example (x : outer.Obj) (hx : outer.Reach x) (part : StrObj → Res Bool) :
    Member.setFromMember (fs := fields) Sample.oneof memberH Sample.memberI part x = .ub :=
  C66_oneof_never Sample.oneof memberH Sample.memberI part x outer_wf hx (by decide)

/-- The same with a copy: `h` is set. -/
example : (do
    let y ← Sample.memberI.call (fs := fields) Sample.oneof pure outer.cls.init
    let z ← Member.setFromCopy (fs := fields) Sample.oneof memberH Sample.memberI (fun s => .ok (s.len == 0)) y
    memberH.get (fs := fields) Sample.oneof z : Res _) = .ok true := rfl

end

/-- **C66** is false. -/
theorem C66_false : ¬ C66_Statement := by
  intro hall
  have e : Sample.memberI.call (fs := Sample.fields) Sample.oneof pure Sample.outer.cls.init = .ok _ := rfl
  have hr : Sample.outer.Reach _ :=
    .step (fun _ h => h) (Call.sound (.member Sample.oneof Sample.memberI pure) (Or.inl rfl)) .init e
  have h1 := hall.2.2 Sample.fields Sample.oneofs _ 8 9 _ _ Sample.oneof memberH Sample.memberI
    (fun s => .ok (s.len == 0)) _ Sample.outer_wf hr (by decide)
  rw [C66_oneof_never Sample.oneof memberH Sample.memberI _ _ Sample.outer_wf hr (by decide)] at h1
  exact nomatch h1

/-- A list of three numbers, with room for four. -/
def aliasList : RepObj (ElemTy.scalar .uint32).cls.State := ⟨3, [7#32, 8#32, 9#32, 0#32]⟩

/-- Adding, setting and moving elements of the list itself. -/
example : aliasList.addOwn (ElemTy.scalar .uint32).selfAssign 4 1 = .ok (.noErrors, ⟨4, [7#32, 8#32, 9#32, 8#32]⟩) ∧
    aliasList.setAtOwn (ElemTy.scalar .uint32).selfAssign 4 0 2 = .ok ⟨3, [9#32, 8#32, 9#32, 0#32]⟩ ∧
    aliasList.setDataOwn (ElemTy.scalar .uint32).selfAssign 4 1 2 = .ok (.noErrors, ⟨2, [8#32, 9#32, 9#32, 0#32]⟩) :=
  ⟨rfl, rfl, rfl⟩

/-- The string `abcdef`: taking its last two characters is fine, dropping the first one is not. -/
example : StrObj.setOwn 8 ⟨6, [0x61, 0x62, 0x63, 0x64, 0x65, 0x66, 0, 0]⟩ 4 2 =
      .ok (.noErrors, ⟨2, [0x65, 0x66, 0x63, 0x64, 0x65, 0x66, 0, 0]⟩) ∧
    StrObj.setOwn 8 ⟨6, [0x61, 0x62, 0x63, 0x64, 0x65, 0x66, 0, 0]⟩ 1 5 = .ub ∧
    StrObj.setCStrOwn 8 ⟨6, [0x61, 0x62, 0x63, 0x64, 0x65, 0x66, 0, 0]⟩ 4 =
      .ok ⟨2, [0x65, 0x66, 0, 0x64, 0x65, 0x66, 0, 0]⟩ := ⟨rfl, rfl, rfl⟩

/-- The sample object can be assigned to itself only while its strings are empty. -/
example : Sample.outer.selfAssign Sample.outer.cls.init = .ok Sample.outer.cls.init :=
  C65_no_text_partial Sample.outer _ Sample.outer_wf .init rfl

example : many.hasStr = false := by decide +kernel

end EP
