import Verif.Spec.Bounded
import Verif.Proof.Reach

/-! # Repeated fields as bounded lists -/

namespace EP
open Spec

section
variable {E : FieldClass} {V : Type} {S : ClassSpec E V} {d : V} {cap : Nat}

theorem grow_length {V : Type} (d : V) (l : List V) (k : Nat) : (grow d l k).length = max l.length (k + 1) := by
  simp [grow]; omega

theorem setGrow_length {V : Type} (d : V) (l : List V) (k : Nat) (v : V) :
    (setGrow d l k v).length = max l.length (k + 1) := by
  rw [setGrow, List.length_set, grow_length]

theorem take_grow {α V : Type} (f : α → V) (d : V) (data : List α) (n k : Nat) (hk : k < data.length)
    (hn : n ≤ data.length) (hd : ∀ j (_ : j < data.length), n ≤ j → j ≤ k → f data[j] = d) :
    (data.take (max n (k + 1))).map f = grow d ((data.take n).map f) k := by
  unfold grow
  apply List.ext_getElem
  · simp only [List.length_map, List.length_take, List.length_append, List.length_replicate]
    omega
  · intro j hj hj'
    simp only [List.length_map, List.length_take] at hj
    simp only [List.getElem_map, List.getElem_take]
    by_cases hjl : j < n
    · rw [List.getElem_append_left (by simp; omega)]
      simp
    · rw [List.getElem_append_right (by simp; omega), List.getElem_replicate]
      exact hd j (by omega) (by omega) (by omega)

theorem take_set_grow {α V : Type} (f : α → V) (d : V) (data : List α) (n k : Nat) (z : α) (hk : k < data.length)
    (hn : n ≤ data.length) (hd : ∀ j (_ : j < data.length), n ≤ j → j < k → f data[j] = d) :
    ((data.set k z).take (max n (k + 1))).map f = setGrow d ((data.take n).map f) k (f z) := by
  unfold setGrow grow
  apply List.ext_getElem
  · simp only [List.length_map, List.length_take, List.length_set, List.length_append, List.length_replicate]
    omega
  · intro j hj hj'
    simp only [List.length_map, List.length_take, List.length_set] at hj
    simp only [List.getElem_map, List.getElem_take, List.getElem_set]
    by_cases hkj : k = j
    · simp [hkj]
    · rw [if_neg hkj, if_neg hkj]
      by_cases hjl : j < n
      · rw [List.getElem_append_left (by simp; omega)]
        simp
      · rw [List.getElem_append_right (by simp; omega), List.getElem_replicate]
        exact hd j (by omega) (by omega) (by omega)

/-- The elements at and above `peak` have never been used since the last `clear`. -/
def RepObj.Fresh (S : ClassSpec E V) (d : V) (x : RepObj E.State) (peak : Nat) : Prop :=
  x.len ≤ peak ∧ ∀ y ∈ x.data.drop peak, S.abs y = d

theorem RepObj.limit_val (h0 : 0 < cap) (hc : cap < 2147483648) (i : Nat) :
    RepObj.limit cap i = min i (cap - 1) := by
  rw [RepObj.limit, u32sub_of_le (by omega) (by omega)]

theorem abs_length {x : RepObj E.State} (hx : (repSpec S cap).Inv x) : ((repSpec S cap).abs x).length = x.len := by
  show (x.elems.map S.abs).length = x.len
  rw [List.length_map, x.elems_length hx.1 hx.2.1]

theorem rep_add_eq (hb : BaseLaw E S d) (hc : cap < 2147483648) {x : RepObj E.State} {v : E.State}
    (hx : (repSpec S cap).Inv x) (hv : S.Inv v) :
    (x.len < cap → ∃ z, x.add cap v = .ok (.noErrors, ⟨x.len + 1, x.data.set x.len z⟩) ∧ S.Inv z ∧
      S.abs z = S.abs v) ∧
    (cap ≤ x.len → x.add cap v = .ok (.arrayFull, x)) := by
  obtain ⟨h1, h2, h3⟩ := id hx
  unfold RepObj.add
  constructor
  · intro hl
    have hl' : x.len < x.data.length := by omega
    obtain ⟨z, e1, e2, e3, _⟩ := (hb.assign x.data[x.len] v (h3 _ (List.getElem_mem hl')) hv).exists
    refine ⟨z, ?_, e2, e3⟩
    rw [if_pos hl, arrayGet_of_lt hl', Res.ok_bind, e1, Res.ok_bind, arraySet_of_lt hl', Res.ok_bind,
      u32_of_lt (by omega)]
    rfl
  · intro hl
    rw [if_neg (by omega)]
    rfl

/-- Writing element `k` of the array: the new list, when the elements between are default. -/
theorem set_data {x : RepObj E.State} {z : E.State} {k : Nat} (hx : (repSpec S cap).Inv x) (hk : k < cap)
    (hz : S.Inv z) :
    (repSpec S cap).Inv ⟨max x.len (k + 1), x.data.set k z⟩ ∧
    ((∀ j (hj : j < x.data.length), x.len ≤ j → j < k → S.abs x.data[j] = d) →
      (repSpec S cap).abs ⟨max x.len (k + 1), x.data.set k z⟩ =
        setGrow d ((repSpec S cap).abs x) k (S.abs z)) := by
  obtain ⟨h1, h2, h3⟩ := id hx
  refine ⟨⟨by simpa using h1, by dsimp only; omega, ?_⟩, fun hd => ?_⟩
  · intro y hy
    rcases List.mem_or_eq_of_mem_set hy with hy | rfl
    · exact h3 y hy
    · exact hz
  · exact take_set_grow S.abs d x.data x.len k z (by omega) (by omega) hd

theorem modifyAt_eq (h0 : 0 < cap) (hc : cap < 2147483648) {x : RepObj E.State} (hx : (repSpec S cap).Inv x)
    (i : Nat) (g : E.State → Res E.State) :
    ∃ h : min i (cap - 1) < x.data.length,
      x.modifyAt cap i g = (g x.data[min i (cap - 1)] >>= fun z =>
        .ok ⟨max x.len (min i (cap - 1) + 1), x.data.set (min i (cap - 1)) z⟩) := by
  obtain ⟨h1, h2, h3⟩ := id hx
  have hl : min i (cap - 1) < x.data.length := by omega
  refine ⟨hl, ?_⟩
  have hlen : (if min i (cap - 1) ≥ x.len then u32 (min i (cap - 1) + 1) else x.len) =
      max x.len (min i (cap - 1) + 1) := by
    split
    · rw [u32_of_lt (by omega)]; omega
    · omega
  simp only [RepObj.modifyAt, RepObj.grow, RepObj.limit_val h0 hc]
  rw [arrayGet_of_lt hl, Res.ok_bind]
  cases g x.data[min i (cap - 1)] with
  | ub => rfl
  | diverge => rfl
  | ok z =>
    rw [Res.ok_bind, arraySet_of_lt hl, hlen]
    rfl

end

/-! ## Calls -/

/-- A call on a repeated field, except for changes through the reference `get(i)` and decoding. -/
inductive RepCall (t : ElemTy) where
  | add (v : t.cls.State)
  | set (i : Nat) (v : t.cls.State)
  | setData (vs : List t.cls.State)
  /-- `get(i)` or `operator[](i)` on an object that is not `const` -/
  | touch (i : Nat)
  | clear
  | assign (y : RepObj t.cls.State)

namespace RepCall
variable {t : ElemTy}

/-- What the call does; calls that return nothing are taken to return `NO_ERRORS`. -/
def run (cap : Nat) : RepCall t → RepObj t.cls.State → Res (Error × RepObj t.cls.State)
  | .add v, x => x.add cap v
  | .set i v, x => x.setAt cap i v >>= fun y => pure (.noErrors, y)
  | .setData vs, x => x.setData cap vs
  | .touch i, x => x.modifyAt cap i pure >>= fun y => pure (.noErrors, y)
  | .clear, x => x.clear >>= fun y => pure (.noErrors, y)
  | .assign y, x => x.assign y >>= fun z => pure (.noErrors, z)

def runAll (cap : Nat) : List (RepCall t) → RepObj t.cls.State → Res (List Error × RepObj t.cls.State)
  | [], x => pure ([], x)
  | c :: cs, x => do
    let (e, x) ← c.run cap x
    let (es, x) ← runAll cap cs x
    pure (e :: es, x)

/-- Arguments are objects a program can have, and no index is given for a field of maximum length 0. -/
def Legal (cap : Nat) : RepCall t → Prop
  | .add v => t.Reach v
  | .set _ v => 0 < cap ∧ t.Reach v
  | .setData vs => ∀ v ∈ vs, t.Reach v
  | .touch _ => 0 < cap
  | .clear => True
  | .assign y => t.RepReach cap y

/-- What the call means for the list of values. -/
def op (cap : Nat) : RepCall t → ListOp t.Val
  | .add v => .add (t.abs v)
  | .set i v => .set i (t.abs v)
  | .setData vs => .replace (vs.map t.abs)
  | .touch i => .touch i
  | .clear => .clear
  | .assign y => .replace ((repSpec t.spec cap).abs y)

end RepCall

section
variable {t : ElemTy} {cap : Nat}

theorem ElemTy.rep_api_law (h : t.WF) (hc : cap < 2147483648) :
    ApiLaw (repSpec t.spec cap).Inv (t.RepApi cap) := by
  intro R f hR hf
  have hbase := ElemTy.base t h
  have ha := ElemTy.api_law t h
  have hs := ElemTy.rep_safe t cap hc h
  rcases hf with hf | hf
  · exact commonApi_law (rep_base hbase) hs (rep_des hs) R f hR hf
  · exact repApi_law hbase hc (fun z hz => ReachGen.keeps ha hbase.init_inv hz) ha hf

/-- An overwritten list: what is above the old peak is as fresh as it was. -/
theorem fresh_overwrite {x : RepObj t.cls.State} {peak n : Nat} {data : List t.cls.State}
    (hf : x.Fresh t.spec t.dflt peak) (hd : data.drop n = x.data.drop n) :
    RepObj.Fresh t.spec t.dflt ⟨n, data⟩ (max peak n) := by
  refine ⟨by dsimp only; omega, fun y hy => hf.2 y ?_⟩
  have e : data.drop (max peak n) = x.data.drop (max peak n) := by
    have := congrArg (List.drop (max peak n - n)) hd
    rwa [List.drop_drop, List.drop_drop, show n + (max peak n - n) = max peak n by omega] at this
  dsimp only at hy
  rw [e, show max peak n = peak + (max peak n - peak) by omega, ← List.drop_drop] at hy
  exact List.mem_of_mem_drop hy

theorem fresh_set {x : RepObj t.cls.State} {peak k : Nat} {z : t.cls.State}
    (hf : x.Fresh t.spec t.dflt peak) :
    RepObj.Fresh t.spec t.dflt ⟨max x.len (k + 1), x.data.set k z⟩ (max peak (max x.len (k + 1))) := by
  refine ⟨by dsimp only; omega, fun y hy => hf.2 y ?_⟩
  dsimp only at hy
  rw [List.drop_set_of_lt (by omega),
    show max peak (max x.len (k + 1)) = peak + (max peak (max x.len (k + 1)) - peak) by omega,
    ← List.drop_drop] at hy
  exact List.mem_of_mem_drop hy

/-- One call: result and new contents, and an object that is left exactly as it was when the result is an
error. -/
theorem RepCall.run_spec (h : t.WF) (hc : cap < 2147483648) {x : RepObj t.cls.State} {peak : Nat}
    (c : RepCall t) (hl : c.Legal cap) (hx : (repSpec t.spec cap).Inv x) (hf : x.Fresh t.spec t.dflt peak)
    (ht : (c.op cap).Tame cap ((repSpec t.spec cap).abs x) peak) :
    ∃ y, c.run cap x = .ok (((c.op cap).run cap t.dflt ((repSpec t.spec cap).abs x)).1, y) ∧
      (repSpec t.spec cap).Inv y ∧
      (repSpec t.spec cap).abs y = ((c.op cap).run cap t.dflt ((repSpec t.spec cap).abs x)).2 ∧
      y.Fresh t.spec t.dflt ((c.op cap).peak cap peak
        (List.length (α := t.Val) ((c.op cap).run cap t.dflt ((repSpec t.spec cap).abs x)).2)) ∧
      (((c.op cap).run cap t.dflt ((repSpec t.spec cap).abs x)).1 ≠ .noErrors → y = x) := by
  have hb := ElemTy.base t h
  have hal := abs_length hx
  obtain ⟨h1, h2, h3⟩ := id hx
  have hreach : ∀ {v : t.cls.State}, t.Reach v → t.spec.Inv v := fun hv => ElemTy.reach_inv t h hv
  cases c with
  | add v =>
    obtain ⟨a1, a2⟩ := rep_add_eq (cap := cap) hb hc hx (hreach hl)
    simp only [RepCall.op, ListOp.run, ListOp.peak, RepCall.run]
    rw [hal]
    by_cases hlt : x.len < cap
    · obtain ⟨z, e1, e2, e3⟩ := a1 hlt
      rw [if_pos hlt]
      obtain ⟨s1, s2⟩ := set_data (d := t.dflt) (cap := cap) hx hlt e2
      have s2 := s2 (fun j _ _ _ => by omega)
      have hm : max x.len (x.len + 1) = x.len + 1 := by omega
      have hfs := fresh_set (k := x.len) (z := z) hf
      rw [hm] at s1 s2 hfs
      refine ⟨_, e1, s1, ?_, ?_, fun hh => absurd rfl hh⟩
      · rw [s2, e3]
        unfold setGrow grow
        rw [hal, show x.len + 1 - x.len = 1 by omega, List.replicate_one, List.set_append_right _ _ (by omega), hal,
          Nat.sub_self]
        rfl
      · dsimp only
        rw [List.length_append, hal]
        exact hfs
    · rw [if_neg hlt]
      refine ⟨x, a2 (by omega), hx, rfl, ?_, fun _ => rfl⟩
      dsimp only
      rw [hal, Nat.max_eq_left hf.1]
      exact hf
  | set i v =>
    obtain ⟨h0, hl⟩ := hl
    obtain ⟨hk, e⟩ := modifyAt_eq h0 hc hx i (fun old => t.cls.assign old v)
    obtain ⟨z, e1, e2, e3, _⟩ := (hb.assign _ v (h3 _ (List.getElem_mem hk)) (hreach hl)).exists
    have hk' : min i (cap - 1) < cap := by omega
    obtain ⟨s1, s2⟩ := set_data (d := t.dflt) hx hk' e2
    have s2 := s2 (fun j hj hj1 hj2 => by
      rcases ht with ht | ht
      · rw [hal] at ht; omega
      · rw [hal] at ht
        refine hf.2 _ ?_
        rw [List.mem_iff_getElem]
        refine ⟨j - peak, by rw [List.length_drop]; omega, ?_⟩
        rw [List.getElem_drop]
        congr 1
        omega)
    refine ⟨⟨max x.len (min i (cap - 1) + 1), x.data.set (min i (cap - 1)) z⟩, ?_, s1, ?_, ?_, fun hh => absurd rfl hh⟩
    · simp only [RepCall.run, RepObj.setAt, RepCall.op, ListOp.run]
      rw [e, e1]
      rfl
    · rw [s2, e3]; rfl
    · simp only [RepCall.op, ListOp.run, ListOp.peak]
      rw [setGrow_length, hal]
      exact fresh_set hf
  | setData vs =>
    simp only [RepCall.op, ListOp.run, ListOp.peak, RepCall.run, RepObj.setData, List.length_map]
    by_cases hv : vs.length ≤ cap
    · obtain ⟨data, e1, e2, e3, e4, _⟩ := (rep_overwrite hb x vs hx (fun r hr => hreach (hl r hr)) hv).exists
      rw [if_pos hv, if_pos hv, e1]
      refine ⟨⟨vs.length, data⟩, rfl, e2, e3, ?_, fun hh => absurd rfl hh⟩
      dsimp only
      rw [List.length_map]
      exact fresh_overwrite hf e4
    · rw [if_neg hv, if_neg hv]
      refine ⟨x, rfl, hx, rfl, ?_, fun _ => rfl⟩
      dsimp only
      rw [hal, Nat.max_eq_left hf.1]
      exact hf
  | touch i =>
    have h0 : 0 < cap := hl
    obtain ⟨hk, e⟩ := modifyAt_eq h0 hc hx i (pure : t.cls.State → Res t.cls.State)
    have hk' : min i (cap - 1) < cap := by omega
    have hset : x.data.set (min i (cap - 1)) x.data[min i (cap - 1)] = x.data := List.set_getElem_self hk
    obtain ⟨s1, _⟩ := set_data (d := t.dflt) hx hk' (h3 _ (List.getElem_mem hk))
    have hfs := fresh_set (k := min i (cap - 1)) (z := x.data[min i (cap - 1)]) hf
    rw [hset] at s1 hfs
    refine ⟨⟨max x.len (min i (cap - 1) + 1), x.data⟩, ?_, s1, ?_, ?_, fun hh => absurd rfl hh⟩
    · simp only [RepCall.run, RepCall.op, ListOp.run]
      rw [e, Res.pure_eq, Res.ok_bind, Res.ok_bind, hset]
      rfl
    · refine take_grow t.spec.abs t.dflt x.data x.len (min i (cap - 1)) hk (by omega) (fun j hj hj1 hj2 => ?_)
      rcases ht with ht | ht
      · rw [hal] at ht; omega
      · rw [hal] at ht
        refine hf.2 _ ?_
        rw [List.mem_iff_getElem]
        refine ⟨j - peak, by rw [List.length_drop]; omega, ?_⟩
        rw [List.getElem_drop]
        congr 1
        omega
    · simp only [RepCall.op, ListOp.run, ListOp.peak]
      rw [grow_length, hal]
      exact hfs
  | clear =>
    have e := (rep_base (cap := cap) hb).clear x hx
    refine ⟨(repeatedClass t.cls cap).init, ?_, (rep_base (cap := cap) hb).init_inv, (rep_base (cap := cap) hb).init_abs, ?_,
      fun hh => absurd rfl hh⟩
    · have e : x.clear = .ok (RepObj.init t.cls cap) := e
      simp only [RepCall.run, e]
      rfl
    · refine ⟨Nat.le_refl _, fun y hy => ?_⟩
      have : y = t.cls.init := List.eq_of_mem_replicate (List.mem_of_mem_drop hy)
      rw [this]
      exact hb.init_abs
  | assign r =>
    have hr : (repSpec t.spec cap).Inv r :=
      ReachGen.keeps (ElemTy.rep_api_law h hc) (rep_base (cap := cap) hb).init_inv hl
    have hrl := abs_length hr
    obtain ⟨r1, r2, r3⟩ := id hr
    have htl : (r.data.take r.len).length = r.len := by rw [List.length_take]; omega
    obtain ⟨data, e1, e2, e3, e4, _⟩ := (rep_overwrite hb x (r.data.take r.len) hx
      (fun y hy => r3 y (List.mem_of_mem_take hy)) (by omega)).exists
    rw [htl] at e2 e3 e4
    simp only [RepCall.op, ListOp.run, ListOp.peak, RepCall.run, RepObj.assign]
    rw [hrl, if_pos r2, if_pos (by omega), e1]
    refine ⟨⟨r.len, data⟩, rfl, e2, e3, ?_, fun hh => absurd rfl hh⟩
    dsimp only
    rw [hrl]
    exact fresh_overwrite hf e4

theorem RepCall.runAll_spec (h : t.WF) (hc : cap < 2147483648) :
    (cs : List (RepCall t)) → (x : RepObj t.cls.State) → (peak : Nat) → (∀ c ∈ cs, c.Legal cap) →
    (repSpec t.spec cap).Inv x → x.Fresh t.spec t.dflt peak →
    ListOp.AllTame cap t.dflt (cs.map (RepCall.op cap)) ((repSpec t.spec cap).abs x) peak →
    ∃ y, RepCall.runAll cap cs x =
        .ok ((ListOp.runAll cap t.dflt (cs.map (RepCall.op cap)) ((repSpec t.spec cap).abs x)).1, y) ∧
      (repSpec t.spec cap).abs y =
        (ListOp.runAll cap t.dflt (cs.map (RepCall.op cap)) ((repSpec t.spec cap).abs x)).2
  | [], x, _, _, _, _, _ => ⟨x, rfl, rfl⟩
  | c :: cs, x, peak, hl, hx, hf, ht => by
    obtain ⟨y, e1, e2, e3, e4, _⟩ := RepCall.run_spec h hc c (hl c (List.mem_cons_self ..)) hx hf ht.1
    obtain ⟨z, f1, f2⟩ := RepCall.runAll_spec h hc cs y _ (fun c hc => hl c (List.mem_cons_of_mem _ hc)) e2 e4
      (by rw [e3]; exact ht.2)
    refine ⟨z, ?_, ?_⟩
    · rw [e3] at f1
      rw [RepCall.runAll, e1, Res.ok_bind]
      dsimp only
      rw [f1]
      rfl
    · rw [f2, e3]
      rfl

end

/-! ## Strings -/

/-- A call on a string or bytes field of maximum length `cap`, except decoding. -/
inductive StrCall where
  | setData (bs : List Byte)
  /-- `set(rhs)`, or `operator=` of a field with another maximum length -/
  | setFrom (rhs : StrObj)
  /-- copy assignment of a field with the same maximum length -/
  | assign (rhs : StrObj)
  /-- `set(const char*)` -/
  | setCStr (s : List Byte)
  | set (i : Nat) (v : Byte)
  /-- `get(i)` or `operator[](i)` on an object that is not `const` -/
  | touch (i : Nat)
  | clear

namespace StrCall

def run (cap : Nat) : StrCall → StrObj → Res (Error × StrObj)
  | .setData bs, x => x.setData cap bs
  | .setFrom y, x => x.setFrom cap y
  | .assign y, x => (strClass cap).assign x y >>= fun y => pure (.noErrors, y)
  | .setCStr s, x => x.setCStr cap s >>= fun y => pure (.noErrors, y)
  | .set i v, x => x.setAt cap i v >>= fun y => pure (.noErrors, y)
  | .touch i, x => x.getAt cap i >>= fun y => pure (.noErrors, y.2)
  | .clear, x => pure (.noErrors, x.clear cap)

def runAll (cap : Nat) : List StrCall → StrObj → Res (List Error × StrObj)
  | [], x => pure ([], x)
  | c :: cs, x => do
    let (e, x) ← c.run cap x
    let (es, x) ← runAll cap cs x
    pure (e :: es, x)

/-- Arguments are objects a program can have; C strings contain no NUL before their end. -/
def Legal (cap : Nat) : StrCall → Prop
  | .setFrom y => ∃ cap', 0 < cap' ∧ cap' < 2147483648 ∧ (ElemTy.str cap').Reach y
  | .assign y => (ElemTy.str cap).Reach y
  | .setCStr s => 0 ∉ s
  | _ => True

def op : StrCall → ListOp Byte
  | .setData bs => .replace bs
  | .setFrom y => .replace y.chars
  | .assign y => .copy y.chars
  | .setCStr s => .truncate s
  | .set i v => .set i v
  | .touch i => .touch i
  | .clear => .clear

end StrCall

/-- The bytes at and above `peak` have not been used since the last `clear`. -/
def StrObj.Fresh (x : StrObj) (peak : Nat) : Prop := x.len ≤ peak ∧ ∀ b ∈ x.data.drop peak, b = 0

section
variable {cap : Nat}

theorem fresh_data {data data' : List Byte} {n peak : Nat} (hf : ∀ b ∈ data.drop peak, b = (0 : Byte))
    (hd : data'.drop n = data.drop n) : ∀ b ∈ data'.drop (max peak n), b = (0 : Byte) := by
  intro b hb
  have e : data'.drop (max peak n) = data.drop (max peak n) := by
    have := congrArg (List.drop (max peak n - n)) hd
    rwa [List.drop_drop, List.drop_drop, show n + (max peak n - n) = max peak n by omega] at this
  rw [e, show max peak n = peak + (max peak n - peak) by omega, ← List.drop_drop] at hb
  exact hf b (List.mem_of_mem_drop hb)

theorem fresh_getElem {data : List Byte} {peak j : Nat} (hf : ∀ b ∈ data.drop peak, b = (0 : Byte))
    (hj : j < data.length) (hp : peak ≤ j) : data[j] = 0 := by
  refine hf _ ?_
  rw [List.mem_iff_getElem]
  refine ⟨j - peak, by rw [List.length_drop]; omega, ?_⟩
  rw [List.getElem_drop]
  congr 1
  omega

theorem StrObj.Fresh.overwrite {x : StrObj} {peak : Nat} (hf : x.Fresh peak) (bs : List Byte) :
    StrObj.Fresh ⟨bs.length, bs ++ x.data.drop bs.length⟩ (max peak bs.length) :=
  ⟨by dsimp only; omega, fresh_data hf.2 (by simp)⟩

theorem StrObj.setData_run (x : StrObj) (bs : List Byte) (hx : x.WF cap) {peak : Nat} (hf : x.Fresh peak) :
    ∃ y, x.setData cap bs = .ok (((ListOp.replace bs).run cap 0 x.chars).1, y) ∧ y.WF cap ∧
      y.chars = ((ListOp.replace bs).run cap 0 x.chars).2 ∧
      y.Fresh ((ListOp.replace bs).peak cap peak ((ListOp.replace bs).run cap 0 x.chars).2.length) ∧
      (((ListOp.replace bs).run cap 0 x.chars).1 ≠ .noErrors → y = x) := by
  simp only [ListOp.run, ListOp.peak]
  by_cases hb : bs.length ≤ cap
  · rw [StrObj.setData_eq cap x bs hx hb, if_pos hb]
    refine ⟨_, rfl, ⟨?_, hb⟩, by simp [StrObj.chars], hf.overwrite bs, fun hh => absurd rfl hh⟩
    have := hx.1
    simp; omega
  · rw [if_neg hb]
    refine ⟨x, ?_, hx, rfl, ?_, fun _ => rfl⟩
    · simp only [StrObj.setData]; rw [if_neg hb]; rfl
    · dsimp only
      rw [hx.chars_length, Nat.max_eq_left hf.1]
      exact hf

theorem StrCall.run_spec (h0 : 0 < cap) (hc : cap < 2147483648) {x : StrObj} {peak : Nat}
    (c : StrCall) (hl : c.Legal cap) (hx : x.WF cap) (hf : x.Fresh peak) (ht : c.op.Tame cap x.chars peak) :
    ∃ y, c.run cap x = .ok ((c.op.run cap 0 x.chars).1, y) ∧ y.WF cap ∧
      y.chars = (c.op.run cap 0 x.chars).2 ∧
      y.Fresh (c.op.peak cap peak (c.op.run cap 0 x.chars).2.length) ∧
      ((c.op.run cap 0 x.chars).1 ≠ .noErrors → y = x) := by
  have hal := hx.chars_length
  obtain ⟨h1, h2⟩ := id hx
  have hlim : ∀ i, min i (u32sub cap 1) = min i (cap - 1) := fun i => by
    rw [u32sub_of_le (by omega) (by omega)]
  have hlen : ∀ i, (if min i (cap - 1) ≥ x.len then u32 (min i (cap - 1) + 1) else x.len) =
      max x.len (min i (cap - 1) + 1) := fun i => by
    split
    · rw [u32_of_lt (by omega)]; omega
    · omega
  cases c with
  | setData bs => exact StrObj.setData_run x bs hx hf
  | setFrom r =>
    obtain ⟨cap', c0, c1, hr⟩ := hl
    have hr : r.WF cap' := ElemTy.reach_inv (.str cap') ⟨c0, c1⟩ hr
    have := StrObj.setData_run x r.chars hx hf
    simp only [StrCall.run, StrObj.setFrom]
    rw [if_pos (by rw [hr.1]; exact hr.2)]
    exact this
  | assign r =>
    have hr : r.WF cap := ElemTy.reach_inv (.str cap) ⟨h0, hc⟩ hl
    refine ⟨r, rfl, hr, rfl, ⟨hr.2, ?_⟩, fun hh => absurd rfl hh⟩
    intro b hb
    have : r.data.drop cap = [] := List.drop_eq_nil_of_le (Nat.le_of_eq hr.1)
    exact absurd (this ▸ hb : b ∈ []) (List.not_mem_nil)
  | setCStr s =>
    simp only [StrCall.run, StrObj.setCStr_eq cap x s hx hc, StrCall.op, ListOp.run, ListOp.peak]
    have hdl : ((s ++ [0]).take cap).length = min (s.length + 1) cap := by simp; omega
    refine ⟨_, rfl, ⟨by simp; omega, by dsimp only; omega⟩, ?_, ⟨by dsimp only; simp; omega, ?_⟩, fun hh => absurd rfl hh⟩
    · simp only [StrObj.chars]
      rw [List.take_append_of_le_length (by rw [hdl]; omega), List.take_take,
        List.take_append_of_le_length (by omega)]
      by_cases hs : s.length ≤ cap
      · rw [show min (min s.length cap) cap = s.length by omega, List.take_length, List.take_of_length_le hs]
      · rw [show min (min s.length cap) cap = cap by omega]
    · dsimp only
      rw [List.length_take, Nat.min_comm cap s.length]
      intro b hb
      obtain ⟨j, hj, rfl⟩ := List.mem_iff_getElem.mp hb
      rw [List.getElem_drop]
      rw [List.length_drop, List.length_append, hdl, List.length_drop, h1] at hj
      by_cases hlt : max peak (min s.length cap) + j < min (s.length + 1) cap
      · rw [List.getElem_append_left (by rw [hdl]; omega)]
        rw [List.getElem_take, List.getElem_append_right (by omega)]
        simp
      · rw [List.getElem_append_right (by rw [hdl]; omega), List.getElem_drop]
        exact fresh_getElem hf.2 _ (by rw [hdl]; omega)
  | set i v =>
    simp only [StrCall.run, StrObj.setAt, StrCall.op, ListOp.run, ListOp.peak, hlim, hlen]
    have hk : min i (cap - 1) < x.data.length := by omega
    rw [arraySet_of_lt hk]
    refine ⟨⟨max x.len (min i (cap - 1) + 1), x.data.set (min i (cap - 1)) v⟩, rfl, ⟨by simpa using h1, by dsimp only; omega⟩, ?_, ⟨?_, ?_⟩, fun hh => absurd rfl hh⟩
    · have := take_set_grow id (0 : Byte) x.data x.len (min i (cap - 1)) v hk (by omega) (fun j hj hj1 hj2 => by
        rcases ht with ht | ht
        · rw [hal] at ht; omega
        · rw [hal] at ht
          exact fresh_getElem hf.2 hj (by omega))
      rw [List.map_id, List.map_id] at this
      exact this
    · dsimp only
      rw [setGrow_length, hal]; omega
    · dsimp only
      rw [setGrow_length, hal]
      refine fresh_data hf.2 ?_
      rw [List.drop_set_of_lt (by omega)]
  | touch i =>
    simp only [StrCall.run, StrObj.getAt, StrCall.op, ListOp.run, ListOp.peak, hlim, hlen]
    have hk : min i (cap - 1) < x.data.length := by omega
    rw [arrayGet_of_lt hk]
    refine ⟨⟨max x.len (min i (cap - 1) + 1), x.data⟩, rfl, ⟨h1, by dsimp only; omega⟩, ?_, ⟨?_, ?_⟩, fun hh => absurd rfl hh⟩
    · have := take_grow id (0 : Byte) x.data x.len (min i (cap - 1)) hk (by omega) (fun j hj hj1 hj2 => by
        rcases ht with ht | ht
        · rw [hal] at ht; omega
        · rw [hal] at ht
          exact fresh_getElem hf.2 hj (by omega))
      rw [List.map_id, List.map_id] at this
      exact this
    · dsimp only
      rw [grow_length, hal]; omega
    · dsimp only
      rw [grow_length, hal]
      exact fresh_data hf.2 rfl
  | clear =>
    refine ⟨x.clear cap, rfl, ⟨by simp [StrObj.clear], by simp [StrObj.clear]⟩, by simp [StrObj.clear, StrObj.chars, StrCall.op, ListOp.run], ?_,
      fun hh => absurd rfl hh⟩
    exact ⟨Nat.le_refl _, fun b hb => List.eq_of_mem_replicate (List.mem_of_mem_drop hb)⟩

/-- The peak after a list of operations. -/
def _root_.EP.Spec.ListOp.peakAll {V : Type} (cap : Nat) (d : V) : List (ListOp V) → List V → Nat → Nat
  | [], _, p => p
  | o :: os, l, p => peakAll cap d os (o.run cap d l).2 (o.peak cap p (o.run cap d l).2.length)

theorem StrCall.runAll_spec (h0 : 0 < cap) (hc : cap < 2147483648) :
    (cs : List StrCall) → (x : StrObj) → (peak : Nat) → (∀ c ∈ cs, c.Legal cap) → x.WF cap → x.Fresh peak →
    ListOp.AllTame cap 0 (cs.map StrCall.op) x.chars peak →
    ∃ y, StrCall.runAll cap cs x = .ok ((ListOp.runAll cap 0 (cs.map StrCall.op) x.chars).1, y) ∧ y.WF cap ∧
      y.chars = (ListOp.runAll cap 0 (cs.map StrCall.op) x.chars).2 ∧
      y.Fresh (ListOp.peakAll cap 0 (cs.map StrCall.op) x.chars peak)
  | [], x, _, _, hx, hf, _ => ⟨x, rfl, hx, rfl, hf⟩
  | c :: cs, x, peak, hl, hx, hf, ht => by
    obtain ⟨y, e1, e2, e3, e4, _⟩ := StrCall.run_spec h0 hc c (hl c (List.mem_cons_self ..)) hx hf ht.1
    obtain ⟨z, f1, f2, f3, f4⟩ := StrCall.runAll_spec h0 hc cs y _ (fun c hc => hl c (List.mem_cons_of_mem _ hc)) e2 e4
      (by rw [e3]; exact ht.2)
    rw [e3] at f1 f3 f4
    refine ⟨z, ?_, f2, f3, f4⟩
    rw [StrCall.runAll, e1, Res.ok_bind]
    dsimp only
    rw [f1]
    rfl

end
end EP
