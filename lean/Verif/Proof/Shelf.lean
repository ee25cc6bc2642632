import Verif.Spec.Shelf
import Verif.Proof.Bounded

/-!
# Repeated fields and strings are shelves
-/

namespace EP
open Spec

namespace Spec
variable {V : Type} {cap : Nat} {d : V}

/-- Not more is shown than there is, in `cap` cells. -/
def Shelf.Ok (cap : Nat) (s : Shelf V) : Prop := s.cells.length = cap ∧ s.len ≤ cap

theorem Shelf.Ok.shown_length {s : Shelf V} (h : s.Ok cap) : s.shown.length = s.len := by
  rw [Shelf.shown, List.length_take, h.1, Nat.min_eq_left h.2]

theorem Shelf.new_ok : (Shelf.new cap d).Ok cap := ⟨List.length_replicate .., Nat.zero_le _⟩

/-- Whether the shelf of a copied object is in order, and there are cells. -/
def ShelfOp.Ok (cap : Nat) : ShelfOp V → Prop
  | .copy s => s.Ok cap
  | .set _ _ => 0 < cap
  | .touch _ => 0 < cap
  | _ => True

theorem ShelfOp.run_ok {o : ShelfOp V} {s : Shelf V} (ho : o.Ok cap) (h : s.Ok cap) : (o.run cap d s).2.Ok cap := by
  obtain ⟨h1, h2⟩ := id h
  cases o with
  | add v =>
    simp only [ShelfOp.run]
    split
    · exact ⟨by rw [List.length_set]; exact h1, by dsimp only; omega⟩
    · exact h
  | set i v =>
    have ho : 0 < cap := ho
    exact ⟨by rw [ShelfOp.run, List.length_set]; exact h1, by simp only [ShelfOp.run]; omega⟩
  | replace vs =>
    simp only [ShelfOp.run]
    split
    · exact ⟨by simp only [List.length_append, List.length_drop]; omega, by assumption⟩
    · exact h
  | truncate vs =>
    refine ⟨?_, by simp only [ShelfOp.run]; omega⟩
    simp only [ShelfOp.run, List.length_append, List.length_take, List.length_drop, List.length_cons, List.length_nil]
    omega
  | copy t => exact ho
  | touch i =>
    have ho : 0 < cap := ho
    exact ⟨h1, by simp only [ShelfOp.run]; omega⟩
  | clear => exact Shelf.new_ok

/-- The error is always that of the list. -/
theorem ShelfOp.run_error {o : ShelfOp V} {s : Shelf V} (h : s.Ok cap) : (o.run cap d s).1 = (o.op.run cap d s.shown).1 := by
  cases o with
  | add v =>
    simp only [ShelfOp.run, ShelfOp.op, ListOp.run, h.shown_length]
    split <;> rfl
  | replace vs =>
    simp only [ShelfOp.run, ShelfOp.op, ListOp.run]
    split <;> rfl
  | _ => rfl

theorem take_set_self {α : Type} (l : List α) (n : Nat) (v : α) (h : n < l.length) :
    (l.set n v).take (n + 1) = l.take n ++ [v] := by
  rw [List.take_succ_eq_append_getElem (by simpa using h), List.take_set_of_le (Nat.le_refl _), List.getElem_set_self]

theorem mem_uncovered {α : Type} {l : List α} {a b : Nat} {v : α} :
    v ∈ (l.take b).drop a ↔ ∃ (j : Nat) (hj : j < l.length), a ≤ j ∧ j < b ∧ l[j] = v := by
  constructor
  · intro hv
    obtain ⟨j, hj, rfl⟩ := List.mem_iff_getElem.mp hv
    have hj' := hj
    simp only [List.length_drop, List.length_take] at hj'
    refine ⟨a + j, by omega, by omega, by omega, ?_⟩
    rw [List.getElem_drop, List.getElem_take]
  · rintro ⟨j, hj, h1, h2, rfl⟩
    refine List.mem_iff_getElem.mpr ⟨j - a, by simp only [List.length_drop, List.length_take]; omega, ?_⟩
    rw [List.getElem_drop, List.getElem_take]
    congr 1
    omega

/-- What is shown afterwards is right if and only if nothing but defaults is uncovered. -/
theorem ShelfOp.right_iff {o : ShelfOp V} {s : Shelf V} (ho : o.Ok cap) (h : s.Ok cap) :
    (o.run cap d s).2.shown = (o.op.run cap d s.shown).2 ↔ o.Clean cap d s := by
  obtain ⟨h1, h2⟩ := id h
  have triv : ∀ {p : Prop} (o : ShelfOp V), p → o.uncovered cap s = [] → (p ↔ o.Clean cap d s) := fun o hp he =>
    ⟨fun _ v hv => by rw [he] at hv; exact absurd hv List.not_mem_nil, fun _ => hp⟩
  cases o with
  | add v =>
    refine triv (.add v) ?_ rfl
    simp only [ShelfOp.run, ShelfOp.op, ListOp.run, h.shown_length]
    split
    · exact take_set_self _ _ _ (by omega)
    · rfl
  | replace vs =>
    refine triv (.replace vs) ?_ rfl
    simp only [ShelfOp.run, ShelfOp.op, ListOp.run]
    split
    · exact List.take_left
    · rfl
  | truncate vs =>
    refine triv (.truncate vs) ?_ rfl
    simp only [ShelfOp.run, ShelfOp.op, ListOp.run, Shelf.shown]
    rw [List.take_append_of_le_length (by simp only [List.length_take, List.length_append, List.length_cons, List.length_nil]; omega),
      List.take_take, List.take_append_of_le_length (by omega)]
    by_cases hs : vs.length ≤ cap
    · rw [show min (min vs.length cap) cap = vs.length by omega, List.take_length, List.take_of_length_le hs]
    · rw [show min (min vs.length cap) cap = cap by omega]
  | copy t => exact triv (.copy t) rfl rfl
  | clear => exact triv .clear rfl rfl
  | set i v =>
    have ho : 0 < cap := ho
    constructor
    · intro he w hw
      obtain ⟨j, hj, j1, j2, rfl⟩ := mem_uncovered.mp hw
      have he : (s.cells.set (min i (cap - 1)) v).take (max s.len (min i (cap - 1) + 1)) =
        setGrow d s.shown (min i (cap - 1)) v := he
      have hx := congrArg (fun l : List V => l[j]?) he
      simp only [setGrow, grow] at hx
      rw [List.getElem?_take_of_lt (by omega), List.getElem?_set_ne (by omega), List.getElem?_set_ne (by omega),
        List.getElem?_append_right (by rw [h.shown_length]; omega), List.getElem?_replicate,
        if_pos (by rw [h.shown_length]; omega), List.getElem?_eq_getElem hj] at hx
      exact Option.some.inj hx
    · intro hcl
      have := take_set_grow (fun x : V => x) d s.cells s.len (min i (cap - 1)) v (by omega) (by omega)
        (fun j hj j1 j2 => hcl _ (mem_uncovered.mpr ⟨j, hj, j1, j2, rfl⟩))
      simp only [List.map_id'] at this
      exact this
  | touch i =>
    have ho : 0 < cap := ho
    constructor
    · intro he w hw
      obtain ⟨j, hj, j1, j2, rfl⟩ := mem_uncovered.mp hw
      have he : s.cells.take (max s.len (min i (cap - 1) + 1)) = grow d s.shown (min i (cap - 1)) := he
      have hx := congrArg (fun l : List V => l[j]?) he
      simp only [grow] at hx
      rw [List.getElem?_take_of_lt (by omega), List.getElem?_append_right (by rw [h.shown_length]; omega),
        List.getElem?_replicate, if_pos (by rw [h.shown_length]; omega), List.getElem?_eq_getElem hj] at hx
      exact Option.some.inj hx
    · intro hcl
      have := take_grow (fun x : V => x) d s.cells s.len (min i (cap - 1)) (by omega) (by omega)
        (fun j hj j1 j2 => hcl _ (mem_uncovered.mpr ⟨j, hj, j1, by omega, rfl⟩))
      simp only [List.map_id'] at this
      exact this

theorem ShelfOp.allRight_iff : (os : List (ShelfOp V)) → (s : Shelf V) → (∀ o ∈ os, o.Ok cap) → s.Ok cap →
    (ShelfOp.AllRight cap d os s ↔ ShelfOp.AllClean cap d os s)
  | [], _, _, _ => Iff.rfl
  | o :: os, _, ho, h => and_congr (ShelfOp.right_iff (ho o (List.mem_cons_self ..)) h)
    (ShelfOp.allRight_iff os _ (fun o hm => ho o (List.mem_cons_of_mem _ hm)) (ShelfOp.run_ok (ho o (List.mem_cons_self ..)) h))

end Spec

section
variable {t : ElemTy} {cap : Nat}

/-- The cells of a repeated field. -/
def RepObj.shelf (x : RepObj t.cls.State) : Shelf t.Val := ⟨x.len, x.data.map t.abs⟩

theorem RepObj.shelf_shown (x : RepObj t.cls.State) : (x.shelf).shown = (repSpec t.spec cap).abs x := by
  show (x.data.map t.abs).take x.len = (x.data.take x.len).map t.abs
  rw [List.map_take]

def RepCall.shelfOp : RepCall t → ShelfOp t.Val
  | .add v => .add (t.abs v)
  | .set i v => .set i (t.abs v)
  | .setData vs => .replace (vs.map t.abs)
  | .touch i => .touch i
  | .clear => .clear
  | .assign y => .replace (y.shelf).shown

theorem RepObj.shelf_ok {x : RepObj t.cls.State} (hx : (repSpec t.spec cap).Inv x) : (x.shelf).Ok cap :=
  ⟨by rw [RepObj.shelf, List.length_map]; exact hx.1, hx.2.1⟩

theorem RepCall.shelfOp_ok {c : RepCall t} (hl : c.Legal cap) : (c.shelfOp).Ok cap := by
  cases c with
  | set i v => exact hl.1
  | touch i => exact hl
  | _ => trivial

theorem shelf_overwrite {x : RepObj t.cls.State} {data : List t.cls.State} {vs : List t.Val} {n : Nat} (hn : vs.length = n)
    (h3 : (repSpec t.spec cap).abs ⟨n, data⟩ = vs) (h4 : data.drop n = x.data.drop n) :
    RepObj.shelf ⟨n, data⟩ = ⟨vs.length, vs ++ (x.shelf).cells.drop vs.length⟩ := by
  have h3 : (data.take n).map t.abs = vs := h3
  show (⟨n, data.map t.abs⟩ : Shelf t.Val) = ⟨vs.length, vs ++ (x.data.map t.abs).drop vs.length⟩
  rw [hn]
  congr 1
  rw [← List.map_drop, ← h4, ← h3, ← List.map_append, List.take_append_drop]

/-- One call. -/
theorem RepCall.run_shelf (h : t.WF) (hc : cap < 2147483648) {x : RepObj t.cls.State} (c : RepCall t) (hl : c.Legal cap)
    (hx : (repSpec t.spec cap).Inv x) :
    ∃ y, c.run cap x = .ok ((c.shelfOp.run cap t.dflt x.shelf).1, y) ∧ (repSpec t.spec cap).Inv y ∧
      y.shelf = (c.shelfOp.run cap t.dflt x.shelf).2 := by
  have hb := ElemTy.base t h
  obtain ⟨h1, h2, h3⟩ := id hx
  have hreach : ∀ {v : t.cls.State}, t.Reach v → t.spec.Inv v := fun hv => ElemTy.reach_inv t h hv
  cases c with
  | add v =>
    obtain ⟨a1, a2⟩ := rep_add_eq (cap := cap) hb hc hx (hreach hl)
    simp only [RepCall.shelfOp, ShelfOp.run, RepCall.run]
    by_cases hlt : x.len < cap
    · obtain ⟨z, e1, e2, e3⟩ := a1 hlt
      obtain ⟨s1, _⟩ := set_data (d := t.dflt) (cap := cap) hx hlt e2
      rw [show max x.len (x.len + 1) = x.len + 1 by omega] at s1
      rw [if_pos (show (x.shelf).len < cap from hlt)]
      refine ⟨_, e1, s1, ?_⟩
      show (⟨x.len + 1, (x.data.set x.len z).map t.abs⟩ : Shelf t.Val) = ⟨x.len + 1, (x.data.map t.abs).set x.len (t.abs v)⟩
      rw [List.map_set]
      exact congrArg (fun w => (⟨x.len + 1, (x.data.map t.abs).set x.len w⟩ : Shelf t.Val)) e3
    · rw [if_neg (show ¬ (x.shelf).len < cap from hlt)]
      exact ⟨x, a2 (by omega), hx, rfl⟩
  | set i v =>
    obtain ⟨h0, hl⟩ := hl
    obtain ⟨hk, e⟩ := modifyAt_eq h0 hc hx i (fun old => t.cls.assign old v)
    obtain ⟨z, e1, e2, e3, _⟩ := (hb.assign _ v (h3 _ (List.getElem_mem hk)) (hreach hl)).exists
    obtain ⟨s1, _⟩ := set_data (d := t.dflt) hx (show min i (cap - 1) < cap by omega) e2
    refine ⟨_, ?_, s1, ?_⟩
    · simp only [RepCall.run, RepObj.setAt]
      rw [e, e1]
      rfl
    · show (⟨_, (x.data.set _ z).map t.abs⟩ : Shelf t.Val) = ⟨_, (x.data.map t.abs).set _ (t.abs v)⟩
      rw [List.map_set]
      exact congrArg (fun w => (⟨_, (x.data.map t.abs).set _ w⟩ : Shelf t.Val)) e3
  | setData vs =>
    simp only [RepCall.shelfOp, ShelfOp.run, RepCall.run, RepObj.setData]
    by_cases hv : vs.length ≤ cap
    · obtain ⟨data, e1, e2, e3, e4, _⟩ := (rep_overwrite hb x vs hx (fun r hr => hreach (hl r hr)) hv).exists
      rw [if_pos hv, if_pos (by rw [List.length_map]; exact hv), e1]
      exact ⟨⟨vs.length, data⟩, rfl, e2, shelf_overwrite (List.length_map ..) e3 e4⟩
    · rw [if_neg hv, if_neg (by rw [List.length_map]; exact hv)]
      exact ⟨x, rfl, hx, rfl⟩
  | touch i =>
    have h0 : 0 < cap := hl
    obtain ⟨hk, e⟩ := modifyAt_eq h0 hc hx i (pure : t.cls.State → Res t.cls.State)
    have hset : x.data.set (min i (cap - 1)) x.data[min i (cap - 1)] = x.data := List.set_getElem_self hk
    obtain ⟨s1, _⟩ := set_data (d := t.dflt) hx (show min i (cap - 1) < cap by omega) (h3 _ (List.getElem_mem hk))
    rw [hset] at s1
    refine ⟨_, ?_, s1, rfl⟩
    simp only [RepCall.run]
    rw [e, Res.pure_eq, Res.ok_bind, Res.ok_bind, hset]
    rfl
  | clear =>
    have e : x.clear = .ok (RepObj.init t.cls cap) := (rep_base (cap := cap) hb).clear x hx
    refine ⟨(repeatedClass t.cls cap).init, ?_, (rep_base (cap := cap) hb).init_inv, ?_⟩
    · simp only [RepCall.run, e]
      rfl
    · show (⟨0, (List.replicate cap t.cls.init).map t.abs⟩ : Shelf t.Val) = ⟨0, List.replicate cap t.dflt⟩
      rw [List.map_replicate]
      exact congrArg (fun w => (⟨0, List.replicate cap w⟩ : Shelf t.Val)) hb.init_abs
  | assign r =>
    have hr : (repSpec t.spec cap).Inv r :=
      ReachGen.keeps (ElemTy.rep_api_law h hc) (rep_base (cap := cap) hb).init_inv hl
    obtain ⟨r1, r2, r3⟩ := id hr
    have htl : (r.data.take r.len).length = r.len := by rw [List.length_take]; omega
    obtain ⟨data, e1, e2, e3, e4, _⟩ := (rep_overwrite hb x (r.data.take r.len) hx
      (fun y hy => r3 y (List.mem_of_mem_take hy)) (by omega)).exists
    rw [htl] at e2 e3 e4
    have hsl := (RepObj.shelf_ok hr).shown_length
    have hsl' : r.shelf.shown.length = r.len := hsl
    simp only [RepCall.shelfOp, ShelfOp.run, RepCall.run, RepObj.assign]
    rw [if_pos (show r.shelf.shown.length ≤ cap by omega), if_pos (by omega), e1]
    refine ⟨⟨r.len, data⟩, rfl, e2, shelf_overwrite hsl' (e3.trans ?_) e4⟩
    exact (RepObj.shelf_shown (cap := cap) r).symm

theorem RepCall.runAll_shelf (h : t.WF) (hc : cap < 2147483648) :
    (cs : List (RepCall t)) → (x : RepObj t.cls.State) → (∀ c ∈ cs, c.Legal cap) → (repSpec t.spec cap).Inv x →
    ∃ y, RepCall.runAll cap cs x = .ok ((ShelfOp.runAll cap t.dflt (cs.map RepCall.shelfOp) x.shelf).1, y) ∧
      y.shelf = (ShelfOp.runAll cap t.dflt (cs.map RepCall.shelfOp) x.shelf).2
  | [], x, _, _ => ⟨x, rfl, rfl⟩
  | c :: cs, x, hl, hx => by
    obtain ⟨y, e1, e2, e3⟩ := RepCall.run_shelf h hc c (hl c (List.mem_cons_self ..)) hx
    obtain ⟨z, f1, f2⟩ := RepCall.runAll_shelf h hc cs y (fun c hc => hl c (List.mem_cons_of_mem _ hc)) e2
    refine ⟨z, ?_, ?_⟩
    · rw [e3] at f1
      rw [RepCall.runAll, e1, Res.ok_bind]
      dsimp only
      rw [f1]
      rfl
    · rw [f2, e3]
      rfl

end

/-! ## Strings -/

section
variable {cap : Nat}

def StrObj.shelf (x : StrObj) : Shelf Byte := ⟨x.len, x.data⟩

def StrCall.shelfOp : StrCall → ShelfOp Byte
  | .setData bs => .replace bs
  | .setFrom y => .replace y.chars
  | .assign y => .copy y.shelf
  | .setCStr s => .truncate s
  | .set i v => .set i v
  | .touch i => .touch i
  | .clear => .clear

theorem StrCall.shelfOp_ok (h0 : 0 < cap) (hc : cap < 2147483648) {c : StrCall} (hl : c.Legal cap) : (c.shelfOp).Ok cap := by
  cases c with
  | set i v => exact h0
  | touch i => exact h0
  | assign r => exact (ElemTy.reach_inv (.str cap) ⟨h0, hc⟩ hl : r.WF cap)
  | _ => trivial

theorem StrObj.setData_shelf (x : StrObj) (bs : List Byte) (hx : x.WF cap) :
    ∃ y, x.setData cap bs = .ok (((ShelfOp.replace bs).run cap 0 x.shelf).1, y) ∧ y.WF cap ∧
      y.shelf = ((ShelfOp.replace bs).run cap 0 x.shelf).2 := by
  simp only [ShelfOp.run]
  by_cases hb : bs.length ≤ cap
  · rw [StrObj.setData_eq cap x bs hx hb, if_pos hb]
    refine ⟨_, rfl, ⟨?_, hb⟩, rfl⟩
    have := hx.1
    simp; omega
  · rw [if_neg hb]
    refine ⟨x, ?_, hx, rfl⟩
    simp only [StrObj.setData]; rw [if_neg hb]; rfl

theorem StrCall.run_shelf (h0 : 0 < cap) (hc : cap < 2147483648) {x : StrObj} (c : StrCall) (hl : c.Legal cap)
    (hx : x.WF cap) : ∃ y, c.run cap x = .ok ((c.shelfOp.run cap 0 x.shelf).1, y) ∧ y.WF cap ∧
      y.shelf = (c.shelfOp.run cap 0 x.shelf).2 := by
  obtain ⟨h1, h2⟩ := id hx
  have hlim : ∀ i, min i (u32sub cap 1) = min i (cap - 1) := fun i => by
    rw [u32sub_of_le (by omega) (by omega)]
  have hlen : ∀ i, (if min i (cap - 1) ≥ x.len then u32 (min i (cap - 1) + 1) else x.len) =
      max x.len (min i (cap - 1) + 1) := fun i => by
    split
    · rw [u32_of_lt (by omega)]; omega
    · omega
  cases c with
  | setData bs => exact StrObj.setData_shelf x bs hx
  | setFrom r =>
    obtain ⟨cap', c0, c1, hr⟩ := hl
    have hr : r.WF cap' := ElemTy.reach_inv (.str cap') ⟨c0, c1⟩ hr
    have := StrObj.setData_shelf x r.chars hx
    simp only [StrCall.run, StrObj.setFrom]
    rw [if_pos (by rw [hr.1]; exact hr.2)]
    exact this
  | assign r => exact ⟨r, rfl, ElemTy.reach_inv (.str cap) ⟨h0, hc⟩ hl, rfl⟩
  | setCStr s =>
    simp only [StrCall.run, StrObj.setCStr_eq cap x s hx hc, StrCall.shelfOp, ShelfOp.run]
    have hdl : ((s ++ [0]).take cap).length = min (s.length + 1) cap := by simp; omega
    refine ⟨_, rfl, ⟨by simp; omega, by dsimp only; omega⟩, ?_⟩
    rfl
  | set i v =>
    simp only [StrCall.run, StrObj.setAt, hlim, hlen]
    have hk : min i (cap - 1) < x.data.length := by omega
    rw [arraySet_of_lt hk]
    exact ⟨⟨max x.len (min i (cap - 1) + 1), x.data.set (min i (cap - 1)) v⟩, rfl,
      ⟨by simpa using h1, by dsimp only; omega⟩, rfl⟩
  | touch i =>
    simp only [StrCall.run, StrObj.getAt, hlim, hlen]
    have hk : min i (cap - 1) < x.data.length := by omega
    rw [arrayGet_of_lt hk]
    exact ⟨⟨max x.len (min i (cap - 1) + 1), x.data⟩, rfl, ⟨h1, by dsimp only; omega⟩, rfl⟩
  | clear => exact ⟨x.clear cap, rfl, ⟨by simp [StrObj.clear], Nat.zero_le _⟩, rfl⟩

theorem StrCall.runAll_shelf (h0 : 0 < cap) (hc : cap < 2147483648) :
    (cs : List StrCall) → (x : StrObj) → (∀ c ∈ cs, c.Legal cap) → x.WF cap →
    ∃ y, StrCall.runAll cap cs x = .ok ((ShelfOp.runAll cap 0 (cs.map StrCall.shelfOp) x.shelf).1, y) ∧
      y.shelf = (ShelfOp.runAll cap 0 (cs.map StrCall.shelfOp) x.shelf).2
  | [], x, _, _ => ⟨x, rfl, rfl⟩
  | c :: cs, x, hl, hx => by
    obtain ⟨y, e1, e2, e3⟩ := StrCall.run_shelf h0 hc c (hl c (List.mem_cons_self ..)) hx
    obtain ⟨z, f1, f2⟩ := StrCall.runAll_shelf h0 hc cs y (fun c hc => hl c (List.mem_cons_of_mem _ hc)) e2
    refine ⟨z, ?_, ?_⟩
    · rw [e3] at f1
      rw [StrCall.runAll, e1, Res.ok_bind]
      dsimp only
      rw [f1]
      rfl
    · rw [f2, e3]
      rfl

end

end EP
