import Verif.Proof.Shelf
import Verif.Props.Containers

/-!
# Exactly what repeated fields and strings do: C31, C32

Without a restriction on the history: they are arrays of which the first elements are shown (`Spec/Shelf.lean`), and they are
the lists they should be if and only if nothing but default values comes into view without having been written.
-/

namespace EP
open Spec

section
variable {t : ElemTy} {cap : Nat}

/-- Every call returns what it would for a list, and does to the contents what it would. -/
def RepCall.Right (cap : Nat) : List (RepCall t) → RepObj t.cls.State → Prop
  | [], _ => True
  | c :: cs, x => ∃ e y, c.run cap x = .ok (e, y) ∧
    (e, (repSpec t.spec cap).abs y) = (c.op cap).run cap t.dflt ((repSpec t.spec cap).abs x) ∧ Right cap cs y

theorem RepCall.shelfOp_op (c : RepCall t) : c.shelfOp.op = c.op cap := by
  cases c with
  | assign y => exact congrArg ListOp.replace (RepObj.shelf_shown y)
  | _ => rfl

/-- **C31**, exactly: every history.  All calls are defined, and their results and the contents are those of an array. -/
theorem C31_exact (cs : List (RepCall t)) (h : t.WF) (hc : cap < 2147483648) (hl : ∀ c ∈ cs, c.Legal cap) :
    ∃ y, RepCall.runAll cap cs (repeatedClass t.cls cap).init =
        .ok ((ShelfOp.runAll cap t.dflt (cs.map RepCall.shelfOp) (Shelf.new cap t.dflt)).1, y) ∧
      (repSpec t.spec cap).abs y = (ShelfOp.runAll cap t.dflt (cs.map RepCall.shelfOp) (Shelf.new cap t.dflt)).2.shown := by
  have hb := ElemTy.base t h
  have hi : RepObj.shelf (repeatedClass t.cls cap).init = Shelf.new cap t.dflt := by
    show (⟨0, (List.replicate cap t.cls.init).map t.abs⟩ : Shelf t.Val) = ⟨0, List.replicate cap t.dflt⟩
    rw [List.map_replicate]
    exact congrArg (fun w => (⟨0, List.replicate cap w⟩ : Shelf t.Val)) hb.init_abs
  obtain ⟨y, e1, e2⟩ := RepCall.runAll_shelf h hc cs _ hl (rep_base (cap := cap) hb).init_inv
  rw [hi] at e1 e2
  exact ⟨y, e1, by rw [← RepObj.shelf_shown, e2]⟩

/-- From any object. -/
theorem RepCall.right_iff (h : t.WF) (hc : cap < 2147483648) : (cs : List (RepCall t)) → (x : RepObj t.cls.State) →
    (∀ c ∈ cs, c.Legal cap) → (repSpec t.spec cap).Inv x →
    (RepCall.Right cap cs x ↔ ShelfOp.AllClean cap t.dflt (cs.map RepCall.shelfOp) x.shelf)
  | [], _, _, _ => Iff.rfl
  | c :: cs, x, hl, hx => by
    have hlc := hl c (List.mem_cons_self ..)
    obtain ⟨y, e1, e2, e3⟩ := RepCall.run_shelf h hc c hlc hx
    have hk := ShelfOp.right_iff (d := t.dflt) (RepCall.shelfOp_ok hlc) (RepObj.shelf_ok hx)
    have he := ShelfOp.run_error (d := t.dflt) (o := c.shelfOp) (RepObj.shelf_ok hx)
    have ih := RepCall.right_iff h hc cs y (fun c hc => hl c (List.mem_cons_of_mem _ hc)) e2
    rw [← e3, RepCall.shelfOp_op (cap := cap), RepObj.shelf_shown (cap := cap), RepObj.shelf_shown (cap := cap)] at hk
    rw [RepCall.shelfOp_op (cap := cap), RepObj.shelf_shown (cap := cap)] at he
    constructor
    · rintro ⟨e, z, f1, f2, f3⟩
      cases e1.symm.trans f1
      refine ⟨hk.mp (congrArg Prod.snd f2), ?_⟩
      rw [← e3]
      exact ih.mp f3
    · rintro ⟨f1, f2⟩
      refine ⟨_, y, e1, Prod.ext he (hk.mpr f1), ih.mpr ?_⟩
      rw [e3]
      exact f2

/-- **C31**: a history behaves like one of a list if and only if nothing but default values is uncovered. -/
theorem C31_iff (cs : List (RepCall t)) (h : t.WF) (hc : cap < 2147483648) (hl : ∀ c ∈ cs, c.Legal cap) :
    RepCall.Right cap cs (repeatedClass t.cls cap).init ↔
      ShelfOp.AllClean cap t.dflt (cs.map RepCall.shelfOp) (Shelf.new cap t.dflt) := by
  have hb := ElemTy.base t h
  have hi : RepObj.shelf (repeatedClass t.cls cap).init = Shelf.new cap t.dflt := by
    show (⟨0, (List.replicate cap t.cls.init).map t.abs⟩ : Shelf t.Val) = ⟨0, List.replicate cap t.dflt⟩
    rw [List.map_replicate]
    exact congrArg (fun w => (⟨0, List.replicate cap w⟩ : Shelf t.Val)) hb.init_abs
  rw [← hi]
  exact RepCall.right_iff h hc cs _ hl (rep_base (cap := cap) hb).init_inv

/-- **C31** for one call on any object a program can have: right if and only if `get_const(j)` shows the default value for
all elements `j` between the end and the one that is accessed. -/
theorem C31_call_iff (c : RepCall t) (x : RepObj t.cls.State) (h : t.WF) (hc : cap < 2147483648) (hl : c.Legal cap)
    (hx : t.RepReach cap x) :
    RepCall.Right cap [c] x ↔ ∀ j z, x.len ≤ j → x.getConst cap j = .ok z →
      ((∃ i v, c = .set i v ∧ j < min i (cap - 1)) ∨ ∃ i, c = .touch i ∧ j ≤ min i (cap - 1)) → t.abs z = t.dflt := by
  have hb := ElemTy.base t h
  have ix : (repSpec t.spec cap).Inv x :=
    ReachGen.keeps (ElemTy.rep_api_law h hc) (rep_base (cap := cap) hb).init_inv hx
  obtain ⟨h1, h2, h3⟩ := id ix
  have hmem : ∀ b, b ≤ cap → ((∀ v ∈ ((x.shelf).cells.take b).drop x.len, v = t.dflt) ↔
      ∀ j z, x.len ≤ j → j < b → x.getConst cap j = .ok z → t.abs z = t.dflt) := by
    intro b hb
    have hget : ∀ j (hj : j < b), x.getConst cap j = .ok (x.data[j]'(by omega)) := fun j hj => by
      rw [RepObj.getConst, RepObj.limit_val (by omega) hc, Nat.min_eq_left (by omega), arrayGet_of_lt]
    constructor
    · intro hv j z j1 j2 hz
      rw [hget j j2] at hz
      cases hz
      refine hv _ (mem_uncovered.mpr ⟨j, by simp only [RepObj.shelf, List.length_map]; omega, j1, j2, ?_⟩)
      simp only [RepObj.shelf, List.getElem_map]
    · intro hv v hm
      obtain ⟨j, hj, j1, j2, rfl⟩ := mem_uncovered.mp hm
      simp only [RepObj.shelf, List.getElem_map]
      exact hv j _ j1 j2 (hget j j2)
  have := RepCall.right_iff h hc [c] x (fun d hd => by rw [List.mem_singleton.mp hd]; exact hl) ix
  refine this.trans (Iff.trans (and_iff_left trivial) ?_)
  have triv : ∀ c : RepCall t, (∀ i v, c ≠ .set i v) → (∀ i, c ≠ .touch i) →
      (∀ j z, x.len ≤ j → x.getConst cap j = .ok z →
        ((∃ i v, c = .set i v ∧ j < min i (cap - 1)) ∨ ∃ i, c = .touch i ∧ j ≤ min i (cap - 1)) → t.abs z = t.dflt) :=
    fun c n1 n2 j z _ _ hc => by
      rcases hc with ⟨i, v, e, _⟩ | ⟨i, e, _⟩
      · exact absurd e (n1 i v)
      · exact absurd e (n2 i)
  have triv' : ∀ o : ShelfOp t.Val, o.uncovered cap x.shelf = [] → o.Clean cap t.dflt x.shelf := fun o he v hv => by
    rw [he] at hv
    exact absurd hv List.not_mem_nil
  cases c with
  | add v => exact ⟨fun _ => triv _ (by nofun) (by nofun), fun _ => triv' _ rfl⟩
  | setData vs => exact ⟨fun _ => triv _ (by nofun) (by nofun), fun _ => triv' _ rfl⟩
  | clear => exact ⟨fun _ => triv _ (by nofun) (by nofun), fun _ => triv' _ rfl⟩
  | assign y => exact ⟨fun _ => triv _ (by nofun) (by nofun), fun _ => triv' _ rfl⟩
  | set i v =>
    have h0 : 0 < cap := hl.1
    refine (hmem (min i (cap - 1)) (by omega)).trans ⟨fun hk j z j1 hz hc => ?_, fun hk j z j1 j2 hz =>
      hk j z j1 hz (Or.inl ⟨i, v, rfl, j2⟩)⟩
    rcases hc with ⟨i, v, e, j2⟩ | ⟨i, e, _⟩
    · cases e
      exact hk j z j1 j2 hz
    · exact nomatch e
  | touch i =>
    have h0 : 0 < cap := hl
    refine (hmem (min i (cap - 1) + 1) (by omega)).trans ⟨fun hk j z j1 hz hc => ?_, fun hk j z j1 j2 hz =>
      hk j z j1 hz (Or.inr ⟨i, rfl, by omega⟩)⟩
    rcases hc with ⟨i, v, e, j2⟩ | ⟨i, e, j2⟩
    · exact nomatch e
    · cases e
      exact hk j z j1 (by omega) hz

end

def staleCalls : List (RepCall (.scalar .uint32)) := [.add 5#32, .add 6#32, .setData [7#32], .set 2 9#32]
def harmlessCalls : List (RepCall (.scalar .uint32)) := [.setData [1#32, 0#32, 3#32], .setData [7#32], .set 2 9#32]

/-- The history of `C31_stale` uncovers a 6. -/
example : ¬ ShelfOp.AllClean 3 0#32 (staleCalls.map RepCall.shelfOp) (Shelf.new 3 0#32) := by
  rintro ⟨_, _, _, h, _⟩
  exact absurd (h 6#32 (List.mem_cons_self ..)) (by decide)

/-- After `set_data` made the list shorter, a gap over an element that was 0 does no harm; `C31_history_partial` does not
say so. -/
example : ShelfOp.AllClean 4 0#32 (harmlessCalls.map RepCall.shelfOp) (Shelf.new 4 0#32) ∧
    ¬ ListOp.AllTame 4 0#32 (harmlessCalls.map (RepCall.op 4)) [] 0 := by
  refine ⟨⟨fun _ h => absurd h List.not_mem_nil, fun _ h => absurd h List.not_mem_nil, ?_, trivial⟩, ?_⟩
  · intro v hv
    have : v ∈ [0#32] := hv
    exact List.mem_singleton.mp this
  · rintro ⟨_, _, h | h, _⟩
    · exact absurd h (by decide)
    · exact absurd h (by decide)

section
variable {cap : Nat}

/-- Every call returns what it would for a byte string, and does to the contents what it would. -/
def StrCall.Right (cap : Nat) : List StrCall → StrObj → Prop
  | [], _ => True
  | c :: cs, x => ∃ e y, c.run cap x = .ok (e, y) ∧ (e, y.chars) = c.op.run cap 0 x.chars ∧ Right cap cs y

theorem StrCall.shelfOp_op (c : StrCall) : c.shelfOp.op = c.op := by cases c <;> rfl

/-- **C32**, exactly: every history. -/
theorem C32_exact (cs : List StrCall) (h0 : 0 < cap) (hc : cap < 2147483648) (hl : ∀ c ∈ cs, c.Legal cap) :
    ∃ y, StrCall.runAll cap cs (StrObj.init cap) =
        .ok ((ShelfOp.runAll cap 0 (cs.map StrCall.shelfOp) (Shelf.new cap 0)).1, y) ∧
      y.chars = (ShelfOp.runAll cap 0 (cs.map StrCall.shelfOp) (Shelf.new cap 0)).2.shown := by
  obtain ⟨y, e1, e2⟩ := StrCall.runAll_shelf h0 hc cs _ hl (StrObj.init_wf cap)
  exact ⟨y, e1, congrArg Shelf.shown e2⟩

theorem StrCall.right_iff (h0 : 0 < cap) (hc : cap < 2147483648) : (cs : List StrCall) → (x : StrObj) →
    (∀ c ∈ cs, c.Legal cap) → x.WF cap →
    (StrCall.Right cap cs x ↔ ShelfOp.AllClean cap 0 (cs.map StrCall.shelfOp) x.shelf)
  | [], _, _, _ => Iff.rfl
  | c :: cs, x, hl, hx => by
    have hlc := hl c (List.mem_cons_self ..)
    obtain ⟨y, e1, e2, e3⟩ := StrCall.run_shelf h0 hc c hlc hx
    have hk := ShelfOp.right_iff (d := (0 : Byte)) (StrCall.shelfOp_ok h0 hc hlc) (s := x.shelf) hx
    have he := ShelfOp.run_error (d := (0 : Byte)) (o := c.shelfOp) (s := x.shelf) hx
    have ih := StrCall.right_iff h0 hc cs y (fun c hc => hl c (List.mem_cons_of_mem _ hc)) e2
    rw [← e3, StrCall.shelfOp_op] at hk
    rw [StrCall.shelfOp_op] at he
    constructor
    · rintro ⟨e, z, f1, f2, f3⟩
      cases e1.symm.trans f1
      refine ⟨hk.mp (congrArg Prod.snd f2), ?_⟩
      rw [← e3]
      exact ih.mp f3
    · rintro ⟨f1, f2⟩
      refine ⟨_, y, e1, Prod.ext he (hk.mpr f1), ih.mpr ?_⟩
      rw [e3]
      exact f2

/-- **C32**: a history behaves like one of a byte string if and only if nothing but NUL is uncovered. -/
theorem C32_iff (cs : List StrCall) (h0 : 0 < cap) (hc : cap < 2147483648) (hl : ∀ c ∈ cs, c.Legal cap) :
    StrCall.Right cap cs (StrObj.init cap) ↔ ShelfOp.AllClean cap 0 (cs.map StrCall.shelfOp) (Shelf.new cap 0) :=
  StrCall.right_iff h0 hc cs _ hl (StrObj.init_wf cap)

end

/-- The history of `C32_stale` uncovers a `b`; `set(const char*)` leaves a NUL behind the end. -/
example : ¬ ShelfOp.AllClean 4 0 ([StrCall.setData [0x61, 0x62, 0x63], .setData [0x78], .set 2 0x7A].map StrCall.shelfOp)
      (Shelf.new 4 0) ∧
    ShelfOp.AllClean 4 0 ([StrCall.setData [0x61, 0x62, 0x63], .setCStr [0x78], .set 2 0x7A].map StrCall.shelfOp)
      (Shelf.new 4 0) := by
  refine ⟨?_, fun _ h => absurd h List.not_mem_nil, fun _ h => absurd h List.not_mem_nil, ?_, trivial⟩
  · rintro ⟨_, _, h, _⟩
    exact absurd (h 0x62 (by decide)) (by decide)
  · intro v hv
    have : v ∈ [(0 : Byte)] := hv
    exact List.mem_singleton.mp this

end EP
