import Verif.Proof.Lower

/-!
# Declarations with more room (specification level)

`t.wide k` is `t` with all maximum lengths at least `k`, as an "older version" of `t`.  Every value fits it for some `k`,
so that encodings have an effect on it whether or not they fit `t`.
-/

namespace EP
open Spec

mutual
/-- All maximum lengths at least `k`. -/
def ElemTy.wide (k : Nat) : (t : ElemTy) → t.Older
  | .scalar s => .scalar s
  | .str cap => .str cap (max cap k)
  | .msg fs os => .msg (fs.wide k) (os.wide k)
def Fields.wide (k : Nat) : (fs : Fields) → fs.Older
  | .nil => .nil
  | .plain num t rest => .plain num (t.wide k) (rest.wide k)
  | .optional num t rest => .optional num (t.wide k) (rest.wide k)
  | .repeated num cap t rest => .repeated num cap (max cap k) (t.wide k) (rest.wide k)
def Alts.wide (k : Nat) : (a : Alts) → a.Older
  | .nil => .nil
  | .cons num t rest => .cons num (t.wide k) (rest.wide k)
def Oneofs.wide (k : Nat) : (os : Oneofs) → os.Older
  | .nil => .nil
  | .cons a rest => .cons (a.wide k) (rest.wide k)
end

mutual
/-- The older version had maximum lengths of at least `k`. -/
def ElemTy.Older.grow (k : Nat) : {t : ElemTy} → t.Older → t.Older
  | _, .scalar s => .scalar s
  | _, .str cap was => .str cap (max was k)
  | _, .msg f o => .msg (f.grow k) (o.grow k)
def Fields.Older.grow (k : Nat) : {fs : Fields} → fs.Older → fs.Older
  | _, .nil => .nil
  | _, .plain num m r => .plain num (m.grow k) (r.grow k)
  | _, .optional num m r => .optional num (m.grow k) (r.grow k)
  | _, .repeated num cap was m r => .repeated num cap (max was k) (m.grow k) (r.grow k)
  | _, .newPlain num t r => .newPlain num t (r.grow k)
  | _, .newOptional num t r => .newOptional num t (r.grow k)
  | _, .madeOptional num m r => .madeOptional num (m.grow k) (r.grow k)
  | _, .newRepeated num cap t r => .newRepeated num cap t (r.grow k)
def Alts.Older.grow (k : Nat) : {a : Alts} → a.Older → a.Older
  | _, .nil => .nil
  | _, .cons num m r => .cons num (m.grow k) (r.grow k)
  | _, .newMember num t r => .newMember num t (r.grow k)
def Oneofs.Older.grow (k : Nat) : {os : Oneofs} → os.Older → os.Older
  | _, .nil => .nil
  | _, .cons m r => .cons (m.grow k) (r.grow k)
  | _, .newOneof a r => .newOneof a (r.grow k)
end

/-! ## The two agree -/

mutual
theorem ElemTy.Older.grow_old (k : Nat) : {t : ElemTy} → (m : t.Older) → (m.grow k).old = (m.old.wide k).old
  | _, .scalar _ => rfl
  | _, .str _ _ => rfl
  | _, .msg f o => congr (congrArg ElemTy.msg (f.grow_old k)) (o.grow_old k)
theorem Fields.Older.grow_old (k : Nat) : {fs : Fields} → (m : fs.Older) → (m.grow k).old = (m.old.wide k).old
  | _, .nil => rfl
  | _, .plain num m r => congr (congrArg (Fields.plain num) (m.grow_old k)) (r.grow_old k)
  | _, .optional num m r => congr (congrArg (Fields.optional num) (m.grow_old k)) (r.grow_old k)
  | _, .repeated num _ was m r => congr (congrArg (Fields.repeated num (max was k)) (m.grow_old k)) (r.grow_old k)
  | _, .newPlain _ _ r => r.grow_old k
  | _, .newOptional _ _ r => r.grow_old k
  | _, .madeOptional num m r => congr (congrArg (Fields.plain num) (m.grow_old k)) (r.grow_old k)
  | _, .newRepeated _ _ _ r => r.grow_old k
theorem Alts.Older.grow_old (k : Nat) : {a : Alts} → (m : a.Older) → (m.grow k).old = (m.old.wide k).old
  | _, .nil => rfl
  | _, .cons num m r => congr (congrArg (Alts.cons num) (m.grow_old k)) (r.grow_old k)
  | _, .newMember _ _ r => r.grow_old k
theorem Oneofs.Older.grow_old (k : Nat) : {os : Oneofs} → (m : os.Older) → (m.grow k).old = (m.old.wide k).old
  | _, .nil => rfl
  | _, .cons m r => congr (congrArg Oneofs.cons (m.grow_old k)) (r.grow_old k)
  | _, .newOneof _ r => r.grow_old k
end

theorem pair_heq {A A' B B' : Type} {a : A} {a' : A'} {b : B} {b' : B'} (hA : A = A') (hB : B = B') (h : HEq a a')
    (h' : HEq b b') : HEq (a, b) (a', b') := by
  subst hA hB
  cases h
  cases h'
  rfl

theorem option_heq {X A A' : Type} {f : X → A} {f' : X → A'} (hA : A = A') (h : ∀ x, HEq (f x) (f' x)) (o : Option X) :
    HEq (o.map f) (o.map f') := by
  subst hA
  rw [funext fun x => eq_of_heq (h x)]

theorem bind_heq {X A A' : Type} {f : X → Option A} {f' : X → Option A'} (hA : A = A') (h : ∀ x, HEq (f x) (f' x))
    (o : Option X) : HEq (o.bind f) (o.bind f') := by
  subst hA
  rw [funext fun x => eq_of_heq (h x)]

theorem list_heq {X A A' : Type} {f : X → A} {f' : X → A'} (hA : A = A') (h : ∀ x, HEq (f x) (f' x)) (l : List X) :
    HEq (l.map f) (l.map f') := by
  subst hA
  rw [funext fun x => eq_of_heq (h x)]

theorem inl_heq {A A' B B' : Type} {a : A} {a' : A'} (hA : A = A') (hB : B = B') (h : HEq a a') :
    HEq (some (Sum.inl a) : Option (A ⊕ B)) (some (Sum.inl a') : Option (A' ⊕ B')) := by
  subst hA hB
  cases h
  rfl

theorem inr_heq {A A' B B' : Type} {b : Option B} {b' : Option B'} (hA : A = A') (hB : B = B') (h : HEq b b') :
    HEq (b.map Sum.inr : Option (A ⊕ B)) (b'.map Sum.inr : Option (A' ⊕ B')) := by
  subst hA hB
  cases h
  rfl

mutual
theorem ElemTy.Older.grow_shown (k : Nat) : {t : ElemTy} → (m : t.Older) → (v : t.Val) →
    HEq ((m.grow k).shown v) ((m.old.wide k).shown (m.shown v))
  | _, .scalar _, _ => HEq.rfl
  | _, .str _ _, _ => HEq.rfl
  | _, .msg f o, v => pair_heq (congrArg Fields.Val (f.grow_old k)) (congrArg Oneofs.Val (o.grow_old k))
      (f.grow_shown k v.1) (o.grow_shown k v.2)
theorem Fields.Older.grow_shown (k : Nat) : {fs : Fields} → (m : fs.Older) → (v : fs.Val) →
    HEq ((m.grow k).shown v) ((m.old.wide k).shown (m.shown v))
  | _, .nil, _ => HEq.rfl
  | _, .plain num m r, v => pair_heq (congrArg ElemTy.Val (m.grow_old k)) (congrArg Fields.Val (r.grow_old k))
      (m.grow_shown k v.1) (r.grow_shown k v.2)
  | _, .optional num m r, v => by
    refine pair_heq (congrArg Option (congrArg ElemTy.Val (m.grow_old k))) (congrArg Fields.Val (r.grow_old k))
      ?_ (r.grow_shown k v.2)
    show HEq (v.1.map (m.grow k).shown) ((v.1.map m.shown).map (m.old.wide k).shown)
    rw [Option.map_map]
    exact option_heq (congrArg ElemTy.Val (m.grow_old k)) (fun x => m.grow_shown k x) v.1
  | _, .repeated num _ was m r, v => by
    refine pair_heq (congrArg List (congrArg ElemTy.Val (m.grow_old k))) (congrArg Fields.Val (r.grow_old k))
      ?_ (r.grow_shown k v.2)
    show HEq (v.1.map (m.grow k).shown) ((v.1.map m.shown).map (m.old.wide k).shown)
    rw [List.map_map]
    exact list_heq (congrArg ElemTy.Val (m.grow_old k)) (fun x => m.grow_shown k x) v.1
  | _, .newPlain _ _ r, v => r.grow_shown k v.2
  | _, .newOptional _ _ r, v => r.grow_shown k v.2
  | _, .madeOptional num m r, v =>
    pair_heq (congrArg ElemTy.Val (m.grow_old k)) (congrArg Fields.Val (r.grow_old k))
      (m.grow_shown k _) (r.grow_shown k v.2)
  | _, .newRepeated _ _ _ r, v => r.grow_shown k v.2
theorem Alts.Older.grow_shown (k : Nat) : {a : Alts} → (m : a.Older) → (v : a.Val) →
    HEq ((m.grow k).shown v) ((m.shown v).bind (m.old.wide k).shown)
  | _, .nil, v => nomatch v
  | _, .cons num m r, .inl x =>
    inl_heq (congrArg ElemTy.Val (m.grow_old k)) (congrArg Alts.Val (r.grow_old k)) (m.grow_shown k x)
  | _, .cons num m r, .inr y => by
    have e := inr_heq (congrArg ElemTy.Val (m.grow_old k)) (congrArg Alts.Val (r.grow_old k)) (r.grow_shown k y)
    refine e.trans ?_
    show HEq (((r.shown y).bind (r.old.wide k).shown).map Sum.inr) (((r.shown y).map Sum.inr).bind
      ((Alts.Older.cons num m r).old.wide k).shown)
    cases r.shown y <;> rfl
  | _, .newMember _ _ r, .inl _ => by
    have e : (r.grow k).old.Val = (r.old.wide k).old.Val := congrArg Alts.Val (r.grow_old k)
    show HEq (none : Option (r.grow k).old.Val) (none : Option (r.old.wide k).old.Val)
    rw [e]
  | _, .newMember _ _ r, .inr y => r.grow_shown k y
theorem Oneofs.Older.grow_shown (k : Nat) : {os : Oneofs} → (m : os.Older) → (v : os.Val) →
    HEq ((m.grow k).shown v) ((m.old.wide k).shown (m.shown v))
  | _, .nil, _ => HEq.rfl
  | _, .cons m r, v => by
    refine pair_heq (congrArg Option (congrArg Alts.Val (m.grow_old k))) (congrArg Oneofs.Val (r.grow_old k))
      ?_ (r.grow_shown k v.2)
    show HEq (v.1.bind (m.grow k).shown) ((v.1.bind m.shown).bind (m.old.wide k).shown)
    rw [Option.bind_assoc]
    exact bind_heq (congrArg Alts.Val (m.grow_old k)) (fun x => m.grow_shown k x) v.1
  | _, .newOneof _ r, v => r.grow_shown k v.2
end

/-! ## What the wider declaration is like -/

mutual
theorem ElemTy.wide_roomy (k : Nat) : (t : ElemTy) → (t.wide k).Roomy
  | .scalar _ => trivial
  | .str _ => Nat.le_max_left _ _
  | .msg fs os => ⟨fs.wide_roomy k, os.wide_roomy k⟩
theorem Fields.wide_roomy (k : Nat) : (fs : Fields) → (fs.wide k).Roomy
  | .nil => trivial
  | .plain _ t rest => ⟨t.wide_roomy k, rest.wide_roomy k⟩
  | .optional _ t rest => ⟨t.wide_roomy k, rest.wide_roomy k⟩
  | .repeated _ _ t rest => ⟨Nat.le_max_left _ _, t.wide_roomy k, rest.wide_roomy k⟩
theorem Alts.wide_roomy (k : Nat) : (a : Alts) → (a.wide k).Roomy
  | .nil => trivial
  | .cons _ t rest => ⟨t.wide_roomy k, rest.wide_roomy k⟩
theorem Oneofs.wide_roomy (k : Nat) : (os : Oneofs) → (os.wide k).Roomy
  | .nil => trivial
  | .cons a rest => ⟨a.wide_roomy k, rest.wide_roomy k⟩
end

mutual
theorem Fields.wide_numbers (k : Nat) : (fs : Fields) → (fs.wide k).old.numbers = fs.numbers
  | .nil => rfl
  | .plain _ _ rest => congrArg (List.cons _) (rest.wide_numbers k)
  | .optional _ _ rest => congrArg (List.cons _) (rest.wide_numbers k)
  | .repeated _ _ _ rest => congrArg (List.cons _) (rest.wide_numbers k)
theorem Alts.wide_numbers (k : Nat) : (a : Alts) → (a.wide k).old.numbers = a.numbers
  | .nil => rfl
  | .cons _ _ rest => congrArg (List.cons _) (rest.wide_numbers k)
theorem Oneofs.wide_numbers (k : Nat) : (os : Oneofs) → (os.wide k).old.numbers = os.numbers
  | .nil => rfl
  | .cons a rest => by
    show (a.wide k).old.numbers ++ (rest.wide k).old.numbers = a.numbers ++ rest.numbers
    rw [a.wide_numbers, rest.wide_numbers]
end

mutual
theorem ElemTy.wide_distinct (k : Nat) : (t : ElemTy) → t.Distinct → (t.wide k).old.Distinct
  | .scalar _, _ => trivial
  | .str _, _ => trivial
  | .msg fs os, h => by
    simp only [ElemTy.Distinct] at h
    refine ⟨fs.wide_distinct k h.1, os.wide_distinct k h.2.1, ?_⟩
    rw [fs.wide_numbers, os.wide_numbers]
    exact h.2.2
theorem Fields.wide_distinct (k : Nat) : (fs : Fields) → fs.Distinct → (fs.wide k).old.Distinct
  | .nil, _ => trivial
  | .plain _ t rest, h => ⟨t.wide_distinct k h.1, rest.wide_distinct k h.2⟩
  | .optional _ t rest, h => ⟨t.wide_distinct k h.1, rest.wide_distinct k h.2⟩
  | .repeated _ _ t rest, h => ⟨t.wide_distinct k h.1, rest.wide_distinct k h.2⟩
theorem Alts.wide_distinct (k : Nat) : (a : Alts) → a.Distinct → (a.wide k).old.Distinct
  | .nil, _ => trivial
  | .cons _ t rest, h => ⟨t.wide_distinct k h.1, rest.wide_distinct k h.2⟩
theorem Oneofs.wide_distinct (k : Nat) : (os : Oneofs) → os.Distinct → (os.wide k).old.Distinct
  | .nil, _ => trivial
  | .cons a rest, h => ⟨a.wide_distinct k h.1, rest.wide_distinct k h.2⟩
end

theorem option_map_inj {A B : Type} {f : A → B} (hf : ∀ x y, f x = f y → x = y) :
    ∀ a b : Option A, a.map f = b.map f → a = b
  | none, none, _ => rfl
  | some _, some _, h => by injection h with h; rw [hf _ _ h]

theorem list_map_inj {A B : Type} {f : A → B} (hf : ∀ x y, f x = f y → x = y) :
    ∀ a b : List A, a.map f = b.map f → a = b
  | [], [], _ => rfl
  | _ :: a, _ :: b, h => by
    simp only [List.map_cons, List.cons.injEq] at h
    rw [hf _ _ h.1, list_map_inj hf a b h.2]

mutual
theorem ElemTy.wide_inj (k : Nat) : (t : ElemTy) → (u v : t.Val) → (t.wide k).shown u = (t.wide k).shown v → u = v
  | .scalar _, _, _, h => h
  | .str _, _, _, h => h
  | .msg fs os, (u1, u2), (v1, v2), h =>
    pair_eq (fs.wide_inj k u1 v1 (congrArg Prod.fst h)) (os.wide_inj k u2 v2 (congrArg Prod.snd h))
theorem Fields.wide_inj (k : Nat) : (fs : Fields) → (u v : fs.Val) → (fs.wide k).shown u = (fs.wide k).shown v → u = v
  | .nil, _, _, _ => rfl
  | .plain _ t rest, (u1, u2), (v1, v2), h =>
    pair_eq (t.wide_inj k u1 v1 (congrArg Prod.fst h)) (rest.wide_inj k u2 v2 (congrArg Prod.snd h))
  | .optional _ t rest, (u1, u2), (v1, v2), h =>
    pair_eq (option_map_inj (t.wide_inj k) u1 v1 (congrArg Prod.fst h)) (rest.wide_inj k u2 v2 (congrArg Prod.snd h))
  | .repeated _ _ t rest, (u1, u2), (v1, v2), h =>
    pair_eq (list_map_inj (t.wide_inj k) u1 v1 (congrArg Prod.fst h)) (rest.wide_inj k u2 v2 (congrArg Prod.snd h))
theorem Alts.wide_inj (k : Nat) : (a : Alts) → (u v : a.Val) → (a.wide k).shown u = (a.wide k).shown v → u = v
  | .nil, u, _, _ => nomatch u
  | .cons num t rest, .inl x, .inl y, h => by
    have h : some (Sum.inl ((t.wide k).shown x) : (t.wide k).old.Val ⊕ (rest.wide k).old.Val) =
      some (.inl ((t.wide k).shown y)) := h
    injection h with h
    injection h with h
    rw [t.wide_inj k x y h]
  | .cons num t rest, .inl x, .inr y, h => by
    have h : some (Sum.inl ((t.wide k).shown x) : (t.wide k).old.Val ⊕ (rest.wide k).old.Val) =
      ((rest.wide k).shown y).map .inr := h
    cases hy : (rest.wide k).shown y with
    | none => rw [hy] at h; exact nomatch h
    | some z => rw [hy] at h; exact nomatch h
  | .cons num t rest, .inr x, .inl y, h => by
    have h : ((rest.wide k).shown x).map .inr =
      some (Sum.inl ((t.wide k).shown y) : (t.wide k).old.Val ⊕ (rest.wide k).old.Val) := h
    cases hx : (rest.wide k).shown x with
    | none => rw [hx] at h; exact nomatch h
    | some z => rw [hx] at h; exact nomatch h
  | .cons num t rest, .inr x, .inr y, h => by
    have h : (((rest.wide k).shown x).map Sum.inr : Option ((t.wide k).old.Val ⊕ (rest.wide k).old.Val)) =
      ((rest.wide k).shown y).map .inr := h
    rw [rest.wide_inj k x y (option_map_inj (fun _ _ h => by injection h) _ _ h)]
theorem Oneofs.wide_inj (k : Nat) : (os : Oneofs) → (u v : os.Val) → (os.wide k).shown u = (os.wide k).shown v → u = v
  | .nil, _, _, _ => rfl
  | .cons a rest, (u1, u2), (v1, v2), h => by
    have h1 : u1.bind (a.wide k).shown = v1.bind (a.wide k).shown := congrArg Prod.fst h
    refine pair_eq ?_ (rest.wide_inj k u2 v2 (congrArg Prod.snd h))
    cases u1 with
    | none =>
      cases v1 with
      | none => rfl
      | some y =>
        obtain ⟨z, hz⟩ := Alts.Older.shown_some _ (a.wide k) (a.wide_roomy k) y
        exact nomatch (h1.trans hz)
    | some x =>
      cases v1 with
      | none =>
        obtain ⟨z, hz⟩ := Alts.Older.shown_some _ (a.wide k) (a.wide_roomy k) x
        exact nomatch (h1.symm.trans hz)
      | some y => rw [a.wide_inj k x y h1]
end

/-! ## Every value fits for some `k` -/

/-- Some property holds from some number on. -/
def Eventually (P : Nat → Prop) : Prop := ∃ n, ∀ k, n ≤ k → P k

theorem Eventually.and {P Q : Nat → Prop} (h : Eventually P) (h' : Eventually Q) : Eventually fun k => P k ∧ Q k := by
  obtain ⟨n, h⟩ := h
  obtain ⟨m, h'⟩ := h'
  exact ⟨max n m, fun k hk => ⟨h k (by omega), h' k (by omega)⟩⟩

theorem Eventually.all {A : Type} {P : Nat → A → Prop} (h : ∀ x, Eventually fun k => P k x) :
    ∀ l : List A, Eventually fun k => ∀ x ∈ l, P k x
  | [] => ⟨0, fun _ _ _ h => nomatch h⟩
  | a :: l => by
    obtain ⟨n, hn⟩ := (h a).and (Eventually.all h l)
    refine ⟨n, fun k hk x hx => ?_⟩
    rcases List.mem_cons.mp hx with rfl | hx
    · exact (hn k hk).1
    · exact (hn k hk).2 x hx

mutual
theorem ElemTy.wide_fits : (t : ElemTy) → (v : t.Val) → Eventually fun k => (t.wide k).old.Fits ((t.wide k).shown v)
  | .scalar _, _ => ⟨0, fun _ _ => trivial⟩
  | .str cap, v => ⟨List.length (α := Byte) v, fun _ hk => Nat.le_trans hk (Nat.le_max_right _ _)⟩
  | .msg fs os, v => (fs.wide_fits v.1).and (os.wide_fits v.2)
theorem Fields.wide_fits : (fs : Fields) → (v : fs.Val) → Eventually fun k => (fs.wide k).old.Fits ((fs.wide k).shown v)
  | .nil, _ => ⟨0, fun _ _ => trivial⟩
  | .plain _ t rest, v => (t.wide_fits v.1).and (rest.wide_fits v.2)
  | .optional _ t rest, (none, v2) => by
    obtain ⟨n, hn⟩ := rest.wide_fits v2
    exact ⟨n, fun k hk => ⟨fun _ h => (nomatch h), hn k hk⟩⟩
  | .optional _ t rest, (some x, v2) => by
    obtain ⟨n, hn⟩ := (t.wide_fits x).and (rest.wide_fits v2)
    refine ⟨n, fun k hk => ⟨fun y h => ?_, (hn k hk).2⟩⟩
    injection h with h
    exact h ▸ (hn k hk).1
  | .repeated _ cap t rest, (v1, v2) => by
    obtain ⟨n, hn⟩ := (Eventually.all t.wide_fits v1).and (rest.wide_fits v2)
    refine ⟨max n v1.length, fun k hk => ⟨⟨?_, ?_⟩, (hn k (by omega)).2⟩⟩
    · show (v1.map (t.wide k).shown).length ≤ max cap k
      rw [List.length_map]; omega
    · show ∀ x ∈ v1.map (t.wide k).shown, (t.wide k).old.Fits x
      intro x hx
      obtain ⟨y, hy, rfl⟩ := List.mem_map.mp hx
      exact (hn k (by omega)).1 y hy
theorem Alts.wide_fits : (a : Alts) → (v : a.Val) →
    Eventually fun k => ∀ w, (a.wide k).shown v = some w → (a.wide k).old.Fits w
  | .nil, v => nomatch v
  | .cons _ t rest, .inl x => by
    obtain ⟨n, hn⟩ := t.wide_fits x
    refine ⟨n, fun k hk w hw => ?_⟩
    have hw : some (Sum.inl ((t.wide k).shown x) : (t.wide k).old.Val ⊕ (rest.wide k).old.Val) = some w := hw
    injection hw with hw
    subst hw
    exact hn k hk
  | .cons _ t rest, .inr y => by
    obtain ⟨n, hn⟩ := rest.wide_fits y
    refine ⟨n, fun k hk w hw => ?_⟩
    have hw : (((rest.wide k).shown y).map Sum.inr : Option ((t.wide k).old.Val ⊕ (rest.wide k).old.Val)) = some w := hw
    cases hy : (rest.wide k).shown y with
    | none => rw [hy] at hw; exact nomatch hw
    | some z =>
      rw [hy] at hw
      injection hw with hw
      subst hw
      exact hn k hk z hy
theorem Oneofs.wide_fits : (os : Oneofs) → (v : os.Val) → Eventually fun k => (os.wide k).old.Fits ((os.wide k).shown v)
  | .nil, _ => ⟨0, fun _ _ => trivial⟩
  | .cons a rest, (none, v2) => by
    obtain ⟨n, hn⟩ := rest.wide_fits v2
    exact ⟨n, fun k hk => ⟨fun _ h => (nomatch h), hn k hk⟩⟩
  | .cons a rest, (some x, v2) => by
    obtain ⟨n, hn⟩ := (a.wide_fits x).and (rest.wide_fits v2)
    exact ⟨n, fun k hk => ⟨fun y h => (hn k hk).1 y h, (hn k hk).2⟩⟩
end

/-! ## The syntax is the same -/

theorem ElemTy.wide_wire (k : Nat) (t : ElemTy) : (t.wide k).old.wire = t.wire := (t.wide k).wire_eq

mutual
theorem ElemTy.wide_syntax (k : Nat) : (t : ElemTy) → (bs : List Byte) → (t.wide k).old.Syntax bs → t.Syntax bs
  | .scalar _, _, h => h
  | .str _, _, h => h
  | .msg fs os, bs, h => by
    obtain ⟨body, h1, h2⟩ := h
    refine ⟨body, h1, Concat.mono ?_ h2⟩
    rintro bs ⟨num, wt, t, p, g1, g2, g3⟩
    refine ⟨num, wt, t, p, g1, g2, ?_⟩
    rw [fs.wide_numbers, os.wide_numbers] at g3
    exact g3.imp (fs.wide_syntax k num wt p) (Or.imp_left (os.wide_syntax k num wt p))
theorem Fields.wide_syntax (k : Nat) : (fs : Fields) → (num : Nat) → (wt : WireType) → (bs : List Byte) →
    (fs.wide k).old.Syntax num wt bs → fs.Syntax num wt bs
  | .nil, _, _, _, h => h
  | .plain _ t rest, num, wt, bs, h => h.imp
      (fun ⟨h1, h2, h3⟩ => ⟨h1, h2.trans (t.wide_wire k), t.wide_syntax k bs h3⟩) (rest.wide_syntax k num wt bs)
  | .optional _ t rest, num, wt, bs, h => h.imp
      (fun ⟨h1, h2, h3⟩ => ⟨h1, h2.trans (t.wide_wire k), t.wide_syntax k bs h3⟩) (rest.wide_syntax k num wt bs)
  | .repeated _ _ t rest, num, wt, bs, h => by
    rcases h with ⟨h1, h2, h3⟩ | h
    · refine Or.inl ⟨h1, h2, ?_⟩
      by_cases hs : t.isScalar = true
      · rw [if_pos ((t.wide k).isScalar_eq.trans hs)] at h3
        rw [if_pos hs]
        obtain ⟨body, g1, g2⟩ := h3
        exact ⟨body, g1, Concat.mono (t.wide_syntax k) g2⟩
      · rw [if_neg (by rw [(t.wide k).isScalar_eq]; exact hs)] at h3
        rw [if_neg hs]
        exact t.wide_syntax k bs h3
    · exact Or.inr (rest.wide_syntax k num wt bs h)
theorem Alts.wide_syntax (k : Nat) : (a : Alts) → (num : Nat) → (wt : WireType) → (bs : List Byte) →
    (a.wide k).old.Syntax num wt bs → a.Syntax num wt bs
  | .nil, _, _, _, h => h
  | .cons _ t rest, num, wt, bs, h => h.imp
      (fun ⟨h1, h2, h3⟩ => ⟨h1, h2.trans (t.wide_wire k), t.wide_syntax k bs h3⟩) (rest.wide_syntax k num wt bs)
theorem Oneofs.wide_syntax (k : Nat) : (os : Oneofs) → (num : Nat) → (wt : WireType) → (bs : List Byte) →
    (os.wide k).old.Syntax num wt bs → os.Syntax num wt bs
  | .nil, _, _, _, h => h
  | .cons a rest, num, wt, bs, h => h.imp (a.wide_syntax k num wt bs) (rest.wide_syntax k num wt bs)
end

/-! ## Encodings, of any value -/

/-- The effect of an encoding on the older declaration with more room. -/
theorem records_wide {sc : (s : ScalarTy) → s.Val → List Byte} (hsc : Readable sc) {fs : Fields} {os : Oneofs}
    (h : (ElemTy.msg fs os).WF) (f : fs.Older) (o : os.Older) (v : (ElemTy.msg fs os).Val)
    (hl : ((ElemTy.msg fs os).encodeWith sc v).length < 4294967296) :
    ∃ k, Records (f.old.wide k).old (o.old.wide k).old ((ElemTy.msg fs os).encodeWith sc v)
      ((f.old.wide k).old.dflt, (o.old.wide k).old.dflt)
      ((f.old.wide k).shown (f.shown v.1), (o.old.wide k).shown (o.shown v.2)) := by
  obtain ⟨k, hk⟩ := (f.old.wide_fits (f.shown v.1)).and (o.old.wide_fits (o.shown v.2))
  refine ⟨k, ?_⟩
  obtain ⟨k1, k2⟩ := hk k (Nat.le_refl _)
  have key : ∀ (F : Fields) (O : Oneofs) (a : F.Val) (b : O.Val), (f.grow k).old = F → (o.grow k).old = O →
      HEq ((f.grow k).shown v.1) a → HEq ((o.grow k).shown v.2) b → F.Fits a → O.Fits b →
      Records F O ((ElemTy.msg fs os).encodeWith sc v) (F.dflt, O.dflt) (a, b) := by
    intro F O a b e1 e2 e3 e4 e5 e6
    subst e1 e2
    cases e3
    cases e4
    exact records_older hsc h (f.grow k) (o.grow k) v ⟨e5, e6⟩ hl
  exact key _ _ _ _ (f.grow_old k) (o.grow_old k) (f.grow_shown k v.1) (o.grow_shown k v.2) k1 k2

/-- The effect of an encoding on the older declaration, if there is one, is the value it shows. -/
theorem records_exact {sc : (s : ScalarTy) → s.Val → List Byte} (hsc : Readable sc) {fs : Fields} {os : Oneofs}
    (h : (ElemTy.msg fs os).WF) (f : fs.Older) (o : os.Older) (h' : (ElemTy.msg f.old o.old).WF)
    (v : (ElemTy.msg fs os).Val) (hl : ((ElemTy.msg fs os).encodeWith sc v).length < 4294967296)
    {u : f.old.Val × o.old.Val}
    (hr : Records f.old o.old ((ElemTy.msg fs os).encodeWith sc v) (f.old.dflt, o.old.dflt) u) :
    u = (f.shown v.1, o.shown v.2) := by
  obtain ⟨k, hk⟩ := records_wide hsc h f o v hl
  have hr := Records.older h' (f.old.wide k) (o.old.wide k) (f.old.wide_roomy k) (o.old.wide_roomy k) hr
  rw [(f.old.wide k).shown_dflt, (o.old.wide k).shown_dflt] at hr
  have e := Records.unique (fs := (f.old.wide k).old) (os := (o.old.wide k).old)
    (ElemTy.wide_distinct k (.msg f.old o.old) h'.distinct) hr hk
  exact ElemTy.wide_inj k (.msg f.old o.old) u (f.shown v.1, o.shown v.2) e

/-- Encodings of any value are well formed for the older declaration. -/
theorem encode_wellFormed_older {sc : (s : ScalarTy) → s.Val → List Byte} (hsc : Readable sc) {fs : Fields} {os : Oneofs}
    (h : (ElemTy.msg fs os).WF) (f : fs.Older) (o : os.Older) (v : (ElemTy.msg fs os).Val)
    (hl : ((ElemTy.msg fs os).encodeWith sc v).length < 4294967296) :
    WellFormed f.old o.old ((ElemTy.msg fs os).encodeWith sc v) := by
  obtain ⟨k, hk⟩ := records_wide hsc h f o v hl
  have key : ∀ bs (u w : (f.old.wide k).old.Val × (o.old.wide k).old.Val),
      Records (f.old.wide k).old (o.old.wide k).old bs u w → WellFormed f.old o.old bs := by
    intro bs u w hs
    induction hs with
    | nil => exact .nil
    | cons h1 _ ih =>
      refine .cons ?_ ih
      obtain ⟨num, wt, t, p, g1, g2, g3⟩ := h1
      refine ⟨num, wt, t, p, g1, g2, ?_⟩
      rw [f.old.wide_numbers, o.old.wide_numbers] at g3
      rcases g3 with g3 | g3 | g3
      · exact Or.inl (f.old.wide_syntax k _ _ _ (Fields.Record.syntax _ _ _ _ _ _ g3.1))
      · exact Or.inr (Or.inl (o.old.wide_syntax k _ _ _ (Oneofs.Record.syntax _ _ _ _ _ _ g3.1)))
      · exact Or.inr (Or.inr ⟨g3.1, g3.2.1, g3.2.2.1⟩)
  exact key _ _ _ hk

end EP
