import Verif.Spec.Moved
import Verif.Proof.ParseRecords

/-! # Declarations in another order: the reference decoder, sizes -/

namespace EP
open Spec

/-! ## Maps of results -/

theorem Parse.map_map {α β γ : Type} (f : α → β) (g : β → γ) (p : Parse α) : (p.map f).map g = p.map (fun x => g (f x)) := by
  cases p <;> rfl

theorem Parse.map_id {α : Type} (p : Parse α) : (p.map fun x => x) = p := by cases p <;> rfl

theorem optParse_map {α β γ : Type} (f : α → β) (g : β → γ) (p : Option (Parse α)) :
    (p.map (Parse.map f)).map (Parse.map g) = p.map (Parse.map fun x => g (f x)) := by
  cases p with
  | none => rfl
  | some p => exact congrArg some (Parse.map_map f g p)

theorem optParse_id {α : Type} (p : Option (Parse α)) : p.map (Parse.map fun x => x) = p := by
  cases p with
  | none => rfl
  | some p => exact congrArg some (Parse.map_id p)

theorem Parse.map_square {α β β' γ : Type} {f : α → β} {g : β → γ} {f' : α → β'} {g' : β' → γ} (p : Parse α)
    (h : ∀ x, g (f x) = g' (f' x)) : (p.map f).map g = (p.map f').map g' := by
  rw [Parse.map_map, Parse.map_map, funext h]

theorem optParse_square {α β β' γ : Type} {f : α → β} {g : β → γ} {f' : α → β'} {g' : β' → γ} (p : Option (Parse α))
    (h : ∀ x, g (f x) = g' (f' x)) :
    (p.map (Parse.map f)).map (Parse.map g) = (p.map (Parse.map f')).map (Parse.map g') := by
  rw [optParse_map, optParse_map, funext h]

theorem expect_map {α β : Type} (f : α → β) (want wt : WireType) (u : α) (r : Parse α) :
    expect want wt (f u) (r.map f) = (expect want wt u r).map f := by
  unfold expect
  split <;> rfl

theorem window_map {α β : Type} (f : α → β) (clip : Bool) (n : Nat) (bs : List Byte) (p : Bool → List Byte → Parse α)
    (q : Bool → List Byte → Parse β) (h : ∀ c w, q c w = (p c w).map f) :
    window clip n bs q = (window clip n bs p).map f := by
  unfold window
  rw [h]
  cases p (clip || decide (n ≤ bs.length)) (bs.take n) <;> rfl

theorem parseLoop_map {α β : Type} (f : α → β) {p : Nat → WireType → List Byte → α → Parse α}
    {q : Nat → WireType → List Byte → β → Parse β} (h : ∀ num wt bs u, q num wt bs (f u) = (p num wt bs u).map f) :
    ∀ k bs u, parseLoop q k bs (f u) = (parseLoop p k bs u).map f
  | 0, _, _ => rfl
  | k + 1, bs, u => by
    rw [parseLoop, parseLoop]
    split
    · rfl
    · rfl
    · rfl
    · rename_i num wt rest _
      rw [h]
      cases p num wt rest u with
      | ok v r => exact parseLoop_map f h k r v
      | fail e v => rfl
      | overrun => rfl

theorem parseElem_map {α β : Type} (f : α → β) (isMsg : Bool) (p : List Byte → α → Parse α) (q : List Byte → β → Parse β)
    (h : ∀ bs u, q bs (f u) = (p bs u).map f) (bs : List Byte) (u : List α × List α) :
    parseElem isMsg q bs (u.1.map f, u.2.map f) =
      (parseElem isMsg p bs u).map fun y => (y.1.map f, y.2.map f) := by
  obtain ⟨u1, u2⟩ := u
  unfold parseElem
  cases u2 with
  | nil => rfl
  | cons x xs =>
    simp only [List.map_cons]
    have e : (q bs (f x)).map (fun y => (u1.map f ++ [y], xs.map f)) =
        ((p bs x).map fun y => (u1 ++ [y], xs)).map fun y => (y.1.map f, y.2.map f) := by
      rw [h, Parse.map_map, Parse.map_map]
      simp only [List.map_append, List.map_cons, List.map_nil]
    cases isMsg with
    | false => exact e
    | true =>
      cases hr : readLen bs with
      | mk r rest =>
        cases r with
        | error er => rfl
        | ok n => exact e

/-! ## Heads -/

namespace Head

def num : Head → Nat
  | .plain n _ => n
  | .optional n _ => n
  | .repeated n _ _ => n

def ty : Head → ElemTy
  | .plain _ t => t
  | .optional _ t => t
  | .repeated _ _ t => t

def parse : (h : Head) → Bool → WireType → List Byte → h.Held → Parse h.Held
  | .plain _ t, clip, wt, bs, u => expect t.wire wt u (t.parse clip bs u)
  | .optional _ t, clip, wt, bs, u =>
    (expect t.wire wt (Option.getD u t.fresh) (t.parse clip bs (Option.getD u t.fresh))).map some
  | .repeated _ _ t, clip, wt, bs, u => expect .lengthDelimited wt u (t.parseRep clip bs u)

theorem apart_together (h : Head) {r : Fields} (v : h.Val × r.Val) : h.apart (h.together v) = v := by cases h <;> rfl
theorem apartHeld_together (h : Head) {r : Fields} (v : h.Held × r.Held) : h.apartHeld (h.togetherHeld v) = v := by
  cases h <;> rfl

theorem parse_before (h : Head) (r : Fields) (clip : Bool) (num : Nat) (wt : WireType) (bs : List Byte)
    (u : (h.before r).Held) : (h.before r).parse clip num wt bs u =
      if num = h.num then some ((h.parse clip wt bs (h.apartHeld u).1).map fun y => h.togetherHeld (y, (h.apartHeld u).2))
      else (r.parse clip num wt bs (h.apartHeld u).2).map (Parse.map fun v => h.togetherHeld ((h.apartHeld u).1, v)) := by
  cases h with
  | plain n t => rfl
  | optional n t =>
    show (if num = n then some ((expect t.wire wt (Option.getD u.1 t.fresh) (t.parse clip bs (Option.getD u.1 t.fresh))).map
        fun y => (some y, u.2)) else (r.parse clip num wt bs u.2).map (Parse.map fun v => (u.1, v))) =
      if num = n then some (((expect t.wire wt (Option.getD u.1 t.fresh) (t.parse clip bs (Option.getD u.1 t.fresh))).map
        some).map fun y => (y, u.2)) else (r.parse clip num wt bs u.2).map (Parse.map fun v => (u.1, v))
    rw [Parse.map_map]
  | repeated n cap t => exact fields_parse_repeated n cap t r clip num wt bs u

theorem numbers_before (h : Head) (r : Fields) : (h.before r).numbers = h.num :: r.numbers := by cases h <;> rfl
theorem distinct_before (h : Head) (r : Fields) : (h.before r).Distinct ↔ h.ty.Distinct ∧ r.Distinct := by
  cases h <;> exact Iff.rfl

end Head

/-! ## Numbers -/

mutual
theorem Fields.Moved.numbers : {fs gs : Fields} → fs.Moved gs → fs.numbers.Perm gs.numbers
  | _, _, .same _ => .refl _
  | _, _, .plain _ _ r => .cons _ r.numbers
  | _, _, .optional _ _ r => .cons _ r.numbers
  | _, _, .repeated _ _ _ r => .cons _ r.numbers
  | _, _, .swap h k rest => by
    rw [h.numbers_before, k.numbers_before, k.numbers_before, h.numbers_before]
    exact .swap _ _ _
  | _, _, .trans m n => m.numbers.trans n.numbers
theorem Alts.Moved.numbers : {a b : Alts} → a.Moved b → a.numbers.Perm b.numbers
  | _, _, .same _ => .refl _
  | _, _, .cons _ _ r => .cons _ r.numbers
  | _, _, .swap _ _ _ _ _ => .swap _ _ _
  | _, _, .trans m n => m.numbers.trans n.numbers
theorem Oneofs.Moved.numbers : {os ps : Oneofs} → os.Moved ps → os.numbers.Perm ps.numbers
  | _, _, .same _ => .refl _
  | _, _, .cons m r => m.numbers.append r.numbers
  | _, _, .swap a b rest => by
    simp only [Oneofs.numbers, ← List.append_assoc]
    exact (List.perm_append_comm).append_right _
  | _, _, .trans m n => m.numbers.trans n.numbers
end

mutual
theorem ElemTy.Moved.distinct : {s t : ElemTy} → s.Moved t → s.Distinct → t.Distinct
  | _, _, .same _, h => h
  | _, _, .msg f o, h => ⟨f.distinct h.1, o.distinct h.2.1, (f.numbers.append o.numbers).nodup_iff.mp h.2.2⟩
theorem Fields.Moved.distinct : {fs gs : Fields} → fs.Moved gs → fs.Distinct → gs.Distinct
  | _, _, .same _, h => h
  | _, _, .plain _ m r, h => ⟨m.distinct h.1, r.distinct h.2⟩
  | _, _, .optional _ m r, h => ⟨m.distinct h.1, r.distinct h.2⟩
  | _, _, .repeated _ _ m r, h => ⟨m.distinct h.1, r.distinct h.2⟩
  | _, _, .swap h k rest, hd => by
    rw [h.distinct_before, k.distinct_before] at hd
    rw [k.distinct_before, h.distinct_before]
    exact ⟨hd.2.1, hd.1, hd.2.2⟩
  | _, _, .trans m n, h => n.distinct (m.distinct h)
theorem Alts.Moved.distinct : {a b : Alts} → a.Moved b → a.Distinct → b.Distinct
  | _, _, .same _, h => h
  | _, _, .cons _ m r, h => ⟨m.distinct h.1, r.distinct h.2⟩
  | _, _, .swap _ _ _ _ _, h => ⟨h.2.1, h.1, h.2.2⟩
  | _, _, .trans m n, h => n.distinct (m.distinct h)
theorem Oneofs.Moved.distinct : {os ps : Oneofs} → os.Moved ps → os.Distinct → ps.Distinct
  | _, _, .same _, h => h
  | _, _, .cons m r, h => ⟨m.distinct h.1, r.distinct h.2⟩
  | _, _, .swap _ _ _, h => ⟨h.2.1, h.1, h.2.2⟩
  | _, _, .trans m n, h => n.distinct (m.distinct h)
end

mutual
theorem ElemTy.Moved.fresh : {s t : ElemTy} → (m : s.Moved t) → m.held s.fresh = t.fresh
  | _, _, .same _ => rfl
  | _, _, .msg f o => Prod.ext f.fresh o.fresh
theorem Fields.Moved.fresh : {fs gs : Fields} → (m : fs.Moved gs) → m.held fs.fresh = gs.fresh
  | _, _, .same _ => rfl
  | _, _, .plain _ m r => Prod.ext m.fresh r.fresh
  | _, _, .optional _ m r => Prod.ext rfl r.fresh
  | _, _, .repeated _ cap m r => Prod.ext (Prod.ext rfl (by
      show List.map m.held (List.replicate cap _) = List.replicate cap _
      rw [List.map_replicate, m.fresh])) r.fresh
  | _, _, .swap h k rest => by cases h <;> cases k <;> rfl
  | _, _, .trans m n => (congrArg n.held m.fresh).trans n.fresh
theorem Oneofs.Moved.fresh : {os ps : Oneofs} → (m : os.Moved ps) → m.held os.fresh = ps.fresh
  | _, _, .same _ => rfl
  | _, _, .cons m r => Prod.ext rfl r.fresh
  | _, _, .swap _ _ _ => rfl
  | _, _, .trans m n => (congrArg n.held m.fresh).trans n.fresh
end

theorem ElemTy.Moved.wire {s t : ElemTy} (m : s.Moved t) : t.wire = s.wire := by cases m <;> rfl

theorem leftD_map {A B C D : Type} (f : A → C) (g : B → D) (d : A) (u : Option (A ⊕ B)) :
    leftD (f d) (u.map (Sum.map f g)) = f (leftD d u) := by
  match u with
  | none => rfl
  | some (.inl _) => rfl
  | some (.inr _) => rfl

theorem rightOf_map {A B C D : Type} (f : A → C) (g : B → D) (u : Option (A ⊕ B)) :
    rightOf (u.map (Sum.map f g)) = (rightOf u).map g := by
  match u with
  | none => rfl
  | some (.inl _) => rfl
  | some (.inr _) => rfl

theorem leftD_swap {A B C : Type} (d : B) (u : Option (A ⊕ B ⊕ C)) : leftD d (u.map sumSwap) = leftD d (rightOf u) := by
  match u with
  | none => rfl
  | some (.inl _) => rfl
  | some (.inr (.inl _)) => rfl
  | some (.inr (.inr _)) => rfl

theorem leftD_right_swap {A B C : Type} (d : A) (u : Option (A ⊕ B ⊕ C)) :
    leftD d (rightOf (u.map sumSwap)) = leftD d u := by
  match u with
  | none => rfl
  | some (.inl _) => rfl
  | some (.inr (.inl _)) => rfl
  | some (.inr (.inr _)) => rfl

theorem rightOf_swap {A B C : Type} (u : Option (A ⊕ B ⊕ C)) : rightOf (rightOf (u.map sumSwap)) = rightOf (rightOf u) := by
  match u with
  | none => rfl
  | some (.inl _) => rfl
  | some (.inr (.inl _)) => rfl
  | some (.inr (.inr _)) => rfl

/-- A member of a oneof, or the others. -/
def altParse {H G : Type} (n : Nat) (wire : WireType) (p : List Byte → H → Parse H) (d : H)
    (Q : Option G → Option (Parse G)) (num : Nat) (wt : WireType) (bs : List Byte) (u : Option (H ⊕ G)) :
    Option (Parse (H ⊕ G)) :=
  if num = n then some ((expect wire wt (leftD d u) (p bs (leftD d u))).map Sum.inl)
  else (Q (rightOf u)).map (Parse.map Sum.inr)

theorem alts_parse_eq (n : Nat) (t : ElemTy) (a : Alts) (clip : Bool) (num : Nat) (wt : WireType) (bs : List Byte)
    (u : Option (Alts.cons n t a).Held) :
    (Alts.cons n t a).parse clip num wt bs u = altParse n t.wire (t.parse clip) t.fresh (a.parse clip num wt bs) num wt bs u := by
  rw [Alts.parse]
  rfl

theorem altParse_map {H G H' G' : Type} (f : H → H') (g : G → G') {n : Nat} {wire : WireType} {p : List Byte → H → Parse H}
    {q : List Byte → H' → Parse H'} {d : H} {Q : Option G → Option (Parse G)} {R : Option G' → Option (Parse G')} {num : Nat}
    {wt : WireType} {bs : List Byte} (hp : ∀ u, q bs (f u) = (p bs u).map f)
    (hQ : ∀ u, R (Option.map g u) = (Q u).map (Parse.map g)) (u : Option (H ⊕ G)) :
    altParse n wire q (f d) R num wt bs (u.map (Sum.map f g)) =
      (altParse n wire p d Q num wt bs u).map (Parse.map (Sum.map f g)) := by
  unfold altParse
  rw [leftD_map, rightOf_map, hp, hQ, expect_map]
  split
  · exact congrArg some (Parse.map_square _ fun _ => rfl)
  · exact optParse_square _ fun _ => rfl

theorem altParse_swap {H G F : Type} {i j : Nat} {w w' : WireType} {p : List Byte → H → Parse H} {q : List Byte → G → Parse G}
    {d : H} {e : G} {Q : Option F → Option (Parse F)} {num : Nat} {wt : WireType} {bs : List Byte} (hne : i ≠ j)
    (u : Option (H ⊕ G ⊕ F)) :
    altParse j w' q e (altParse i w p d Q num wt bs) num wt bs (u.map sumSwap) =
      (altParse i w p d (altParse j w' q e Q num wt bs) num wt bs u).map (Parse.map sumSwap) := by
  unfold altParse
  rw [leftD_swap, leftD_right_swap, rightOf_swap]
  by_cases h1 : num = j
  · rw [if_pos h1, if_neg (fun e => hne (e.symm.trans h1)), if_pos h1]
    simp only [Option.map_some, Parse.map_map, sumSwap]
  · rw [if_neg h1]
    by_cases h2 : num = i
    · rw [if_pos h2, if_pos h2]
      simp only [Option.map_some, Parse.map_map, sumSwap]
    · rw [if_neg h2, if_neg h2, if_neg h1]
      simp only [optParse_map, sumSwap]

theorem consParse_map {V W V' W' : Type} (f : V → V') (g : W → W')
    {P : Bool → Nat → WireType → List Byte → Option V → Option (Parse V)}
    {Q : Bool → Nat → WireType → List Byte → W → Option (Parse W)}
    {P' : Bool → Nat → WireType → List Byte → Option V' → Option (Parse V')}
    {Q' : Bool → Nat → WireType → List Byte → W' → Option (Parse W')} {c : Bool} {num : Nat} {wt : WireType} {bs : List Byte}
    (hP : ∀ u, P' c num wt bs (Option.map f u) = (P c num wt bs u).map (Parse.map f))
    (hQ : ∀ u, Q' c num wt bs (g u) = (Q c num wt bs u).map (Parse.map g)) (u : Option V × W) :
    consParse P' Q' c num wt bs (u.1.map f, g u.2) =
      (consParse P Q c num wt bs u).map (Parse.map fun u => (u.1.map f, g u.2)) := by
  unfold consParse
  rw [hP, hQ]
  cases P c num wt bs u.1 with
  | none => exact optParse_square _ fun _ => rfl
  | some p => cases p <;> rfl

theorem consParse_swap {V W U : Type} {P : Bool → Nat → WireType → List Byte → Option V → Option (Parse V)}
    {Q : Bool → Nat → WireType → List Byte → Option W → Option (Parse W)}
    {R : Bool → Nat → WireType → List Byte → U → Option (Parse U)} {c : Bool} {num : Nat} {wt : WireType} {bs : List Byte}
    (h : (∀ u, P c num wt bs u = none) ∨ ∀ u, Q c num wt bs u = none) (u : Option V × Option W × U) :
    consParse Q (consParse P R) c num wt bs (u.2.1, u.1, u.2.2) =
      (consParse P (consParse Q R) c num wt bs u).map (Parse.map fun u => (u.2.1, u.1, u.2.2)) := by
  simp only [consParse]
  rcases h with h | h
  · rw [h]
    cases Q c num wt bs u.2.1 with
    | none => simp only [optParse_map]
    | some p => cases p <;> rfl
  · rw [h]
    cases P c num wt bs u.1 with
    | none => simp only [optParse_map]
    | some p => cases p <;> rfl

/-! ## The reference decoder -/

theorem msg_record {fs gs : Fields} {os ps : Oneofs} (f : fs.Moved gs) (o : os.Moved ps)
    {clip : Bool} {num : Nat} {wt : WireType} {bs : List Byte} (u : fs.Held × os.Held)
    (hF : gs.parse clip num wt bs (f.held u.1) = (fs.parse clip num wt bs u.1).map (Parse.map f.held))
    (hO : ps.parse clip num wt bs (o.held u.2) = (os.parse clip num wt bs u.2).map (Parse.map o.held)) :
    parseRecord gs ps clip num wt bs ((ElemTy.Moved.msg f o).held u) =
      (parseRecord fs os clip num wt bs u).map (ElemTy.Moved.msg f o).held := by
  unfold parseRecord
  show (match gs.parse clip num wt bs (f.held u.1) with
    | some r => r.map fun v => (v, o.held u.2)
    | none => match ps.parse clip num wt bs (o.held u.2) with
      | some r => r.map fun v => (f.held u.1, v)
      | none => if num = 0 then .fail .invalidFieldId (f.held u.1, o.held u.2)
        else (skipField clip wt bs).map fun _ => (f.held u.1, o.held u.2)) = _
  rw [hF, hO]
  cases fs.parse clip num wt bs u.1 with
  | some r => exact Parse.map_square _ fun _ => rfl
  | none =>
    cases os.parse clip num wt bs u.2 with
    | some r => exact Parse.map_square _ fun _ => rfl
    | none =>
      simp only [Option.map_none]
      split
      · rfl
      · exact (Parse.map_map (fun _ => u) (ElemTy.Moved.msg f o).held (skipField clip wt bs)).symm

theorem ElemTy.Moved.parseRep {s t : ElemTy} (m : s.Moved t) {clip : Bool}
    (h : ∀ bs u, t.parse clip bs (m.held u) = (s.parse clip bs u).map m.held) (bs : List Byte)
    (u : List s.Held × List s.Held) :
    t.parseRep clip bs (u.1.map m.held, u.2.map m.held) =
      (s.parseRep clip bs u).map fun y => (y.1.map m.held, y.2.map m.held) := by
  cases m with
  | same _ =>
    have e : (fun y : List s.Held × List s.Held => (y.1.map (ElemTy.Moved.same s).held, y.2.map (ElemTy.Moved.same s).held)) =
        fun y => y := by
      funext y
      exact Prod.ext (List.map_id _) (List.map_id _)
    rw [e, Parse.map_id]
    exact congrArg (s.parseRep clip bs) (congrFun e u)
  | msg f o => exact parseElem_map (ElemTy.Moved.msg f o).held true _ _ h bs u

mutual
theorem ElemTy.Moved.parse : {s t : ElemTy} → (m : s.Moved t) → s.Distinct → ∀ clip bs u,
    t.parse clip bs (m.held u) = (s.parse clip bs u).map m.held
  | _, _, .same _, _, _, _, _ => (Parse.map_id _).symm
  | .msg fs os, .msg gs ps, .msg f o, h, clip, bs, u => by
    rw [ElemTy.parse, ElemTy.parse]
    cases readLen bs with
    | mk r rest =>
      cases r with
      | error e => rfl
      | ok n =>
        refine window_map _ clip n rest _ _ fun c w => ?_
        exact parseLoop_map (ElemTy.Moved.msg f o).held (fun num wt bs u => msg_record f o u
          (f.parse h.1 (List.nodup_append.mp h.2.2).1 c num wt bs u.1)
          (o.parse h.2.1 (List.nodup_append.mp h.2.2).2.1 c num wt bs u.2)) _ w u
theorem Fields.Moved.parse : {fs gs : Fields} → (m : fs.Moved gs) → fs.Distinct → fs.numbers.Nodup → ∀ clip num wt bs u,
    gs.parse clip num wt bs (m.held u) = (fs.parse clip num wt bs u).map (Parse.map m.held)
  | _, _, .same _, _, _, _, _, _, _, _ => (optParse_id _).symm
  | .plain _ s fs, .plain _ t gs, .plain n m r, h, hn, clip, num, wt, bs, u => by
    have hr := r.parse h.2 (List.nodup_cons.mp hn).2 clip num wt bs u.2
    have hm := m.parse h.1 clip bs u.1
    rw [Fields.parse, Fields.parse]
    split
    · show some ((expect t.wire wt (m.held u.1) (t.parse clip bs (m.held u.1))).map fun y => (y, r.held u.2)) = _
      rw [hm, m.wire, expect_map]
      exact congrArg some (Parse.map_square _ fun _ => rfl)
    · show (gs.parse clip num wt bs (r.held u.2)).map (Parse.map fun v => (m.held u.1, v)) = _
      rw [hr]
      exact optParse_square _ fun _ => rfl
  | .optional _ s fs, .optional _ t gs, .optional n m r, h, hn, clip, num, wt, bs, u => by
    have hr := r.parse h.2 (List.nodup_cons.mp hn).2 clip num wt bs u.2
    have hm := m.parse h.1 clip bs (u.1.getD s.fresh)
    have e : (u.1.map m.held).getD t.fresh = m.held (u.1.getD s.fresh) := by
      cases u.1 with
      | none => exact m.fresh.symm
      | some x => rfl
    rw [Fields.parse, Fields.parse]
    split
    · show some ((expect t.wire wt ((u.1.map m.held).getD t.fresh) (t.parse clip bs ((u.1.map m.held).getD t.fresh))).map
        fun y => (some y, r.held u.2)) = _
      rw [e, hm, m.wire, expect_map]
      exact congrArg some (Parse.map_square _ fun _ => rfl)
    · show (gs.parse clip num wt bs (r.held u.2)).map (Parse.map fun v => (u.1.map m.held, v)) = _
      rw [hr]
      exact optParse_square _ fun _ => rfl
  | .repeated _ _ s fs, .repeated _ _ t gs, .repeated n c m r, h, hn, clip, num, wt, bs, u => by
    have hr := r.parse h.2 (List.nodup_cons.mp hn).2 clip num wt bs u.2
    have hm := m.parseRep (m.parse h.1 clip) bs u.1
    rw [fields_parse_repeated, fields_parse_repeated]
    split
    · show some ((expect .lengthDelimited wt (u.1.1.map m.held, u.1.2.map m.held)
        (t.parseRep clip bs (u.1.1.map m.held, u.1.2.map m.held))).map fun y => (y, r.held u.2)) = _
      rw [hm, expect_map (fun y : List s.Held × List s.Held => (y.1.map m.held, y.2.map m.held))]
      exact congrArg some (Parse.map_square _ fun _ => rfl)
    · show (gs.parse clip num wt bs (r.held u.2)).map (Parse.map fun v => ((u.1.1.map m.held, u.1.2.map m.held), v)) = _
      rw [hr]
      exact optParse_square _ fun _ => rfl
  | _, _, .swap a b rest, h, hn, clip, num, wt, bs, u => by
    rw [a.numbers_before, b.numbers_before] at hn
    have hne : a.num ≠ b.num := fun e => (List.nodup_cons.mp hn).1 (List.mem_cons.mpr (Or.inl e))
    rw [Fields.Moved.held, b.parse_before, a.parse_before, a.parse_before, b.parse_before]
    simp only [Head.apartHeld_together]
    by_cases h1 : num = b.num
    · rw [if_pos h1, if_neg (fun e => hne (e.symm.trans h1)), if_pos h1]
      simp only [Option.map_some, Parse.map_map, Fields.Moved.held, Head.apartHeld_together]
    · rw [if_neg h1]
      by_cases h2 : num = a.num
      · rw [if_pos h2, if_pos h2]
        simp only [Option.map_some, Parse.map_map, Fields.Moved.held, Head.apartHeld_together]
      · rw [if_neg h2, if_neg h2, if_neg h1]
        simp only [optParse_map, Fields.Moved.held, Head.apartHeld_together]
  | _, _, .trans m n, h, hn, clip, num, wt, bs, u => by
    rw [Fields.Moved.held, n.parse (m.distinct h) (m.numbers.nodup_iff.mp hn), m.parse h hn, optParse_map]
    rfl
theorem Alts.Moved.parse : {a b : Alts} → (m : a.Moved b) → a.Distinct → a.numbers.Nodup → ∀ clip num wt bs u,
    b.parse clip num wt bs (Option.map m.held u) = (a.parse clip num wt bs u).map (Parse.map m.held)
  | a, _, .same _, _, _, clip, num, wt, bs, u => by
    have e : (Alts.Moved.same a).held = fun x => x := by funext x; rfl
    rw [e, Option.map_id', optParse_id]
  | .cons _ s a, .cons _ t b, .cons n m r, h, hn, clip, num, wt, bs, u => by
    rw [alts_parse_eq, alts_parse_eq, m.wire, ← m.fresh]
    exact altParse_map m.held r.held (m.parse h.1 clip bs)
      (r.parse h.2 (List.nodup_cons.mp hn).2 clip num wt bs) u
  | _, _, .swap i s j t rest, h, hn, clip, num, wt, bs, u => by
    have hne : i ≠ j := fun e => (List.nodup_cons.mp hn).1 (List.mem_cons.mpr (Or.inl e))
    have e1 : (Alts.cons i s rest).parse clip num wt bs = altParse i s.wire (s.parse clip) s.fresh (rest.parse clip num wt bs) num wt bs :=
      funext (alts_parse_eq i s rest clip num wt bs)
    have e2 : (Alts.cons j t rest).parse clip num wt bs = altParse j t.wire (t.parse clip) t.fresh (rest.parse clip num wt bs) num wt bs :=
      funext (alts_parse_eq j t rest clip num wt bs)
    rw [alts_parse_eq, alts_parse_eq, e1, e2]
    exact altParse_swap hne u
  | _, _, .trans m n, h, hn, clip, num, wt, bs, u => by
    have e : (Alts.Moved.trans m n).held = fun x => n.held (m.held x) := by funext x; rfl
    have e1 : Option.map (fun x => n.held (m.held x)) u = (u.map m.held).map n.held := by cases u <;> rfl
    rw [e, e1, n.parse (m.distinct h) (m.numbers.nodup_iff.mp hn), m.parse h hn, optParse_map]
theorem Oneofs.Moved.parse : {os ps : Oneofs} → (m : os.Moved ps) → os.Distinct → os.numbers.Nodup → ∀ clip num wt bs u,
    ps.parse clip num wt bs (m.held u) = (os.parse clip num wt bs u).map (Parse.map m.held)
  | _, _, .same _, _, _, _, _, _, _, _ => (optParse_id _).symm
  | .cons a os, .cons b ps, .cons m r, h, hn, clip, num, wt, bs, u => by
    rw [oneofs_parse_eq, oneofs_parse_eq]
    exact consParse_map m.held r.held (m.parse h.1 (List.nodup_append.mp hn).1 clip num wt bs)
      (r.parse h.2 (List.nodup_append.mp hn).2.1 clip num wt bs) u
  | _, _, .swap a b rest, h, hn, clip, num, wt, bs, u => by
    have hn : (a.numbers ++ (b.numbers ++ rest.numbers)).Nodup := hn
    have hx : num ∈ a.numbers → num ∉ b.numbers := fun h1 h2 =>
      (List.nodup_append.mp hn).2.2 num h1 num (List.mem_append_left _ h2) rfl
    rw [oneofs_parse_eq, oneofs_parse_eq, oneofs_parse_eq, oneofs_parse_eq]
    refine consParse_swap ?_ u
    by_cases h1 : num ∈ a.numbers
    · exact Or.inr fun u => Alts.parse_none b clip num wt bs u (hx h1)
    · exact Or.inl fun u => Alts.parse_none a clip num wt bs u h1
  | _, _, .trans m n, h, hn, clip, num, wt, bs, u => by
    rw [Oneofs.Moved.held, n.parse (m.distinct h) (m.numbers.nodup_iff.mp hn), m.parse h hn, optParse_map]
    rfl
end


/-- **The reference decoder does not depend on the order of the declarations.** -/
theorem parseMessage_moved {fs gs : Fields} {os ps : Oneofs} (f : fs.Moved gs) (o : os.Moved ps)
    (h : (ElemTy.msg fs os).Distinct) (clip : Bool) (bs : List Byte) (u : (ElemTy.msg fs os).Held) :
    parseMessage gs ps clip bs ((ElemTy.Moved.msg f o).held u) =
      (parseMessage fs os clip bs u).map (ElemTy.Moved.msg f o).held :=
  parseLoop_map (ElemTy.Moved.msg f o).held (fun num wt bs u => msg_record f o u
    (f.parse h.1 (List.nodup_append.mp h.2.2).1 clip num wt bs u.1)
    (o.parse h.2.1 (List.nodup_append.mp h.2.2).2.1 clip num wt bs u.2)) _ bs u

/-! ## Values -/

theorem optMap_eq {A B C D : Type} {f : A → B} {g : B → D} {f' : A → C} {g' : C → D} (u : Option A)
    (h : ∀ x, g (f x) = g' (f' x)) : (u.map f).map g = (u.map f').map g' := by
  cases u with
  | none => rfl
  | some x => exact congrArg some (h x)

theorem listMap_eq {A B C D : Type} {f : A → B} {g : B → D} {f' : A → C} {g' : C → D} (u : List A)
    (h : ∀ x, g (f x) = g' (f' x)) : (u.map f).map g = (u.map f').map g' := by
  rw [List.map_map, List.map_map]
  exact List.map_congr_left fun x _ => h x

mutual
theorem ElemTy.Moved.seen : {s t : ElemTy} → (m : s.Moved t) → ∀ u, t.seen (m.held u) = m.val (s.seen u)
  | _, _, .same _, _ => rfl
  | .msg _ _, .msg _ _, .msg f o, u => Prod.ext (f.seen u.1) (o.seen u.2)
theorem Fields.Moved.seen : {fs gs : Fields} → (m : fs.Moved gs) → ∀ u, gs.seen (m.held u) = m.val (fs.seen u)
  | _, _, .same _, _ => rfl
  | .plain _ _ _, .plain _ _ _, .plain _ m r, u => Prod.ext (m.seen u.1) (r.seen u.2)
  | .optional _ _ _, .optional _ _ _, .optional _ m r, u => Prod.ext (optMap_eq u.1 m.seen) (r.seen u.2)
  | .repeated _ _ _ _, .repeated _ _ _ _, .repeated _ _ m r, u => Prod.ext (listMap_eq u.1.1 m.seen) (r.seen u.2)
  | _, _, .swap h k rest, u => by cases h <;> cases k <;> rfl
  | _, _, .trans m n, u => (n.seen _).trans (congrArg n.val (m.seen u))
theorem Alts.Moved.seen : {a b : Alts} → (m : a.Moved b) → ∀ u, b.seen (m.held u) = m.val (a.seen u)
  | _, _, .same _, _ => rfl
  | .cons _ _ _, .cons _ _ _, .cons _ m _, .inl x => congrArg Sum.inl (m.seen x)
  | .cons _ _ _, .cons _ _ _, .cons _ _ r, .inr y => congrArg Sum.inr (r.seen y)
  | _, _, .swap _ _ _ _ _, .inl _ => rfl
  | _, _, .swap _ _ _ _ _, .inr (.inl _) => rfl
  | _, _, .swap _ _ _ _ _, .inr (.inr _) => rfl
  | _, _, .trans m n, u => (n.seen _).trans (congrArg n.val (m.seen u))
theorem Oneofs.Moved.seen : {os ps : Oneofs} → (m : os.Moved ps) → ∀ u, ps.seen (m.held u) = m.val (os.seen u)
  | _, _, .same _, _ => rfl
  | .cons _ _, .cons _ _, .cons m r, u => Prod.ext (optMap_eq u.1 m.seen) (r.seen u.2)
  | _, _, .swap _ _ _, _ => rfl
  | _, _, .trans m n, u => (n.seen _).trans (congrArg n.val (m.seen u))
end

mutual
theorem ElemTy.Moved.back_val : {s t : ElemTy} → (m : s.Moved t) → ∀ v, m.back.val (m.val v) = v
  | _, _, .same _, _ => rfl
  | .msg _ _, .msg _ _, .msg f o, v => Prod.ext (f.back_val v.1) (o.back_val v.2)
theorem Fields.Moved.back_val : {fs gs : Fields} → (m : fs.Moved gs) → ∀ v, m.back.val (m.val v) = v
  | _, _, .same _, _ => rfl
  | .plain _ _ _, .plain _ _ _, .plain _ m r, v => Prod.ext (m.back_val v.1) (r.back_val v.2)
  | .optional _ _ _, .optional _ _ _, .optional _ m r, v => Prod.ext (by
      show (v.1.map m.val).map m.back.val = v.1
      cases v.1 with
      | none => rfl
      | some x => exact congrArg some (m.back_val x)) (r.back_val v.2)
  | .repeated _ _ _ _, .repeated _ _ _ _, .repeated _ _ m r, v => Prod.ext (by
      show (v.1.map m.val).map m.back.val = v.1
      rw [List.map_map]
      exact (List.map_congr_left fun x _ => m.back_val x).trans (List.map_id _)) (r.back_val v.2)
  | _, _, .swap h k rest, v => by cases h <;> cases k <;> rfl
  | _, _, .trans m n, v => (congrArg m.back.val (n.back_val _)).trans (m.back_val v)
theorem Alts.Moved.back_val : {a b : Alts} → (m : a.Moved b) → ∀ v, m.back.val (m.val v) = v
  | _, _, .same _, _ => rfl
  | .cons _ _ _, .cons _ _ _, .cons _ m _, .inl x => congrArg Sum.inl (m.back_val x)
  | .cons _ _ _, .cons _ _ _, .cons _ _ r, .inr y => congrArg Sum.inr (r.back_val y)
  | _, _, .swap _ _ _ _ _, .inl _ => rfl
  | _, _, .swap _ _ _ _ _, .inr (.inl _) => rfl
  | _, _, .swap _ _ _ _ _, .inr (.inr _) => rfl
  | _, _, .trans m n, v => (congrArg m.back.val (n.back_val _)).trans (m.back_val v)
theorem Oneofs.Moved.back_val : {os ps : Oneofs} → (m : os.Moved ps) → ∀ v, m.back.val (m.val v) = v
  | _, _, .same _, _ => rfl
  | .cons _ _, .cons _ _, .cons m r, v => Prod.ext (by
      show (v.1.map m.val).map m.back.val = v.1
      cases v.1 with
      | none => rfl
      | some x => exact congrArg some (m.back_val x)) (r.back_val v.2)
  | _, _, .swap _ _ _, _ => rfl
  | _, _, .trans m n, v => (congrArg m.back.val (n.back_val _)).trans (m.back_val v)
end

mutual
theorem ElemTy.Moved.fits : {s t : ElemTy} → (m : s.Moved t) → ∀ v, s.Fits v → t.Fits (m.val v)
  | _, _, .same _, _, h => h
  | .msg _ _, .msg _ _, .msg f o, v, h => ⟨f.fits v.1 h.1, o.fits v.2 h.2⟩
theorem Fields.Moved.fits : {fs gs : Fields} → (m : fs.Moved gs) → ∀ v, fs.Fits v → gs.Fits (m.val v)
  | _, _, .same _, _, h => h
  | .plain _ _ _, .plain _ _ _, .plain _ m r, v, h => ⟨m.fits v.1 h.1, r.fits v.2 h.2⟩
  | .optional _ _ _, .optional _ _ _, .optional _ m r, v, h => ⟨fun x hx => by
      obtain ⟨y, hy, e⟩ := Option.map_eq_some_iff.mp hx
      exact e ▸ m.fits y (h.1 y hy), r.fits v.2 h.2⟩
  | .repeated _ cap s _, .repeated _ _ t _, .repeated _ _ m r, v, h => by
      refine ⟨⟨?_, fun x hx => ?_⟩, r.fits v.2 h.2⟩
      · show (v.1.map m.val).length ≤ cap
        rw [List.length_map]
        exact h.1.1
      · have hx : x ∈ v.1.map m.val := hx
        obtain ⟨y, hy, e⟩ := List.mem_map.mp hx
        exact e ▸ m.fits y (h.1.2 y hy)
  | _, _, .swap a b rest, v, h => by
      cases a <;> cases b <;> exact ⟨h.2.1, h.1, h.2.2⟩
  | _, _, .trans m n, v, h => n.fits _ (m.fits v h)
theorem Alts.Moved.fits : {a b : Alts} → (m : a.Moved b) → ∀ v, a.Fits v → b.Fits (m.val v)
  | _, _, .same _, _, h => h
  | .cons _ _ _, .cons _ _ _, .cons _ m _, .inl x, h => m.fits x h
  | .cons _ _ _, .cons _ _ _, .cons _ _ r, .inr y, h => r.fits y h
  | _, _, .swap _ _ _ _ _, .inl _, h => h
  | _, _, .swap _ _ _ _ _, .inr (.inl _), h => h
  | _, _, .swap _ _ _ _ _, .inr (.inr _), h => h
  | _, _, .trans m n, v, h => n.fits _ (m.fits v h)
theorem Oneofs.Moved.fits : {os ps : Oneofs} → (m : os.Moved ps) → ∀ v, os.Fits v → ps.Fits (m.val v)
  | _, _, .same _, _, h => h
  | .cons _ _, .cons _ _, .cons m r, v, h => ⟨fun x hx => by
      obtain ⟨y, hy, e⟩ := Option.map_eq_some_iff.mp hx
      exact e ▸ m.fits y (h.1 y hy), r.fits v.2 h.2⟩
  | _, _, .swap _ _ _, _, h => ⟨h.2.1, h.1, h.2.2⟩
  | _, _, .trans m n, v, h => n.fits _ (m.fits v h)
end

mutual
theorem ElemTy.Moved.isDflt : {s t : ElemTy} → (m : s.Moved t) → ∀ v, t.isDflt (m.val v) = s.isDflt v
  | _, _, .same _, _ => rfl
  | .msg fs os, .msg gs ps, .msg f o, v => by
    show (gs.isDflt (f.val v.1) && ps.isDflt (o.val v.2)) = (fs.isDflt v.1 && os.isDflt v.2)
    rw [f.isDflt, o.isDflt]
theorem Fields.Moved.isDflt : {fs gs : Fields} → (m : fs.Moved gs) → ∀ v, gs.isDflt (m.val v) = fs.isDflt v
  | _, _, .same _, _ => rfl
  | .plain _ s fs, .plain _ t gs, .plain _ m r, v => by
    show (t.isDflt (m.val v.1) && gs.isDflt (r.val v.2)) = (s.isDflt v.1 && fs.isDflt v.2)
    rw [m.isDflt, r.isDflt]
  | .optional _ s fs, .optional _ t gs, .optional _ m r, v => by
    show ((v.1.map m.val).isNone && gs.isDflt (r.val v.2)) = (v.1.isNone && fs.isDflt v.2)
    rw [Option.isNone_map, r.isDflt]
  | .repeated _ _ s fs, .repeated _ _ t gs, .repeated _ _ m r, v => by
    show ((v.1.map m.val).isEmpty && gs.isDflt (r.val v.2)) = (v.1.isEmpty && fs.isDflt v.2)
    rw [List.isEmpty_map, r.isDflt]
  | _, _, .swap a b rest, v => by
    cases a <;> cases b <;> exact (Bool.and_left_comm _ _ _)
  | _, _, .trans m n, v => (n.isDflt _).trans (m.isDflt v)
theorem Oneofs.Moved.isDflt : {os ps : Oneofs} → (m : os.Moved ps) → ∀ v, ps.isDflt (m.val v) = os.isDflt v
  | _, _, .same _, _ => rfl
  | .cons a os, .cons b ps, .cons m r, v => by
    show ((v.1.map m.val).isNone && ps.isDflt (r.val v.2)) = (v.1.isNone && os.isDflt v.2)
    rw [Option.isNone_map, r.isDflt]
  | _, _, .swap _ _ _, _ => Bool.and_left_comm _ _ _
  | _, _, .trans m n, v => (n.isDflt _).trans (m.isDflt v)
end

theorem wrap_length {t s : ElemTy} (m : s.Moved t) {p q : List Byte} (h : p.length = q.length) :
    (t.wrap p).length = (s.wrap q).length := by
  have e : (lenDelim p).length = (lenDelim q).length := by
    rw [lenDelim, lenDelim, List.length_append, List.length_append, h]
  cases m with
  | same t => cases t <;> first | exact h | exact e
  | msg f o => exact e

theorem ElemTy.Moved.scalar {s t : ElemTy} (m : s.Moved t) : t.isScalar = s.isScalar := by cases m <;> rfl

theorem repeated_length {s t : ElemTy} (m : s.Moved t) (num : Nat) {es fs : List (List Byte)}
    (h : es.map List.length = fs.map List.length) : (encodeRepeated t num es).length = (encodeRepeated s num fs).length := by
  have hd : ∀ {p q : List Byte}, p.length = q.length → (lenDelim p).length = (lenDelim q).length := fun h => by
    rw [lenDelim, lenDelim, List.length_append, List.length_append, h]
  have hf : ∀ {es fs : List (List Byte)}, es.map List.length = fs.map List.length → es.flatten.length = fs.flatten.length :=
    fun h => by rw [List.length_flatten, List.length_flatten, h]
  unfold encodeRepeated
  rw [m.scalar]
  have he : es.isEmpty = fs.isEmpty := by
    rw [← List.isEmpty_map (f := List.length), h, List.isEmpty_map]
  split
  · rw [he]
    split
    · rfl
    · rw [List.length_append, List.length_append, hd (hf h)]
  · refine hf ?_
    clear he
    induction es generalizing fs with
    | nil =>
      cases fs with
      | nil => rfl
      | cons _ _ => exact nomatch h
    | cons e es ih =>
      cases fs with
      | nil => exact nomatch h
      | cons f fs =>
        simp only [List.map_cons, List.cons.injEq] at h ⊢
        exact ⟨by rw [List.length_append, List.length_append, hd h.1], ih h.2⟩

section
variable (sc : (s : ScalarTy) → s.Val → List Byte)

mutual
theorem ElemTy.Moved.size : {s t : ElemTy} → (m : s.Moved t) → ∀ v, (t.encodeWith sc (m.val v)).length = (s.encodeWith sc v).length
  | _, _, .same _, _ => rfl
  | .msg fs os, .msg gs ps, .msg f o, v => by
    show (gs.encodeWith sc (f.val v.1) ++ ps.encodeWith sc (o.val v.2)).length = (fs.encodeWith sc v.1 ++ os.encodeWith sc v.2).length
    rw [List.length_append, List.length_append, f.size, o.size]
theorem Fields.Moved.size : {fs gs : Fields} → (m : fs.Moved gs) → ∀ v,
    (gs.encodeWith sc (m.val v)).length = (fs.encodeWith sc v).length
  | _, _, .same _, _ => rfl
  | .plain _ s fs, .plain _ t gs, .plain n m r, v => by
    show ((if t.isDflt (m.val v.1) then [] else tag n t.wire ++ t.wrap (t.encodeWith sc (m.val v.1))) ++
      gs.encodeWith sc (r.val v.2)).length =
      ((if s.isDflt v.1 then [] else tag n s.wire ++ s.wrap (s.encodeWith sc v.1)) ++ fs.encodeWith sc v.2).length
    rw [List.length_append, List.length_append, r.size, m.isDflt, m.wire]
    split
    · rfl
    · rw [List.length_append, List.length_append, wrap_length m (m.size v.1)]
  | .optional _ s fs, .optional _ t gs, .optional n m r, v => by
    show ((match v.1.map m.val with | none => [] | some x => tag n t.wire ++ t.wrap (t.encodeWith sc x)) ++
      gs.encodeWith sc (r.val v.2)).length =
      ((match v.1 with | none => [] | some x => tag n s.wire ++ s.wrap (s.encodeWith sc x)) ++ fs.encodeWith sc v.2).length
    rw [List.length_append, List.length_append, r.size, m.wire]
    cases v.1 with
    | none => rfl
    | some x =>
      dsimp only [Option.map_some]
      rw [List.length_append, List.length_append, wrap_length m (m.size x)]
  | .repeated _ _ s fs, .repeated _ _ t gs, .repeated n _ m r, v => by
    show (encodeRepeated t n ((v.1.map m.val).map (t.encodeWith sc)) ++ gs.encodeWith sc (r.val v.2)).length =
      (encodeRepeated s n (v.1.map (s.encodeWith sc)) ++ fs.encodeWith sc v.2).length
    rw [List.length_append, List.length_append, r.size, repeated_length m (fs := v.1.map (s.encodeWith sc))]
    simp only [List.map_map]
    exact List.map_congr_left fun x _ => m.size x
  | _, _, .swap a b rest, v => by
    have key : ∀ (p q r : List Byte), (p ++ (q ++ r)).length = (q ++ (p ++ r)).length := fun p q r => by
      simp only [List.length_append]
      omega
    cases a <;> cases b <;> exact key _ _ _
  | _, _, .trans m n, v => (n.size _).trans (m.size v)
theorem Alts.Moved.size : {a b : Alts} → (m : a.Moved b) → ∀ v, (b.encodeWith sc (m.val v)).length = (a.encodeWith sc v).length
  | _, _, .same _, _ => rfl
  | .cons _ s _, .cons _ t _, .cons n m _, .inl x => by
    show (tag n t.wire ++ t.wrap (t.encodeWith sc (m.val x))).length = (tag n s.wire ++ s.wrap (s.encodeWith sc x)).length
    rw [List.length_append, List.length_append, m.wire, wrap_length m (m.size x)]
  | .cons _ _ _, .cons _ _ _, .cons _ _ r, .inr y => r.size y
  | _, _, .swap _ _ _ _ _, .inl _ => rfl
  | _, _, .swap _ _ _ _ _, .inr (.inl _) => rfl
  | _, _, .swap _ _ _ _ _, .inr (.inr _) => rfl
  | _, _, .trans m n, v => (n.size _).trans (m.size v)
theorem Oneofs.Moved.size : {os ps : Oneofs} → (m : os.Moved ps) → ∀ v,
    (ps.encodeWith sc (m.val v)).length = (os.encodeWith sc v).length
  | _, _, .same _, _ => rfl
  | .cons a os, .cons b ps, .cons m r, v => by
    show ((match v.1.map m.val with | none => [] | some x => b.encodeWith sc x) ++ ps.encodeWith sc (r.val v.2)).length =
      ((match v.1 with | none => [] | some x => a.encodeWith sc x) ++ os.encodeWith sc v.2).length
    rw [List.length_append, List.length_append, r.size]
    cases v.1 with
    | none => rfl
    | some x =>
      dsimp only [Option.map_some]
      rw [m.size x]
  | _, _, .swap a b rest, v => by
    have key : ∀ (p q r : List Byte), (p ++ (q ++ r)).length = (q ++ (p ++ r)).length := fun p q r => by
      simp only [List.length_append]
      omega
    exact key _ _ _
  | _, _, .trans m n, v => (n.size _).trans (m.size v)
end

end

theorem ElemTy.Moved.dropNegZero {s t : ElemTy} (m : s.Moved t) (v : s.Val) :
    t.dropNegZero (m.val v) = m.val (s.dropNegZero v) := by
  cases m <;> rfl

mutual
theorem ElemTy.Moved.canon : {s t : ElemTy} → (m : s.Moved t) → ∀ v, t.canon (m.val v) = m.val (s.canon v)
  | _, _, .same _, _ => rfl
  | .msg _ _, .msg _ _, .msg f o, v => Prod.ext (f.canon v.1) (o.canon v.2)
theorem Fields.Moved.canon : {fs gs : Fields} → (m : fs.Moved gs) → ∀ v, gs.canon (m.val v) = m.val (fs.canon v)
  | _, _, .same _, _ => rfl
  | .plain _ s _, .plain _ t _, .plain _ m r, v => Prod.ext (by
      show t.dropNegZero (t.canon (m.val v.1)) = m.val (s.dropNegZero (s.canon v.1))
      rw [m.canon, m.dropNegZero]) (r.canon v.2)
  | .optional _ _ _, .optional _ _ _, .optional _ m r, v => Prod.ext (optMap_eq v.1 m.canon) (r.canon v.2)
  | .repeated _ _ _ _, .repeated _ _ _ _, .repeated _ _ m r, v => Prod.ext (listMap_eq v.1 m.canon) (r.canon v.2)
  | _, _, .swap h k rest, v => by cases h <;> cases k <;> rfl
  | _, _, .trans m n, v => (n.canon _).trans (congrArg n.val (m.canon v))
theorem Alts.Moved.canon : {a b : Alts} → (m : a.Moved b) → ∀ v, b.canon (m.val v) = m.val (a.canon v)
  | _, _, .same _, _ => rfl
  | .cons _ _ _, .cons _ _ _, .cons _ m _, .inl x => congrArg Sum.inl (m.canon x)
  | .cons _ _ _, .cons _ _ _, .cons _ _ r, .inr y => congrArg Sum.inr (r.canon y)
  | _, _, .swap _ _ _ _ _, .inl _ => rfl
  | _, _, .swap _ _ _ _ _, .inr (.inl _) => rfl
  | _, _, .swap _ _ _ _ _, .inr (.inr _) => rfl
  | _, _, .trans m n, v => (n.canon _).trans (congrArg n.val (m.canon v))
theorem Oneofs.Moved.canon : {os ps : Oneofs} → (m : os.Moved ps) → ∀ v, ps.canon (m.val v) = m.val (os.canon v)
  | _, _, .same _, _ => rfl
  | .cons _ _, .cons _ _, .cons m r, v => Prod.ext (optMap_eq v.1 m.canon) (r.canon v.2)
  | _, _, .swap _ _ _, _ => rfl
  | _, _, .trans m n, v => (n.canon _).trans (congrArg n.val (m.canon v))
end

mutual
theorem ElemTy.Moved.wf : {s t : ElemTy} → s.Moved t → s.WF → t.WF
  | _, _, .same _, h => h
  | .msg fs os, .msg gs ps, .msg f o, h => by
    simp only [ElemTy.WF] at h ⊢
    have hp := f.numbers.append o.numbers
    exact ⟨f.wf h.1, o.wf h.2.1, hp.nodup_iff.mp h.2.2.1, fun n hn => h.2.2.2 n (hp.mem_iff.mpr hn)⟩
theorem Fields.Moved.wf : {fs gs : Fields} → fs.Moved gs → fs.WF → gs.WF
  | _, _, .same _, h => h
  | _, _, .plain _ m r, h => ⟨m.wf h.1, r.wf h.2⟩
  | _, _, .optional _ m r, h => ⟨m.wf h.1, r.wf h.2⟩
  | _, _, .repeated _ _ m r, h => ⟨h.1, m.wf h.2.1, r.wf h.2.2⟩
  | _, _, .swap a b rest, h => by
    cases a <;> cases b <;> (simp only [Head.before, Fields.WF] at h ⊢; simp only [h, and_self])
  | _, _, .trans m n, h => n.wf (m.wf h)
theorem Alts.Moved.wf : {a b : Alts} → a.Moved b → a.WF → b.WF
  | _, _, .same _, h => h
  | _, _, .cons _ m r, h => ⟨m.wf h.1, r.wf h.2⟩
  | _, _, .swap _ _ _ _ _, h => ⟨h.2.1, h.1, h.2.2⟩
  | _, _, .trans m n, h => n.wf (m.wf h)
theorem Oneofs.Moved.wf : {os ps : Oneofs} → os.Moved ps → os.WF → ps.WF
  | _, _, .same _, h => h
  | _, _, .cons m r, h => ⟨m.wf h.1, r.wf h.2⟩
  | _, _, .swap _ _ _, h => ⟨h.2.1, h.1, h.2.2⟩
  | _, _, .trans m n, h => n.wf (m.wf h)
end

end EP
