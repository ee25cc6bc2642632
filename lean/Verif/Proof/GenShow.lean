import Verif.Model.GenShow
import Verif.Proof.GenRefine
import Verif.Proof.GenAccess
import Verif.Proof.Text

/-!
# `to_string` of the generated class
-/

namespace EP

theorem ElemTy.toString_msg (P : Printer) (fs : Fields) (os : Oneofs) (path : List Nat) (x : (ElemTy.msg fs os).cls.State)
    (v : TextView) (indent : Nat) (name : Option (List Byte)) (first : Bool) :
    (ElemTy.msg fs os).toString P path x v indent name first = (do
      let v ← v.printComma first
      let v ← (match name with
        | some n =>
          if indent = 0 then v.print (ascii "\"" ++ n ++ ascii "\": {\n")
          else v.print (padding indent ++ ascii "\"" ++ n ++ ascii "\": {\n")
        | none =>
          if indent = 0 then v.print (ascii "{\n") else v.print (padding indent ++ ascii "{\n"))
      let v ← fs.toString P 0 path (MsgObj.fields x) v (indent + 2) true
      let v ← os.toString P path (MsgObj.oneofs x) v (indent + 2) (fs.numbers.length == 0)
      if indent = 0 then v.print (ascii "\n}") else v.print (ascii "\n" ++ padding indent ++ ascii "}")) := by
  rw [ElemTy.toString]
  rfl

theorem Alts.toString_zero (P : Printer) : (a : Alts) → (path : List Nat) → (which : Nat) → which ∉ a.numbers →
    ∀ (u : Option a.cls.U) (v : TextView) (indent : Nat) (first : Bool), a.toString P path which u v indent first = .ok v
  | .nil, _, _, _, _, _, _, _ => rfl
  | .cons num t rest, path, which, h, u, v, indent, first => by
    have h : which ≠ num ∧ which ∉ rest.numbers := by
      have h : which ∉ num :: rest.numbers := h
      rwa [List.mem_cons, not_or] at h
    exact (if_neg h.1).trans (rest.toString_zero P path which h.2 _ v indent first)

theorem Member.toString (P : Printer) {a : Alts} {num : Nat} {t : ElemTy} (m : Member a num t) (hn : a.numbers.Nodup)
    (path : List Nat) (y : t.cls.State) (v : TextView) (indent : Nat) (first : Bool) :
    a.toString P path num (some (m.injState y)) v indent first =
      t.toString P (num :: path) y v indent (some (P.name (num :: path))) first := by
  induction m with
  | here num t rest => exact if_pos rfl
  | after num' t' m ih =>
    have hn := List.nodup_cons.mp hn
    refine (if_neg ?_).trans (ih hn.2 y)
    rintro rfl
    exact hn.1 m.mem

namespace Gen

variable {E : Types} {name : Str} {m : GMessage} {nested : List Str}

section
variable (P : Printer) (path : List Nat) (indent : Nat)

/-- The fields one after the other. -/
def foldShow {fs : Fields} (idx : Nat) (x : (fs.cls idx).State) : Bool → List (GField × Option (ASlot fs)) → TextView →
    Res TextView
  | _, [], v => .ok v
  | _, (_, none) :: l, v => foldShow idx x false l v
  | b, (_, some s) :: l, v =>
    memberToString P (s.num :: path) s.c s.t (s.slot.state idx x) v indent (P.name (s.num :: path)) b >>= fun v =>
      foldShow idx x false l v

theorem foldShow_map {fs fs' : Fields} {idx idx' : Nat} (x : (fs.cls idx).State) (x' : (fs'.cls idx').State)
    (f : ASlot fs → ASlot fs')
    (hf : ∀ s v b, memberToString P ((f s).num :: path) (f s).c (f s).t ((f s).slot.state idx' x') v indent
        (P.name ((f s).num :: path)) b =
      memberToString P (s.num :: path) s.c s.t (s.slot.state idx x) v indent (P.name (s.num :: path)) b) :
    ∀ (l : List (GField × Option (ASlot fs))) (b : Bool) (v : TextView),
      foldShow P path indent idx' x' b (l.map fun e => (e.1, e.2.map f)) v = foldShow P path indent idx x b l v
  | [], _, _ => rfl
  | (_, none) :: l, _, v => foldShow_map x x' f hf l false v
  | (_, some s) :: l, b, v => by
    show (memberToString P _ _ _ _ v indent _ b >>= _ : Res _) = (memberToString P _ _ _ _ v indent _ b >>= _ : Res _)
    rw [hf s v b]
    congr 1
    funext v
    exact foldShow_map x x' f hf l false v

/-- Is the first field one that is left out? -/
def leadsRecursive : List GField → Bool
  | [] => false
  | g :: _ => g.shape == .recursive

theorem foldShow_entries : ∀ (gs : List GField) (idx : Nat) (x : ((classFields E gs).cls idx).State) (b : Bool) (v : TextView),
    foldShow P path indent idx x b (entries E gs) v =
      (classFields E gs).toString P idx path x v indent (b && !leadsRecursive gs)
  | [], _, _, _, _ => rfl
  | ⟨d, .recursive, o⟩ :: gs, idx, x, b, v => by
    refine (foldShow_entries gs idx x false v).trans ?_
    show _ = (classFields E gs).toString P idx path x v indent (b && !true)
    rw [Bool.false_and, Bool.not_true, Bool.and_false]
  | ⟨d, .repeated, o⟩ :: gs, idx, x, b, v => by
    unfold entries
    show (RepObj.toString _ _ x.1 v indent _ b >>= _ : Res _) = (RepObj.toString _ _ x.1 v indent _ (b && true) >>= _ : Res _)
    rw [Bool.and_true]
    refine congrArg _ (funext fun v => ?_)
    rw [foldShow_map P path indent (fs := classFields E gs) (idx := idx) x.2 x _ (fun _ _ _ => rfl)]
    exact foldShow_entries gs idx x.2 false v
  | ⟨⟨n, k, r, t, tn, i, true, l⟩, .single, o⟩ :: gs, idx, x, b, v => by
    unfold entries
    show (ElemTy.toString P _ _ x.1 v indent _ b >>= _ : Res _) = (ElemTy.toString P _ _ x.1 v indent _ (b && true) >>= _ : Res _)
    rw [Bool.and_true]
    refine congrArg _ (funext fun v => ?_)
    rw [foldShow_map P path indent (fs := classFields E gs) (idx := idx + 1) x.2 x _ (fun _ _ _ => rfl)]
    exact foldShow_entries gs (idx + 1) x.2 false v
  | ⟨⟨n, k, r, t, tn, i, false, l⟩, .single, o⟩ :: gs, idx, x, b, v => by
    unfold entries
    show (ElemTy.toString P _ _ x.1 v indent _ b >>= _ : Res _) = (ElemTy.toString P _ _ x.1 v indent _ (b && true) >>= _ : Res _)
    rw [Bool.and_true]
    refine congrArg _ (funext fun v => ?_)
    rw [foldShow_map P path indent (fs := classFields E gs) (idx := idx) x.2 x _ (fun _ _ _ => rfl)]
    exact foldShow_entries gs idx x.2 false v

/-- The oneofs one after the other. -/
def foldShowU {os : Oneofs} (x : os.cls.State) : Bool → List (BUnion os) → TextView → Res TextView
  | _, [], v => .ok v
  | b, u :: l, v =>
    u.a.toString P path (u.slot.state x).which (u.slot.state x).live v indent b >>= fun v => foldShowU x false l v

theorem foldShowU_map {os os' : Oneofs} (x : os.cls.State) (x' : os'.cls.State) (f : BUnion os → BUnion os')
    (hf : ∀ u v b, (f u).a.toString P path ((f u).slot.state x').which ((f u).slot.state x').live v indent b =
      u.a.toString P path (u.slot.state x).which (u.slot.state x).live v indent b) :
    ∀ (l : List (BUnion os)) (b : Bool) (v : TextView),
      foldShowU P path indent x' b (l.map f) v = foldShowU P path indent x b l v
  | [], _, _ => rfl
  | u :: l, b, v => by
    show (Alts.toString P _ _ _ _ v indent b >>= _ : Res _) = (Alts.toString P _ _ _ _ v indent b >>= _ : Res _)
    rw [hf u v b]
    congr 1
    funext v
    exact foldShowU_map x x' f hf l false v

theorem foldShowU_bunions : ∀ (os : Oneofs) (x : os.cls.State) (b : Bool) (v : TextView),
    foldShowU P path indent x b (bunions os) v = os.toString P path x v indent b
  | .nil, _, _, _ => rfl
  | .cons a rest, x, b, v => by
    show (Alts.toString P a _ _ _ v indent b >>= _ : Res _) = (Alts.toString P a _ _ _ v indent b >>= _ : Res _)
    refine congrArg _ (funext fun v => ?_)
    rw [foldShowU_map P path indent (os := rest) x.2 x _ (fun _ _ _ => rfl)]
    exact foldShowU_bunions rest x.2 false v

end

theorem length_numbers {gs : List GField} (hr : leadsRecursive gs = false) :
    (gs.length == 0) = ((classFields E gs).numbers.length == 0) := by
  match gs, hr with
  | [], _ => rfl
  | ⟨d, .recursive, o⟩ :: gs, hr => exact nomatch (hr : true = false)
  | ⟨d, .repeated, o⟩ :: gs, _ => rfl
  | ⟨⟨n, k, r, t, tn, i, true, l⟩, .single, o⟩ :: gs, _ => rfl
  | ⟨⟨n, k, r, t, tn, i, false, l⟩, .single, o⟩ :: gs, _ => rfl

section
variable (H : Proper E m) (D : (render true E name m).Distinct nested) (W : (m.type E).WF) (P : Printer) (path : List Nat)
  (indent : Nat) (hP : ∀ g ∈ m.fields ++ m.oneofs.flatMap (·.fields), P.name (g.desc.number :: path) = literal g.desc.name)
include H D hP

local notation "K" => render true E name m

omit H hP in
theorem show_const {g : GField} (hg : g ∈ m.fields ++ m.oneofs.flatMap (·.fields)) :
    need ((K).consts.lookup (constName g.desc.name)) = .ok g.desc.name := by
  rw [lookup_of_nodup (consts_nodup D) (List.mem_map.mpr ⟨g, hg, rfl⟩)]
  rfl

omit H in
theorem show_fields (x : Class.Obj K) : ∀ (l : List (GField × Option (ASlot (classFields E m.fields)))) (b : Bool) (v : TextView),
    (∀ e ∈ l, e ∈ entries E m.fields) →
    (showFields b (l.map (·.1))).foldlM (Class.showStmt K (renderShows m) P path x indent) v =
      foldShow P path indent 0 x.fields b l v
  | [], _, _, _ => rfl
  | (g, none) :: l, b, v, h => by
    have hs : g.shape = .recursive := entries_ok m.fields _ (h _ List.mem_cons_self)
    show ((if g.shape = Shape.recursive then [] else [Show.field (.var (under g.desc.name)) (constName g.desc.name) b]) ++
      showFields false (l.map (fun e => e.1))).foldlM (Class.showStmt K (renderShows m) P path x indent) v = _
    rw [if_pos hs]
    exact show_fields x l false v fun e he => h e (List.mem_cons_of_mem _ he)
  | (g, some s) :: l, b, v, h => by
    have he := h _ List.mem_cons_self
    obtain ⟨h1, h2, h3, h4⟩ := entries_ok m.fields _ he
    have h2 : s.num = g.desc.number := h2
    have hg : g ∈ m.fields := entries_some_mem he
    show ((if g.shape = Shape.recursive then [] else [Show.field (.var (under g.desc.name)) (constName g.desc.name) b]) ++
      showFields false (l.map (fun e => e.1))).foldlM (Class.showStmt K (renderShows m) P path x indent) v = _
    rw [if_neg h1]
    show (Class.showPlace K P path x indent (.var (under g.desc.name)) (constName g.desc.name) b v >>= _ : Res _) = _
    unfold Class.showPlace
    rw [show_const D (List.mem_append_left _ hg), Res.ok_bind]
    have hv : findVar (K).fs (K).vars (under g.desc.name) = some s := findVar_entries m.fields (Class.vars_nodup D) g s he
    dsimp only
    rw [hv]
    show (memberToString P _ _ _ _ v indent _ b >>= _ : Res _) = (memberToString P _ _ _ _ v indent _ b >>= _ : Res _)
    have hn : literal g.desc.name = P.name (s.num :: path) := by
      rw [h2]
      exact (hP g (List.mem_append_left _ hg)).symm
    rw [hn]
    refine congrArg _ (funext fun v => ?_)
    exact show_fields x l false v fun e he => h e (List.mem_cons_of_mem _ he)

include W

theorem show_union {e : OEntry E (classOneofs E m.oneofs)} (he : e ∈ oEntries E m.oneofs) (x : Class.Obj K)
    (hx : (classAlts E e.o.fields).spec.ObjInv (getU (name := name) e x)) (b : Bool) (v : TextView) :
    Class.showStmt K (renderShows m) P path x indent v (.oneof (toStringName e.o.name) b) =
      (classAlts E e.o.fields).toString P path (getU (name := name) e x).which (getU (name := name) e x).live v indent b := by
  have hm := oEntries_mem he
  have ok := altsOk W e
  have hf : (renderShows m).funs.lookup (toStringName e.o.name) = some (showOneof e.o) := by
    refine lookup_of_nodup ?_ (List.mem_map.mpr ⟨e.o, hm, rfl⟩)
    have := unionVars_nodup D
    show (List.map _ (List.map _ m.oneofs)).Nodup
    rw [List.map_map]
    unfold List.Nodup at this ⊢
    rw [List.pairwise_map] at this ⊢
    refine this.imp fun {a b} hne heq => hne ?_
    exact congrArg under (List.append_cancel_left heq)
  unfold Class.showStmt
  dsimp only
  rw [hf]
  show (Class.getWhich K (whichName e.o.name) x >>= fun n => Class.select K n (e.o.fields.map _) >>= _ : Res _) = _
  rw [getWhich_getU D he, Res.ok_bind, select_map H D he _ _ _ (fun _ h => h)]
  rcases oneof_cases (not_recursive H he) ok.wf ok.nodup hx with h0 | ⟨f, hf, y, hy⟩
  · rw [h0]
    dsimp only
    rw [find_zero H he ok, Alts.toString_zero P _ _ _ ok.zero]
    rfl
  · have hg := aEntries_mem (not_recursive H he) hf
    have hgm : f.g ∈ m.fields ++ m.oneofs.flatMap (·.fields) :=
      List.mem_append_right _ (List.mem_flatMap.mpr ⟨e.o, hm, hg⟩)
    obtain ⟨_, _, _, h3⟩ := get_member H D he hf hy
    rw [hy]
    dsimp only
    rw [find_number H he ok hf, f.member.toString P ok.nodup, Option.map_some, Res.ok_bind, hP f.g hgm]
    show Class.showPlace K P path x indent (.alt (under e.o.name) (under f.g.desc.name)) (constName f.g.desc.name) b v = _
    unfold Class.showPlace
    rw [show_const D hgm, Res.ok_bind]
    have e1 : findUnion (fun u => u.var == under e.o.name) (K).os (K).unions = some ⟨e.slot, varNames e.o.fields⟩ :=
      findUnion_entries (E := E) (·.var) m.oneofs (unionVars_nodup D) e he
    have e2 := findMember_entries e.o.fields (not_recursive H he) (D.members (unionOf e.o) (List.mem_map_of_mem hm)) f hf
    dsimp only
    rw [e1]
    dsimp only
    rw [e2]
    dsimp only
    have h3 : need ((e.slot.state x.oneofs).live.bind f.member.projState) = .ok y := h3
    show (need ((e.slot.state x.oneofs).live.bind f.member.projState) >>= _ : Res _) = _
    rw [h3]
    rfl

theorem show_oneofs (x : Class.Obj K) (hx : (m.type E).Inv x) : ∀ (l : List (OEntry E (classOneofs E m.oneofs))) (b : Bool)
    (v : TextView), (∀ e ∈ l, e ∈ oEntries E m.oneofs) →
    (showOneofs b (l.map (·.o))).foldlM (Class.showStmt K (renderShows m) P path x indent) v =
      foldShowU P path indent x.oneofs b (l.map fun e => (⟨e.slot⟩ : BUnion _)) v
  | [], _, _, _ => rfl
  | e :: l, b, v, h => by
    have hinv : (classOneofs E m.oneofs).spec.Inv x.oneofs := hx.2.2
    show (Class.showStmt K (renderShows m) P path x indent v (.oneof (toStringName e.o.name) b) >>= _ : Res _) = _
    rw [show_union H D W P path indent hP (h _ List.mem_cons_self) x (e.slot.inv_state hinv) b v]
    show _ = (Alts.toString P _ _ _ _ v indent b >>= _ : Res _)
    refine congrArg _ (funext fun v => ?_)
    exact show_oneofs x hx l false v fun e he => h e (List.mem_cons_of_mem _ he)

/-- The statements for the members. -/
theorem show_statements (x : Class.Obj K) (hx : (m.type E).Inv x) (v : TextView) :
    (renderShows m).statements.foldlM (Class.showStmt K (renderShows m) P path x indent) v =
      (classFields E m.fields).toString P 0 path x.fields v indent (!leadsRecursive m.fields) >>= fun v =>
        (classOneofs E m.oneofs).toString P path x.oneofs v indent (m.fields.length == 0) := by
  show (showFields true m.fields ++ showOneofs _ m.oneofs).foldlM _ v = _
  rw [List.foldlM_append]
  have h1 := show_fields D P path indent hP x (entries E m.fields) true v (fun _ h => h)
  rw [entries_fst] at h1
  rw [h1]
  have h3 := foldShow_entries (E := E) P path indent m.fields 0 x.fields true v
  rw [Bool.true_and] at h3
  show (foldShow (fs := classFields E m.fields) P path indent 0 x.fields true (entries E m.fields) v >>= _ : Res _) = _
  rw [h3]
  refine congrArg _ (funext fun v => ?_)
  have h2 := show_oneofs H D W P path indent hP x hx (oEntries E m.oneofs) (m.fields.length == 0) v (fun _ h => h)
  rw [oEntries_fst] at h2
  refine h2.trans ?_
  show foldShowU (os := classOneofs E m.oneofs) P path indent x.oneofs (m.fields.length == 0)
    ((oEntries E m.oneofs).map fun e => (⟨e.slot⟩ : BUnion _)) v = _
  rw [oEntries_bunions]
  exact foldShowU_bunions P path indent (classOneofs E m.oneofs) x.oneofs _ v

/-- `to_string` -/
theorem runToString_eq (hr : leadsRecursive m.fields = false) (x : Class.Obj K) (hx : (m.type E).Inv x)
    (nm : Option (List Byte)) (first : Bool) (v : TextView) :
    Class.runToString K (renderShows m) P path x indent nm first v = (m.type E).toString P path x v indent nm first := by
  have hl := length_numbers (E := E) hr
  refine Eq.trans ?_ (ElemTy.toString_msg P (classFields E m.fields) (classOneofs E m.oneofs) path x v indent nm first).symm
  unfold Class.runToString
  refine congrArg _ (funext fun v => ?_)
  refine congrArg _ (funext fun v => ?_)
  rw [show_statements H D W P path (indent + 2) hP x hx, hr, hl, bind_assoc]
  rfl

/-- What is written at the outermost level. -/
theorem runToString_writes (x : Class.Obj K) (hx : (m.type E).Inv x) (ht : (m.type E).Terminated P path x) :
    TextView.Writes (fun v => Class.runToString K (renderShows m) P path x 0 none true v)
      (ascii "{\n" ++ ((classFields E m.fields).text P path ((m.type E).abs x).1 2 (!leadsRecursive m.fields) ++
        ((classOneofs E m.oneofs).text P path ((m.type E).abs x).2 2 (m.fields.length == 0) ++ ascii "\n}"))) := by
  obtain ⟨h1, h2, h3, h4⟩ := W
  obtain ⟨i1, i2, i3⟩ := hx
  obtain ⟨t1, t2⟩ := ht
  have n2 : (classOneofs E m.oneofs).numbers.Nodup := (List.nodup_append.mp h3).2.1
  refine TextView.Writes.of_eq ((TextView.Writes.comma true).bind (TextView.Writes.bind (TextView.Writes.print (text := ascii "{\n")
    (by decide)) (g := fun v => (renderShows m).statements.foldlM (Class.showStmt K (renderShows m) P path x 2) v >>= fun v =>
      v.print (ascii "\n}")) ?_)) (by rfl)
  have hs := fun v => show_statements H D ⟨h1, h2, h3, h4⟩ P path 2 hP x ⟨i1, i2, i3⟩ v
  simp only [hs, bind_assoc]
  exact (Fields.toString_writes P (classFields E m.fields) 0 path h1 _ x.fields i2 t1 2 _).bind
    ((Oneofs.toString_writes P (classOneofs E m.oneofs) path h2 n2 (fun n hn => (h4 n (List.mem_append_right _ hn)).1) x.oneofs i3 t2 2
      _).bind (TextView.Writes.print (by decide)))

end

end Gen
end EP
