import Verif.Proof.GenNames
import Verif.Model.Api

/-!
# The statements for fields outside oneofs
-/

namespace EP.Gen

variable {E : Types} {name : Str} {m : GMessage} {nested : List Str}

namespace Class
variable (K : Class) (call : Str → Arg K.Obj → K.Obj → Res K.Obj) (a : Arg K.Obj)

theorem stmts_nil (o : K.Obj) : K.stmts call a [] o = .ok o := rfl

theorem stmts_cons (s : Stmt) (l : List Stmt) (o : K.Obj) :
    K.stmts call a (s :: l) o = K.stmt call a s o >>= fun o => K.stmts call a l o := rfl

theorem stmts_append (k l : List Stmt) (o : K.Obj) :
    K.stmts call a (k ++ l) o = K.stmts call a k o >>= fun o => K.stmts call a l o := by
  induction k generalizing o with
  | nil => rfl
  | cons s k ih =>
    rw [List.cons_append, stmts_cons, stmts_cons, bind_assoc]
    cases K.stmt call a s o with
    | ok o => exact ih o
    | ub => rfl
    | diverge => rfl

theorem stmt_act (s : Act) (o : K.Obj) : K.stmt call a (.act s) o = K.act call a s o := rfl

theorem acts_nil (o : K.Obj) : K.acts call a [] o = .ok o := rfl

theorem acts_one (s : Act) (o : K.Obj) : K.acts call a [s] o = K.act call a s o := by
  show (K.act call a s o >>= fun o => .ok o) = _
  cases K.act call a s o <;> rfl

theorem acts_two (s s' : Act) (o : K.Obj) : K.acts call a [s, s'] o = K.act call a s o >>= fun o => K.act call a s' o := by
  show (K.act call a s o >>= fun o => K.act call a s' o >>= fun o => .ok o) = _
  cases K.act call a s o with
  | ok o => cases h : K.act call a s' o <;> simp only [Res.ok_bind, h] <;> rfl
  | ub => rfl
  | diverge => rfl

end Class

/-! ## What kind of member a field has -/

theorem card_single {g : GField} (h : g.card E = .single) : g.shape ≠ .repeated ∧ g.desc.proto3Optional = false := by
  unfold GField.card at h
  cases e : g.shape <;> rw [e] at h <;> dsimp only at h
  · cases e' : g.desc.proto3Optional with
    | false => exact ⟨by decide, rfl⟩
    | true => rw [e', if_pos rfl] at h; exact nomatch h
  · exact nomatch h
  · cases e' : g.desc.proto3Optional with
    | false => exact ⟨by decide, rfl⟩
    | true => rw [e', if_pos rfl] at h; exact nomatch h

theorem card_opt {g : GField} (h : g.card E = .opt) : g.shape ≠ .repeated ∧ g.desc.proto3Optional = true := by
  unfold GField.card at h
  cases e : g.shape <;> rw [e] at h <;> dsimp only at h
  · cases e' : g.desc.proto3Optional with
    | true => exact ⟨by decide, rfl⟩
    | false => rw [e', if_neg (by decide)] at h; exact nomatch h
  · exact nomatch h
  · cases e' : g.desc.proto3Optional with
    | true => exact ⟨by decide, rfl⟩
    | false => rw [e', if_neg (by decide)] at h; exact nomatch h

theorem card_rep {g : GField} {cap : Nat} (h : g.card E = .rep cap) : g.shape = .repeated := by
  unfold GField.card at h
  cases e : g.shape <;> rw [e] at h <;> dsimp only at h
  · split at h <;> exact nomatch h
  · split at h <;> exact nomatch h

theorem unmark_opt {c : Card} (h : c = .opt) (i : Nat) : c.unmark i = fun p => Presence.clearBit p i := by
  subst h; rfl

theorem unmark_ne {c : Card} (h : c ≠ .opt) (i : Nat) : c.unmark i = .ok := by
  cases c with
  | opt => exact absurd rfl h
  | single => rfl
  | rep => rfl

theorem mark_opt {c : Card} (h : c = .opt) (i : Nat) : c.mark i = fun p => Presence.setBit p i := by
  subst h; rfl

theorem mark_ne {c : Card} (h : c ≠ .opt) (i : Nat) : c.mark i = .ok := by
  cases c with
  | opt => exact absurd rfl h
  | single => rfl
  | rep => rfl

theorem isOpt_ne {c : Card} (h : c ≠ .opt) : c.isOpt = false := by
  cases c with
  | opt => exact absurd rfl h
  | single => rfl
  | rep => rfl

/-- Whether the presence of a field is tracked, by its declaration and by its member. -/
theorem entry_opt (H : ∀ g ∈ m.fields, g.desc.proto3Optional = true → g.shape = .single) {g : GField}
    {s : ASlot (classFields E m.fields)} (h : (g, some s) ∈ entries E m.fields) :
    (g.desc.proto3Optional = true ∧ g.shape = .single ∧ s.c = .opt) ∨ (g.desc.proto3Optional = false ∧ s.c ≠ .opt) := by
  obtain ⟨h1, h2, h3, h4⟩ := entries_ok m.fields _ h
  dsimp only at h1 h2 h3 h4
  cases ho : g.desc.proto3Optional with
  | true =>
    have hsh := H g (entries_some_mem h) ho
    refine .inl ⟨rfl, hsh, ?_⟩
    rw [h3]
    unfold GField.card
    rw [hsh]
    exact if_pos ho
  | false =>
    refine .inr ⟨rfl, fun e => ?_⟩
    have := (card_opt (E := E) (h3.symm.trans e)).2
    rw [ho] at this
    exact nomatch this

theorem shape_of {g : GField} (h1 : g.shape ≠ .recursive) (h2 : g.shape ≠ .repeated) : g.shape = .single := by
  cases e : g.shape with
  | recursive => exact absurd e h1
  | repeated => exact absurd e h2
  | single => rfl

section
variable (H : Proper E m) (D : (render true E name m).Distinct nested)
include H D

local notation "K" => render true E name m

omit H in
theorem act_clear_var {g : GField} {s : ASlot (classFields E m.fields)} (h : (g, some s) ∈ entries E m.fields)
    (call) (a : Class.Arg (Class.Obj K)) (o : Class.Obj K) :
    Class.act K call a (.clear (.var (under g.desc.name))) o =
      (s.c.cls s.t).clear (s.slot.state 0 o.fields) >>= fun v => .ok { o with fields := s.slot.setState 0 o.fields v } := by
  unfold Class.act
  dsimp only
  rw [ref_var D h]
  rfl

omit H in
theorem act_assign_var {g : GField} {s : ASlot (classFields E m.fields)} (h : (g, some s) ∈ entries E m.fields)
    (call) (r o : Class.Obj K) :
    Class.act K call (.value (.var (under g.desc.name)) r) (.assign (.var (under g.desc.name))) o =
      (s.c.cls s.t).set (s.slot.state 0 o.fields) (s.slot.state 0 r.fields) >>=
        fun v => .ok { o with fields := s.slot.setState 0 o.fields v } := by
  unfold Class.act
  dsimp only
  rw [ref_var D h]
  exact if_pos rfl

theorem act_setBit {g : GField} {s : ASlot (classFields E m.fields)} (h : (g, some s) ∈ entries E m.fields)
    (ho : g.desc.proto3Optional = true) (call) (a : Class.Arg (Class.Obj K)) (o : Class.Obj K) :
    Class.act K call a (.setBit (upper g.desc.name)) o =
      Presence.setBit o.presence (s.slot.bit 0) >>= fun p => .ok { o with presence := p } := by
  unfold Class.act
  dsimp only
  rw [presence_field H D h ho, Res.ok_bind]
  rfl

theorem act_clearBit {g : GField} {s : ASlot (classFields E m.fields)} (h : (g, some s) ∈ entries E m.fields)
    (ho : g.desc.proto3Optional = true) (call) (a : Class.Arg (Class.Obj K)) (o : Class.Obj K) :
    Class.act K call a (.clearBit (upper g.desc.name)) o =
      Presence.clearBit o.presence (s.slot.bit 0) >>= fun p => .ok { o with presence := p } := by
  unfold Class.act
  dsimp only
  rw [presence_field H D h ho, Res.ok_bind]
  rfl

omit H D in
theorem call_run {d : Nat} {f : Str} {a : Class.Arg (Class.Obj K)} {b : List Stmt} (h : Class.fun? K f a.sig = some (.run b))
    (o : Class.Obj K) : Class.call K (d + 1) f a o = Class.stmts K (Class.call K d) a b o := by
  unfold Class.call
  rw [h]

omit H D in
theorem call_value {d : Nat} {f : Str} {a : Class.Arg (Class.Obj K)} {b : List Stmt}
    (h : Class.fun? K f a.sig = some (.value b)) (o : Class.Obj K) :
    Class.call K (d + 1) f a o = Class.stmts K (Class.call K d) a b o := by
  unfold Class.call
  rw [h]

omit H D in
theorem call_id {d : Nat} {f : Str} {a : Class.Arg (Class.Obj K)} {b : List Stmt}
    (h : Class.fun? K f a.sig = some (.id b)) (o : Class.Obj K) :
    Class.call K (d + 1) f a o = Class.stmts K (Class.call K d) a b o := by
  unfold Class.call
  rw [h]

/-- `clear_x()` -/
theorem call_clear_field {g : GField} {s : Option (ASlot (classFields E m.fields))} (h : (g, s) ∈ entries E m.fields)
    (d : Nat) (o : Class.Obj K) :
    Class.call K (d + 1) (clearName g.desc.name) .none o = onFields (entryClear 0 · s) o := by
  have hm : g ∈ m.fields := entries_some_mem h
  have hok := entries_ok m.fields _ h
  cases s with
  | none =>
    have hs : g.shape = .recursive := hok
    have := fun_field (name := name) D hm (f := clearName g.desc.name) (b := .run []) (by simp [fieldFuns, hs])
    rw [call_run this]
    rfl
  | some s =>
    obtain ⟨h1, h2, h3, h4⟩ := hok
    have key : ∀ (mark : Presence → Res Presence), (s.c.unmark (s.slot.bit 0) = mark) →
        (Class.call K (d + 1) (clearName g.desc.name) .none o = mark o.presence >>= fun p =>
          (s.c.cls s.t).clear (s.slot.state 0 o.fields) >>=
            fun v => .ok { o with presence := p, fields := s.slot.setState 0 o.fields v }) →
        Class.call K (d + 1) (clearName g.desc.name) .none o = onFields (entryClear 0 · (some s)) o := by
      intro mark hmark he
      rw [he]
      unfold onFields entryClear
      dsimp only
      rw [s.slot.clearAccess_eq, hmark]
      cases mark o.presence with
      | ub => rfl
      | diverge => rfl
      | ok p =>
        simp only [Res.ok_bind]
        cases (s.c.cls s.t).clear (s.slot.state 0 o.fields) <;> rfl
    rcases entry_opt H.single h with ⟨ho, hsh, hc⟩ | ⟨ho, hc⟩
    · refine key (fun p => Presence.clearBit p (s.slot.bit 0)) (unmark_opt hc _) ?_
      have := fun_field (name := name) D hm (f := clearName g.desc.name)
        (b := .run [.act (.clearBit (upper g.desc.name)), .act (.clear (.var (under g.desc.name)))])
        (by simp [fieldFuns, hsh, ho])
      rw [call_run this, Class.stmts_cons, Class.stmt_act, act_clearBit H D h ho]
      cases Presence.clearBit o.presence (s.slot.bit 0) with
      | ub => rfl
      | diverge => rfl
      | ok p =>
        rw [Res.ok_bind, Res.ok_bind, Res.ok_bind, Class.stmts_cons, Class.stmt_act, act_clear_var D h]
        cases (s.c.cls s.t).clear (s.slot.state 0 o.fields) <;> rfl
    · refine key .ok (unmark_ne hc _) ?_
      have : Class.fun? K (clearName g.desc.name) .mutable =
          some (.run [.act (.clear (.var (under g.desc.name)))]) :=
        fun_field (name := name) D hm (f := clearName g.desc.name)
          (b := .run [.act (.clear (.var (under g.desc.name)))])
          (by cases e : g.shape <;> first | exact absurd e h1 | simp [fieldFuns, e, ho])
      rw [call_run this, Class.stmts_cons, Class.stmt_act, act_clear_var D h]
      cases (s.c.cls s.t).clear (s.slot.state 0 o.fields) <;> rfl

/-- `set_x(rhs.get_x())` -/
theorem call_set_field {g : GField} {s : ASlot (classFields E m.fields)} (h : (g, some s) ∈ entries E m.fields)
    (d : Nat) (r o : Class.Obj K) :
    Class.call K (d + 1) (setName g.desc.name) (.value (.var (under g.desc.name)) r) o =
      onFields (s.slot.access 0 fun x => (s.c.cls s.t).set x (s.slot.state 0 r.fields)) o := by
  have hm : g ∈ m.fields := entries_some_mem h
  have h1 : g.shape ≠ .recursive := (entries_ok m.fields _ h).1
  have key : ∀ (mark : Presence → Res Presence), (s.c.mark (s.slot.bit 0) = mark) →
      (Class.call K (d + 1) (setName g.desc.name) (.value (.var (under g.desc.name)) r) o = mark o.presence >>= fun p =>
        (s.c.cls s.t).set (s.slot.state 0 o.fields) (s.slot.state 0 r.fields) >>=
          fun v => .ok { o with presence := p, fields := s.slot.setState 0 o.fields v }) →
      Class.call K (d + 1) (setName g.desc.name) (.value (.var (under g.desc.name)) r) o =
        onFields (s.slot.access 0 fun x => (s.c.cls s.t).set x (s.slot.state 0 r.fields)) o := by
    intro mark hmark he
    rw [he]
    unfold onFields
    rw [s.slot.access_eq, hmark]
    cases mark o.presence with
    | ub => rfl
    | diverge => rfl
    | ok p =>
      simp only [Res.ok_bind]
      cases (s.c.cls s.t).set (s.slot.state 0 o.fields) (s.slot.state 0 r.fields) <;> rfl
  rcases entry_opt H.single h with ⟨ho, hsh, hc⟩ | ⟨ho, hc⟩
  · refine key (fun p => Presence.setBit p (s.slot.bit 0)) (mark_opt hc _) ?_
    have := fun_field (name := name) D hm (f := setName g.desc.name)
      (b := .value [.act (.setBit (upper g.desc.name)), .act (.assign (.var (under g.desc.name)))])
      (by simp [fieldFuns, hsh, ho])
    rw [call_value this, Class.stmts_cons, Class.stmt_act, act_setBit H D h ho]
    cases Presence.setBit o.presence (s.slot.bit 0) with
    | ub => rfl
    | diverge => rfl
    | ok p =>
      rw [Res.ok_bind, Res.ok_bind, Res.ok_bind, Class.stmts_cons, Class.stmt_act, act_assign_var D h]
      cases (s.c.cls s.t).set (s.slot.state 0 o.fields) (s.slot.state 0 r.fields) <;> rfl
  · refine key .ok (mark_ne hc _) ?_
    have : Class.fun? K (setName g.desc.name) .value =
        some (.value [.act (.assign (.var (under g.desc.name)))]) :=
      fun_field (name := name) D hm (f := setName g.desc.name)
        (b := .value [.act (.assign (.var (under g.desc.name)))])
        (by cases e : g.shape <;> first | exact absurd e h1 | simp [fieldFuns, e, ho])
    rw [call_value this, Class.stmts_cons, Class.stmt_act, act_assign_var D h]
    cases (s.c.cls s.t).set (s.slot.state 0 o.fields) (s.slot.state 0 r.fields) <;> rfl

omit H in
theorem fun_get {g : GField} {s : ASlot (classFields E m.fields)} (h : (g, some s) ∈ entries E m.fields) :
    Class.fun? K (getName g.desc.name) .const = some (.get (.var (under g.desc.name))) := by
  have h1 : g.shape ≠ .recursive := (entries_ok m.fields _ h).1
  refine fun_field (name := name) D (entries_some_mem h) (f := getName g.desc.name)
    (b := .get (.var (under g.desc.name))) ?_
  cases e : g.shape
  · exact absurd e h1
  · simp [fieldFuns, e]
  · cases ho : g.desc.proto3Optional <;> simp [fieldFuns, e, ho]

/-- `has_x()` -/
theorem callTest_field {g : GField} {s : ASlot (classFields E m.fields)} (h : (g, some s) ∈ entries E m.fields)
    (ho : g.desc.proto3Optional = true) (o : Class.Obj K) :
    Class.callTest K (hasName g.desc.name) o = Presence.has o.presence (s.slot.bit 0) := by
  have hm := entries_some_mem h
  have : Class.fun? K (hasName g.desc.name) .const = some (.test (.bit (upper g.desc.name))) :=
    fun_field (name := name) D hm (f := hasName g.desc.name) (b := .test (.bit (upper g.desc.name)))
      (by simp [fieldFuns, H.single g hm ho, ho])
  unfold Class.callTest
  rw [this]
  show (Class.presenceIndex K (upper g.desc.name) >>= _ : Res _) = _
  rw [presence_field H D h ho, Res.ok_bind]

/-- The statement for a field in `operator=`. -/
theorem stmt_assign_field {g : GField} {s : Option (ASlot (classFields E m.fields))} (h : (g, s) ∈ entries E m.fields)
    (d : Nat) (r o : Class.Obj K) :
    Class.stmt K (Class.call K (d + 1)) (.rhs r) (assignField g) o =
      onFields (entryAssign 0 (r.presence, r.fields) · s) o := by
  have hm : g ∈ m.fields := entries_some_mem h
  cases s with
  | none =>
    have hs : g.shape = .recursive := entries_ok m.fields _ h
    have ho : g.desc.proto3Optional = false := by
      cases ho : g.desc.proto3Optional with
      | false => rfl
      | true => rw [H.single g hm ho] at hs; exact nomatch hs
    unfold assignField
    dsimp only
    rw [ho, if_neg (by decide), Class.stmt_act]
    have e1 : Class.fun? K (getName g.desc.name) .const = some .zero :=
      fun_field (name := name) D hm (f := getName g.desc.name) (b := .zero) (by simp [fieldFuns, hs])
    have e2 : Class.fun? K (setName g.desc.name) .value = some (.value []) :=
      fun_field (name := name) D hm (f := setName g.desc.name) (b := .value []) (by simp [fieldFuns, hs])
    unfold Class.act
    dsimp only
    rw [e1]
    dsimp only
    rw [call_value e2]
    rfl
  | some s =>
    have hset : Class.act K (Class.call K (d + 1)) (.rhs r) (.callSet (setName g.desc.name) (getName g.desc.name)) o =
        onFields (s.slot.access 0 fun x => (s.c.cls s.t).set x (s.slot.state 0 r.fields)) o := by
      rw [← call_set_field H D h d r o]
      unfold Class.act
      dsimp only
      rw [fun_get D h]
    unfold assignField
    dsimp only
    rcases entry_opt H.single h with ⟨ho, hsh, hc⟩ | ⟨ho, hc⟩
    · rw [ho, if_pos rfl]
      show (Class.callTest K (hasName g.desc.name) r >>= _ : Res _) = _
      rw [callTest_field H D h ho]
      have hi : s.c.isOpt = true := by rw [hc]; rfl
      unfold onFields entryAssign
      dsimp only
      unfold Slot.assignFrom
      rw [hi, if_pos rfl]
      show (Presence.has r.presence (s.slot.bit 0) >>= _ : Res _) =
        ((Presence.has r.presence (s.slot.bit 0) >>= _) >>= _ : Res _)
      cases Presence.has r.presence (s.slot.bit 0) with
      | ub => rfl
      | diverge => rfl
      | ok b =>
        rw [Res.ok_bind, Res.ok_bind]
        cases b with
        | true =>
          rw [if_pos rfl, if_pos rfl, Class.acts_one, hset]
          unfold onFields
          rw [s.slot.access_eq, mark_opt hc]
          cases Presence.setBit o.presence (s.slot.bit 0) <;> rfl
        | false =>
          rw [if_neg (by decide), if_neg (by decide), Class.acts_one]
          refine (call_clear_field H D h d o).trans ?_
          unfold onFields entryClear
          dsimp only
          rw [s.slot.clearAccess_eq, unmark_opt hc]
          cases Presence.clearBit o.presence (s.slot.bit 0) <;> rfl
    · rw [ho, if_neg (by decide), Class.stmt_act, hset]
      have hi : s.c.isOpt = false := isOpt_ne hc
      unfold onFields entryAssign
      dsimp only
      unfold Slot.assignFrom
      rw [hi, if_neg (by decide), s.slot.access_eq, mark_ne hc]
      rfl

omit H D in
theorem plainGuard_rep {c : Card} {t : ElemTy} {cap : Nat} (h : c = .rep cap) (x : (c.cls t).State) :
    (c.cls t).plainGuard x = true := by
  subst h; rfl

omit H D in
theorem plainGuard_str {c : Card} {t : ElemTy} {cap : Nat} (h : c = .single) (ht : t = .str cap) (x : (c.cls t).State) :
    (c.cls t).plainGuard x = true := by
  subst h ht; rfl

omit H D in
theorem plainGuard_msg {c : Card} {t : ElemTy} (h : c = .single) (ht : t.isMsg = true) (x : (c.cls t).State) :
    (c.cls t).plainGuard x = true := by
  subst h
  cases t with
  | scalar => exact nomatch ht
  | str => exact nomatch ht
  | msg => rfl

/-- The statement for a field in `serialize`. -/
theorem ser_field {g : GField} {s : Option (ASlot (classFields E m.fields))} (h : (g, s) ∈ entries E m.fields)
    {ω : Type} [WriteBuffer ω] (o : Class.Obj K) (r : Error × ω) :
    Class.ser K (.field (serField (.var (under g.desc.name)) false g)) o r.1 r.2 =
      entrySer 0 o.presence o.fields r s := by
  have hm : g ∈ m.fields := entries_some_mem h
  obtain ⟨e, w⟩ := r
  cases s with
  | none =>
    have hs : g.shape = .recursive := entries_ok m.fields _ h
    unfold serField
    dsimp only
    rw [hs]
    rfl
  | some s =>
    obtain ⟨h1, h2, h3, h4⟩ := entries_ok m.fields _ h
    dsimp only at h1 h2 h3 h4
    have hnum := number_field (name := name) H D hm
    rw [← h2] at hnum
    rcases entry_opt H.single h with ⟨ho, hsh, hc⟩ | ⟨ho, hc⟩
    · have e1 : serField (.var (under g.desc.name)) false g =
          some ⟨.has (hasName g.desc.name), .var (under g.desc.name), upper g.desc.name, true⟩ := by
        unfold serField
        dsimp only
        rw [hsh, ho]
        rfl
      rw [e1]
      have hi : s.c.isOpt = true := by rw [hc]; rfl
      show (Class.callTest K (hasName g.desc.name) o >>= _ : Res _) = s.slot.serAt 0 o.presence o.fields (e, w)
      rw [callTest_field H D h ho]
      unfold Slot.serAt
      rw [hi, if_pos rfl, ref_var D h]
      dsimp only
      rw [hnum]
      cases Presence.has o.presence (s.slot.bit 0) <;> rfl
    · have hi : s.c.isOpt = false := isOpt_ne hc
      show _ = s.slot.serAt 0 o.presence o.fields (e, w)
      unfold Slot.serAt
      rw [hi, if_neg (by decide)]
      have key : ∀ gd : Guard, Class.guard K gd o = .ok ((s.c.cls s.t).plainGuard (s.slot.state 0 o.fields)) →
          Class.ser K (.field (some ⟨gd, .var (under g.desc.name), upper g.desc.name, false⟩)) o e w =
          if (s.c.cls s.t).plainGuard (s.slot.state 0 o.fields) = true ∧ e = .noErrors then
            (s.c.cls s.t).serializeWithId s.num (s.slot.state 0 o.fields) w false
          else pure (e, w) := by
        intro gd hg
        show (Class.guard K gd o >>= _ : Res _) = _
        rw [hg, Res.ok_bind, ref_var D h]
        dsimp only
        rw [hnum]
        rfl
      by_cases hrep : g.shape = .repeated
      · have e1 : serField (.var (under g.desc.name)) false g =
            some ⟨.always, .var (under g.desc.name), upper g.desc.name, false⟩ := by
          unfold serField
          dsimp only
          rw [hrep, ho]
          rfl
        rw [e1]
        refine key _ ?_
        have : s.c = .rep (if g.desc.maxLength = 0 then E.repLength g.desc else g.desc.maxLength) := by
          rw [h3]
          unfold GField.card
          rw [hrep]
        rw [plainGuard_rep this]
        rfl
      · have hsh := shape_of h1 hrep
        have hcs : s.c = .single := by
          rw [h3]
          unfold GField.card
          rw [hsh]
          exact if_neg (by rw [ho]; decide)
        have e1 : serField (.var (under g.desc.name)) false g =
            some ⟨match g.desc.type with
              | .scalar _ | .enum => .notDefault (.var (under g.desc.name))
              | _ => .always, .var (under g.desc.name), upper g.desc.name, false⟩ := by
          unfold serField
          dsimp only
          rw [hsh, ho]
          rfl
        rw [e1]
        refine key _ ?_
        have hnd : Class.guard K (.notDefault (.var (under g.desc.name))) o =
            .ok ((s.c.cls s.t).plainGuard (s.slot.state 0 o.fields)) := by
          unfold Class.guard
          dsimp only
          rw [ref_var D h]
          rfl
        cases ht : g.desc.type with
        | scalar => exact hnd
        | enum => exact hnd
        | message =>
          rw [plainGuard_msg hcs (by rw [h4]; exact H.messages g hm ht)]
          rfl
        | string =>
          rw [plainGuard_str hcs (by rw [h4]; unfold Types.elem; rw [ht])]
          rfl
        | bytes =>
          rw [plainGuard_str hcs (by rw [h4]; unfold Types.elem; rw [ht])]
          rfl

/-- The statements after the `case` of a field. -/
theorem des_field {g : GField} {s : ASlot (classFields E m.fields)} (h : (g, some s) ∈ entries E m.fields)
    {β : Type} [ReadBuffer β] (fuel : Nat) (wt : WireType) (e : Error) (b : β) (o : Class.Obj K) :
    Class.des K fuel wt (desField g) e b o =
      s.slot.desAt 0 fuel wt b o.presence o.fields >>= fun r =>
        .ok (r.1, r.2.1, { o with presence := r.2.2.1, fields := r.2.2.2 }) := by
  have h1 : g.shape ≠ .recursive := (entries_ok m.fields _ h).1
  have tail : ∀ o : Class.Obj K, Class.des K fuel wt [.field (.var (under g.desc.name))] e b o =
      (s.c.cls s.t).deserializeCheckType fuel b wt (s.slot.state 0 o.fields) >>= fun r =>
        .ok (r.1, r.2.1, { o with fields := s.slot.setState 0 o.fields r.2.2 }) := by
    intro o
    unfold Class.des
    rw [ref_var D h]
    rfl
  unfold Slot.desAt
  rcases entry_opt H.single h with ⟨ho, hsh, hc⟩ | ⟨ho, hc⟩
  · have e1 : desField g = [.setBit (upper g.desc.name), .field (.var (under g.desc.name))] := by
      unfold desField
      rw [hsh, ho]
      rfl
    rw [e1, mark_opt hc]
    show (Class.presenceIndex K (upper g.desc.name) >>= _ : Res _) = _
    rw [presence_field H D h ho, Res.ok_bind]
    show (Presence.setBit o.presence (s.slot.bit 0) >>= _ : Res _) =
      ((Presence.setBit o.presence (s.slot.bit 0) >>= _) >>= _ : Res _)
    cases Presence.setBit o.presence (s.slot.bit 0) with
    | ub => rfl
    | diverge => rfl
    | ok p =>
      refine (tail _).trans ?_
      show ((s.c.cls s.t).deserializeCheckType fuel b wt (s.slot.state 0 o.fields) >>= _ : Res _) =
        (((s.c.cls s.t).deserializeCheckType fuel b wt (s.slot.state 0 o.fields) >>= _) >>= _ : Res _)
      cases (s.c.cls s.t).deserializeCheckType fuel b wt (s.slot.state 0 o.fields) <;> rfl
  · have e1 : desField g = [.field (.var (under g.desc.name))] := by
      unfold desField
      rw [ho]
      cases e : g.shape <;> first | exact absurd e h1 | rfl
    rw [e1, mark_ne hc, tail]
    show ((s.c.cls s.t).deserializeCheckType fuel b wt (s.slot.state 0 o.fields) >>= _ : Res _) =
      (((s.c.cls s.t).deserializeCheckType fuel b wt (s.slot.state 0 o.fields) >>= _) >>= _ : Res _)
    cases (s.c.cls s.t).deserializeCheckType fuel b wt (s.slot.state 0 o.fields) <;> rfl

end

end EP.Gen
