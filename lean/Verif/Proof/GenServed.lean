import Verif.Spec.Served
import Verif.Proof.GenAccess
import Verif.Proof.Reach

/-!
# The functions of the generated class do what the declaration says
-/

namespace EP

theorem Member.readUnion_ok {a : Alts} {num : Nat} {t : ElemTy} (m : Member a num t) {u : Option a.cls.U} {z : t.Obj}
    (h : m.readUnion u = .ok z) : u = some (m.injState z) := by
  induction m with
  | here n t rest =>
    cases u with
    | none => exact nomatch h
    | some u =>
      cases u with
      | inl x =>
        injection h with h
        subst h
        rfl
      | inr x => exact nomatch h
  | after k t m ih =>
    cases u with
    | none => exact nomatch h
    | some u =>
      cases u with
      | inl x => exact nomatch h
      | inr x =>
        have := ih (u := some x) h
        injection this with this
        subst this
        rfl

end EP

namespace EP.Gen

set_option linter.unusedSectionVars false

variable {E : Types} {name : Str} {m : GMessage} {nested : List Str}
variable (H : Proper E m) (D : (render true E name m).Distinct nested) (W : (m.type E).WF)

local notation "K" => render true E name m

section
include H D

/-- A field on its own. -/
theorem fieldServed {g : GField} {s : ASlot (classFields E m.fields)} (h : (g, some s) ∈ entries E m.fields)
    (hr : g.desc.repeated = true → g.shape = .repeated) (hc : s.num = g.desc.number) :
    FieldServed K g.desc (c := s.c) (t := s.t) (hc ▸ s.slot) := by
  obtain ⟨slot⟩ := s
  dsimp only at hc
  subst hc
  refine ⟨?_, ?_, ?_, ?_, ?_, ?_, ?_, ?_, ?_, ?_⟩
  · intro x y
    unfold Class.runSet Class.act
    dsimp only
    rw [show Class.fun? K (getName g.desc.name) .const = _ from fun_get D h]
    exact call_set_field H D h 2 y x
  · exact fun x => call_clear_field H D h 2 x
  · exact fun G x => runGet_get H D h G x
  · exact fun G x => runGet_name H D h G x
  · exact fun ht G x => runOn_mutable H D h (ht.imp_right hr) G x
  · exact fun ht _ G x => runGet_at H D h (hr ht) G x
  · exact fun ht G x => (runOn_repeated H D h (hr ht) G x).1
  · exact fun ht G x => (runOn_repeated H D h (hr ht) G x).2.1
  · exact fun ht G x => (runOn_repeated H D h (hr ht) G x).2.2
  · exact fun ho x => callTest_field H D h ho x

include W

/-- A member of a oneof. -/
theorem memberServed {e : OEntry E (classOneofs E m.oneofs)} (he : e ∈ oEntries E m.oneofs)
    {f : AEntry E (classAlts E e.o.fields)} (hf : f ∈ aEntries E e.o.fields) :
    MemberServed K e.o.name f.g.desc (a := classAlts E e.o.fields) (t := E.elem f.g.desc) e.slot f.member := by
  have ok := altsOk W e
  have inv : ∀ x : Class.Obj K, (m.type E).Reach x → (classAlts E e.o.fields).spec.ObjInv (getU (name := name) e x) :=
    fun x hx => e.slot.inv_state (ElemTy.reach_inv _ W hx).2.2
  refine ⟨?_, ?_, ?_, ?_, ?_, ?_, ?_, ?_⟩
  · intro x y z hx _ hz
    have hz := f.member.readUnion_ok hz
    have hg := aEntries_mem (not_recursive H he) hf
    have hfun : Class.fun? K (getName f.g.desc.name) .const = some (.get (.alt (under e.o.name) (under f.g.desc.name))) :=
      fun_member (name := name) D (oEntries_mem he) hg (f := getName f.g.desc.name)
        (b := .get (.alt (under e.o.name) (under f.g.desc.name))) (by
          simp [altFuns, (H.member _ (oEntries_mem he) _ hg).1])
    unfold Class.runSet Class.act
    dsimp only
    rw [hfun]
    refine call_set_touch H D he ok hf x y (inv x hx) (k := (e.slot.state y.oneofs).which) ?_ 0
    show e.slot.state y.oneofs = _
    rw [← hz]
    rfl
  · exact fun x hx => call_clear_member H D he ok hf x (inv x hx) 2
  · exact fun G x => runGet_member H D he ok hf (.inl rfl) G x
  · exact fun G x => runGet_member H D he ok hf (.inr rfl) G x
  · exact fun ht G x hx => runOn_member H D he ok hf ht G x (inv x hx)
  · exact fun x => callTest_member H D he ok hf x
  · exact fun x => callWhich_eq D he x
  · exact fun x hx => (clear_entry H D W he x (ElemTy.reach_inv _ W hx).2.2).1

end

variable {own : Str} {fields : List FieldDesc} {oneofs : List Str}

theorem mkOneofs_index : ∀ (ns : List Str) (i : Nat) {os : List GOneof}, mkOneofs own fields ns i = .ok os →
    ∀ o ∈ os, i ≤ o.index ∧ ns[o.index - i]? = some o.name
  | [], i, os, h => by
    unfold mkOneofs at h
    injection h with h
    subst h
    exact fun o ho => nomatch ho
  | n :: ns, i, os, h => by
    unfold mkOneofs at h
    dsimp only at h
    have step : ∀ {os : List GOneof}, mkOneofs own fields ns (i + 1) = .ok os →
        ∀ o ∈ os, i ≤ o.index ∧ (n :: ns)[o.index - i]? = some o.name := by
      intro os hr o ho
      obtain ⟨h1, h2⟩ := mkOneofs_index ns (i + 1) hr o ho
      refine ⟨by omega, ?_⟩
      rw [show o.index - i = (o.index - (i + 1)) + 1 by omega, List.getElem?_cons_succ]
      exact h2
    split at h
    · exact nomatch h
    · split at h
      · exact step h
      · cases hr : mkOneofs own fields ns (i + 1) with
        | error e =>
          rw [hr] at h
          exact nomatch h
        | ok os' =>
          rw [hr] at h
          injection h with h
          subst h
          intro o ho
          rcases List.mem_cons.mp ho with rfl | ho
          · exact ⟨Nat.le_refl _, by rw [show (mkOneof own fields n i).index - i = 0 from Nat.sub_self i]; rfl⟩
          · exact step hr o ho

/-- The whole class. -/
theorem implements (h : FieldsValid fields oneofs) (hr : ∀ f ∈ fields, f.typeName ≠ own)
    (hm : ∀ f ∈ fields, f.type = .message → (E.message f).isMsg = true) (hE : E.Good fields)
    {m : GMessage} (e : mkMessage own fields oneofs = .ok m) (D : (render true E name m).Distinct nested) :
    Implements E (render true E name m) fields oneofs ∧ ∀ o ∈ m.oneofs, ∀ g ∈ o.fields,
        g.desc ∈ fields ∧ g.desc.oneofIndex ≠ none ∧ g.desc.proto3Optional = false := by
  obtain ⟨m', e', H, W⟩ := mkMessage_proper (own := own) E h ⟨fun f hf hc => absurd hc (hr f hf), hm⟩ hE
  rw [e] at e'
  injection e' with e'
  subst e'
  obtain ⟨m', e', hfs, _, hp, ho, hk, _, _⟩ := mkMessage_spec (own := own) h
  rw [e] at e'
  injection e' with e'
  subst e'
  obtain ⟨m', e', hnum, _⟩ := mkMessage_placed (own := own) E h hr
  rw [e] at e'
  injection e' with e'
  subst e'
  obtain ⟨os, e1, _, e3, _⟩ := mkOneofs_spec (own := own) h oneofs 0 (by omega)
  have hos : m.oneofs = os := by
    unfold mkMessage at e
    rw [e1] at e
    injection e with e
    subst e
    rfl
  have hne1 : ∀ g ∈ m.fields, g.shape ≠ .recursive := by
    intro g hg
    rw [hfs] at hg
    obtain ⟨f, hf, rfl⟩ := List.mem_map.mp hg
    exact factory_ne (hr f (List.mem_filter.mp hf).1)
  have hinv : ∀ x : Class.Obj (render true E name m), (ElemTy.msg _ _).Reach x → (m.type E).Inv x :=
    fun x hx => ElemTy.reach_inv (m.type E) W hx
  refine ⟨⟨W, hnum, new_eq H D W, fun x hx => runClear_eq H D W x (hinv x hx),
    fun x y hx hy => runAssign_eq H D W x y (hinv x hx) (hinv y hy),
    fun x w hx => runSerialize_eq H D W x (hinv x hx) w,
    fun src fuel x hx => runDeserialize_eq H D W hne1 src.M fuel src.buf x src.inv (hinv x hx), ?_⟩, ?_⟩
  · intro f hf
    have plain : (f.oneofIndex = none ∨ f.proto3Optional = true) →
        ∃ s : Slot (classFields E m.fields) f.number ((factory own f none).card E) (E.elem f),
          FieldServed (render true E name m) f s := fun hc => by
      have hm : factory own f none ∈ m.fields := by
        rw [hfs]
        exact List.mem_map.mpr ⟨f, List.mem_filter.mpr ⟨hf, by simpa using hc⟩, rfl⟩
      obtain ⟨s, hs⟩ := mem_entries (E := E) hm
      have hok := entries_ok m.fields _ hs
      cases s with
      | none => exact absurd hok (hne1 _ hm)
      | some s =>
        obtain ⟨_, h2, h3, h4⟩ := hok
        have := fieldServed (name := name) H D hs (by
          intro hrep
          have hrep : f.repeated = true := hrep
          rw [factory_shape (hr f hf), hrep]
          rfl) h2
        obtain ⟨slot⟩ := s
        dsimp only at h2 h3 h4
        subst h2 h3 h4
        exact ⟨slot, this⟩
    unfold Served
    split
    · next hopt =>
      obtain ⟨i, hi, _⟩ := h.optional f hf hopt
      have hrep : f.repeated = false := h.single f hf (by rw [hi]; simp)
      have hcard : (factory own f none).card E = .opt := by
        unfold GField.card
        rw [factory_shape (hr f hf), hrep]
        exact if_pos hopt
      have := plain (.inr hopt)
      rw [hcard] at this
      exact this
    · next hopt =>
      cases hidx : f.oneofIndex with
      | none =>
        have := plain (.inl hidx)
        have hopt' : f.proto3Optional = false := by simpa using hopt
        dsimp only
        split
        · next hrep =>
          have hcard : (factory own f none).card E = .rep (if f.maxLength = 0 then E.repLength f else f.maxLength) := by
            unfold GField.card
            rw [factory_shape (hr f hf), hrep]
            rfl
          rw [hcard] at this
          exact this
        · next hrep =>
          have hrep : f.repeated = false := by simpa using hrep
          have hcard : (factory own f none).card E = .single := by
            unfold GField.card
            rw [factory_shape (hr f hf), hrep]
            exact if_neg hopt
          rw [hcard] at this
          exact this
      | some i =>
        obtain ⟨o, hoo, hoi⟩ := hk f hf i hidx (by simpa using hopt)
        obtain ⟨oe, hoe, rfl⟩ := mem_oEntries (E := E) hoo
        have hm : factory own f (some i) ∈ oe.o.fields := by
          rw [ho oe.o hoo, hoi]
          exact List.mem_map.mpr ⟨f, List.mem_filter.mpr ⟨hf, by simp [hidx]⟩, rfl⟩
        obtain ⟨ae, hae, hg⟩ := mem_aEntries (E := E) (not_recursive H hoe) hm
        refine ⟨classAlts E oe.o.fields, ?_, oe.slot, ?_⟩
        · rw [classAlts_numbers E _ (not_recursive H hoe), ho oe.o hoo, hoi, List.map_map]
          rfl
        · have hS := memberServed (name := name) H D W hoe hae
          obtain ⟨g, mem⟩ := ae
          dsimp only at hg
          subst hg
          refine ⟨mem, oe.o.name, ?_, hS⟩
          have := (mkOneofs_index oneofs 0 e1 oe.o (hos ▸ hoo)).2
          rw [Nat.sub_zero, hoi] at this
          exact this
  · intro o hoo g hg
    have hoo' := hoo
    rw [hos] at hoo'
    rw [ho o hoo] at hg
    obtain ⟨f, hf, rfl⟩ := List.mem_map.mp hg
    obtain ⟨h1, h2⟩ := List.mem_filter.mp hf
    have h2 : f.oneofIndex = some o.index := by simpa using h2
    refine ⟨h1, ?_, (e3 o hoo').2.2 f h1 h2⟩
    show f.oneofIndex ≠ none
    rw [h2]
    exact Option.some_ne_none _

end EP.Gen
