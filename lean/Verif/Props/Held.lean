import Verif.Props.Decode
import Verif.Proof.Held
import Verif.Proof.HeldMerge
import Verif.Proof.Blank

/-!
# Decoding into any object: C18, C19

The theorems here hold of every reachable object, also those with leftovers in arrays of messages
(`Spec.Held`).
-/

namespace EP
open Spec

section
variable {β : Type} [ReadBuffer β] (M : ReadModel β) (fs : Fields) (os : Oneofs)
local notation "T" => ElemTy.msg fs os

/-- **C19**, what happens for every object: the records are applied to what the object holds. -/
theorem C19_held (x : (T).Obj) (u : (T).Held) (b : β) (fuel : Nat) (h : (T).WF) (hx : (T).Reach x)
    (hb : M.Inv b) (hr : HRecords fs os (M.view b) ((T).held x) u) (hf : (M.view b).length < fuel) :
    ∃ b' y, (T).cls.deserialize fuel b x = .ok (.noErrors, b', y) ∧ M.view b' = [] ∧
      (T).held y = u ∧ (T).abs y = (T).seen u := by
  obtain ⟨⟨e, b', y⟩, h1, h2, _, h4, h5⟩ :=
    (decode_held fs os h M fuel b x hr (ElemTy.reach_inv T h hx) hb hf).exists
  dsimp only at h2 h4 h5
  subst h2
  exact ⟨b', y, h1, h4, h5, by rw [← h5]; exact ((T).seen_held y).symm⟩

/-- **C18**, what happens for every object: the decoded value is merged into what the object holds;
each received message element is merged into the leftover whose place it takes. -/
theorem C18_held (x : (T).Obj) (v : (T).Val) (b : β) (fuel : Nat) (h : (T).WF) (hx : (T).Reach x)
    (hb : M.Inv b) (hv : M.view b = (T).encode v) (hroom : (T).Room ((T).held x) v)
    (hf : ((T).encode v).length < fuel) :
    ∃ b' y, (T).cls.deserialize fuel b x = .ok (.noErrors, b', y) ∧ M.view b' = [] ∧
      (T).held y = (T).absorb ((T).held x) v ∧ (T).abs y = (T).seen ((T).absorb ((T).held x) v) := by
  have hl := M.view_lt b hb
  rw [hv] at hl
  refine C19_held M fs os x _ b fuel h hx hb ?_ (by rw [hv]; exact hf)
  rw [hv]
  exact hrecords_encode readable_enc fs os h _ v hroom hl

/-- The visible result is the merge for all values there is room for, exactly if the leftovers are
blank. -/
theorem C18_blank_iff (u : (T).Held) :
    (∀ v, (T).Room u v → (T).seen ((T).absorb u v) = (T).merge ((T).seen u) v) ↔ (T).Blank u :=
  ⟨(T).blank_of u, fun hb v hr => (T).seen_absorb u v hb hr⟩

/-- **C19** for every object with blank leftovers; they stay blank. -/
theorem C19_blank_partial (x : (T).Obj) (v : (T).Val) (b : β) (fuel : Nat) (h : (T).WF)
    (hx : (T).Reach x) (hbl : (T).Blank ((T).held x)) (hb : M.Inv b)
    (hr : Records fs os (M.view b) ((T).abs x) v) (hf : (M.view b).length < fuel) :
    ∃ b' y, (T).cls.deserialize fuel b x = .ok (.noErrors, b', y) ∧ M.view b' = [] ∧
      (T).abs y = v ∧ (T).Blank ((T).held y) := by
  have hi := ElemTy.reach_inv T h hx
  rw [← (T).seen_held x] at hr
  obtain ⟨v', h1, h2, h3⟩ := Records.held _ hr hbl ((T).sized_held x hi)
  obtain ⟨b', y, g1, g2, g3, g4⟩ := C19_held M fs os x v' b fuel h hx hb h1 hf
  exact ⟨b', y, g1, g2, g4.trans h2, g3 ▸ h3⟩

/-- **C18** for every object with blank leftovers; they stay blank. -/
theorem C18_blank_partial (x : (T).Obj) (v : (T).Val) (b : β) (fuel : Nat) (h : (T).WF)
    (hx : (T).Reach x) (hbl : (T).Blank ((T).held x)) (hb : M.Inv b) (hv : M.view b = (T).encode v)
    (hfit : (T).Fits ((T).merge ((T).abs x) v)) (hf : ((T).encode v).length < fuel) :
    ∃ b' y, (T).cls.deserialize fuel b x = .ok (.noErrors, b', y) ∧ M.view b' = [] ∧
      (T).abs y = (T).merge ((T).abs x) v ∧ (T).Blank ((T).held y) := by
  have hl := M.view_lt b hb
  rw [hv] at hl
  refine C19_blank_partial M fs os x _ b fuel h hx hbl hb ?_ (by rw [hv]; exact hf)
  rw [hv]
  exact records_encode readable_enc fs os h _ v hfit hl

end

/-- Objects that never had an array of messages shortened other than by `clear()` have blank
leftovers. -/
theorem ElemTy.Tidy.blank {t : ElemTy} (h : t.WF) {x : t.Obj} (hx : t.Tidy x) : t.Blank (t.held x) :=
  t.blank_of_clean h x (hx.inv_clean h).2

/-! ## Examples -/

/-- The object of `C18_false` holds a leftover that is not blank; decoding `[{}]` shows it. -/
example : repMsg.Reach staleRep ∧
    repMsg.held staleRep = (((([], [((5#32, ()), ()), ((0#32, ()), ())]), ()), ()) : repMsg.Held) ∧
    ¬ repMsg.Blank (repMsg.held staleRep) ∧ repMsg.Room (repMsg.held staleRep) oneEmpty ∧
    repMsg.absorb (repMsg.held staleRep) oneEmpty =
      (((([((5#32, ()), ())], [((0#32, ()), ())]), ()), ()) : repMsg.Held) := by
  refine ⟨staleRep_reach, rfl, ?_, ?_, rfl⟩
  · rintro ⟨⟨h, _⟩, _⟩
    have := (h rfl (((5#32, ()), ()) : (oneScalar 1 .int32).Held) List.mem_cons_self).1
    have : (((5#32, ()), ()) : (BitVec 32 × Unit) × Unit) = ((0#32, ()), ()) := this
    exact absurd this (by decide)
  · refine ⟨⟨⟨by decide, ?_⟩, trivial⟩, trivial⟩
    intro p _
    exact ⟨⟨fun _ => trivial, trivial⟩, trivial⟩

/-- An object to which an element was added with `add_a`, then one decoded: the premises of
`C18_blank_partial` hold, and it was not only used for receiving. -/
example : ∃ x, repMsg.Tidy x ∧ repMsg.Reach x ∧ repMsg.Blank (repMsg.held x) ∧
    repMsg.abs x = ((([((7#32, ()), ())] : List (oneScalar 1 .int32).Val), ()), ()) := by
  have hel : (oneScalar 1 .int32).Reach (repElem 7) := oneScalar_reach .int32 7
  have hadd : onFields (onFst fun x : RepObj (oneScalar 1 .int32).Obj =>
      (x.add (E := (oneScalar 1 .int32).cls) 2 (repElem 7)) >>= fun r => pure r.2) repMsg.cls.init =
      .ok (⟨[], (⟨1, [repElem 7, repElem 0]⟩, ()), ()⟩ : repMsg.Obj) := rfl
  have ht : repMsg.Tidy (⟨[], (⟨1, [repElem 7, repElem 0]⟩, ()), ()⟩ : repMsg.Obj) := by
    refine Or.inr (ReachGen.step (R := fun _ => False) (fun _ h => h.elim) ?_ .init hadd)
    exact Or.inr (Or.inr (Or.inr (Or.inr (Or.inr (Or.inr (Or.inl ⟨_, Or.inl ⟨rfl, _,
      Or.inr (Or.inr (Or.inr (Or.inl ⟨_, hel, rfl⟩))), rfl⟩, rfl⟩))))))
  refine ⟨_, ht, ?_, ht.blank repMsg_wf, rfl⟩
  refine ReachGen.step (R := fun _ => False) (fun _ h => h.elim) ?_ .init hadd
  exact Or.inr (Or.inl ⟨_, Or.inl ⟨_, Or.inr ⟨fun _ => False, fun _ h => h.elim, Or.inr (Or.inl
    ⟨_, hel, rfl⟩)⟩, rfl⟩, rfl⟩)

end EP
