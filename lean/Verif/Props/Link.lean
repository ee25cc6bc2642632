import Verif.Proof.Link
import Verif.Props.Exact

/-!
# Two programs that exchange messages: C86; and the bound on loops, C21
-/

namespace EP
open Spec

section
variable (fs : Fields) (os : Oneofs)
local notation "T" => ElemTy.msg fs os

/-! ## C21 -/

/-- **C21**, about the model: the bound on the iterations of loops does not matter.  For every declaration, object, bytes
and buffer (one that keeps its promises or not), if `deserialize` returns or is undefined within a bound, it does the same
for every larger bound. -/
theorem C21_bound (t : ElemTy) {β : Type} [ReadBuffer β] (b : β) (x : t.Obj) (m : Nat)
    (h : t.cls.deserialize m b x ≠ .diverge) (n : Nat) (hn : m ≤ n) :
    t.cls.deserialize n b x = t.cls.deserialize m b x :=
  ((t.steady.des hn b x).resolve_left h).symm

/-- **C21**, about the model: `deserialize` either has one outcome for all bounds that are large enough, or goes on forever
(exceeds every bound). -/
theorem C21_outcome (t : ElemTy) {β : Type} [ReadBuffer β] (b : β) (x : t.Obj) :
    (∃ m r, r ≠ .diverge ∧ ∀ n, m ≤ n → t.cls.deserialize n b x = r) ∨ ∀ n, t.cls.deserialize n b x = .diverge := by
  by_cases h : ∀ n, t.cls.deserialize n b x = .diverge
  · exact Or.inr h
  · obtain ⟨m, hm⟩ := Classical.not_forall.mp h
    exact Or.inl ⟨m, _, hm, fun n hn => C21_bound t b x m hm n hn⟩

/-! ## C86 -/

variable {fs os} {N K : Nat}

/-- **C86**: whatever the two programs and the network do, and in whatever order, if a message was sent as `frame` and
these bytes were received, then `deserialize` returned `NO_ERRORS` and the object had the value sent. -/
theorem C86_delivered (h : (T).WF) (hN : N < 2 ^ 31) (hK : K < 2 ^ 32) (hm : (T).maxLen < 2 ^ 32)
    {log : List (LinkEvent (T).Val (T).Val)} {s : Link fs os fs os} (hr : Link.Run N K log s) {v u : (T).Val} {frame : List Byte}
    {e : Error} (h1 : .sent v frame ∈ log) (h2 : .received frame e u ∈ log) : e = .noErrors ∧ u = (T).canon v := by
  obtain ⟨_, hl⟩ := hr.good h h hN hK hm
  obtain ⟨x, hx, rfl, rfl⟩ := hl _ h1
  obtain ⟨_, fuel, b, b', z, g1, g2, _, g3, rfl⟩ := hl _ h2
  have hfit := ElemTy.fits_canon T _ (ElemTy.fits_abs T x (ElemTy.reach_inv T h hx))
  obtain ⟨b2, z2, k1, _, k3⟩ := decode_fresh fs os (ReadFixed.model K hK) _ _ b _ h (Or.inl rfl) hfit g1 g2
    (Nat.lt_succ_self _)
  have e := ElemTy.deserialize_same T g3 k1
  cases e
  exact ⟨rfl, k3⟩

/-- **C86**, without `-0.0` in fields without presence: exactly the value sent. -/
theorem C86_delivered_exactly (h : (T).WF) (hN : N < 2 ^ 31) (hK : K < 2 ^ 32) (hm : (T).maxLen < 2 ^ 32)
    {log : List (LinkEvent (T).Val (T).Val)} {s : Link fs os fs os} (hr : Link.Run N K log s) {v u : (T).Val} {frame : List Byte}
    {e : Error} (h1 : .sent v frame ∈ log) (h2 : .received frame e u ∈ log) (hz : (T).canon v = v) :
    e = .noErrors ∧ u = v := by
  obtain ⟨g1, g2⟩ := C86_delivered h hN hK hm hr h1 h2
  exact ⟨g1, g2.trans hz⟩

/-- **C86**, on a network that delivers the frames in order (up to the time looked at): what was received are the values
sent, in order. -/
theorem C86_in_order (h : (T).WF) (hN : N < 2 ^ 31) (hK : K < 2 ^ 32) (hm : (T).maxLen < 2 ^ 32)
    {log : List (LinkEvent (T).Val (T).Val)} {s : Link fs os fs os} (hr : Link.Run N K log s)
    (hn : (receivedOf log).map (·.1) <+: (sentOf log).map (·.1)) :
    (receivedOf log).map (·.2) <+: (sentOf log).map fun x => (.noErrors, (T).canon x.2) := by
  have hs : ∀ l : List (LinkEvent (T).Val (T).Val), ∀ x ∈ sentOf l, .sent x.2 x.1 ∈ l := by
    intro l
    induction l with
    | nil => exact fun _ h => nomatch h
    | cons a l ih =>
      intro x hx
      cases a with
      | sent v f =>
        rcases List.mem_cons.mp hx with rfl | hx
        · exact List.mem_cons_self
        · exact List.mem_cons_of_mem _ (ih x hx)
      | received f e v => exact List.mem_cons_of_mem _ (ih x hx)
  have hrc : ∀ l : List (LinkEvent (T).Val (T).Val), ∀ x ∈ receivedOf l, .received x.1 x.2.1 x.2.2 ∈ l := by
    intro l
    induction l with
    | nil => exact fun _ h => nomatch h
    | cons a l ih =>
      intro x hx
      cases a with
      | received f e v =>
        rcases List.mem_cons.mp hx with rfl | hx
        · exact List.mem_cons_self
        · exact List.mem_cons_of_mem _ (ih x hx)
      | sent v f => exact List.mem_cons_of_mem _ (ih x hx)
  have key : ∀ (R : List (List Byte × Error × (T).Val)) (S : List (List Byte × (T).Val)), (∀ x ∈ R, x ∈ receivedOf log) →
      (∀ x ∈ S, x ∈ sentOf log) → R.map (·.1) <+: S.map (·.1) →
      R.map (·.2) <+: S.map fun x => (.noErrors, (T).canon x.2) := by
    intro R
    induction R with
    | nil => exact fun _ _ _ _ => List.nil_prefix
    | cons r R ih =>
      intro S hR hS hp
      cases S with
      | nil => simp at hp
      | cons a S =>
        rw [List.map_cons, List.map_cons, List.cons_prefix_cons] at hp ⊢
        obtain ⟨g1, g2⟩ := C86_delivered h hN hK hm hr (hs _ _ (hS a List.mem_cons_self))
          (hp.1 ▸ hrc _ _ (hR r List.mem_cons_self))
        refine ⟨Prod.ext g1 g2, ih S (fun x hx => hR x (List.mem_cons_of_mem _ hx))
          (fun x hx => hS x (List.mem_cons_of_mem _ hx)) hp.2⟩
  exact key _ _ (fun _ h => h) (fun _ h => h) hn

/-- **C86**: at any time, the sender can send what it has if its buffer is longer than the longest message. -/
theorem C86_can_send (h : (T).WF) (hN : N < 2 ^ 31) (hK : K < 2 ^ 32) (hm : (T).maxLen < N)
    {log : List (LinkEvent (T).Val (T).Val)} {s : Link fs os fs os} (hr : Link.Run N K log s) :
    ∃ frame s', s.Step [.sent ((T).abs s.sender) frame] s' ∧ frame.length ≤ (T).maxLen := by
  obtain ⟨⟨g1, _, ⟨c, room, g3⟩, _⟩, _⟩ := hr.good h h hN hK (by omega)
  obtain ⟨w', bs, room', k1, k2, k3⟩ := C60_always_fits (WriteFixed.modelOf N) fs os s.sender s.out.clear [] N h g1
    (WriteFixed.clear_rep g3) (Nat.le_refl _) (by omega) hm
  exact ⟨_, _, .send k1, by rw [k2.1.2.2.2.1]; simpa using k3⟩

/-- **C86**: at any time, whatever was received before, a frame that was sent and fits into the buffer can be received. -/
theorem C86_can_receive (h : (T).WF) (hN : N < 2 ^ 31) (hK : K < 2 ^ 32) (hm : (T).maxLen < 2 ^ 32)
    {log : List (LinkEvent (T).Val (T).Val)} {s : Link fs os fs os} (hr : Link.Run N K log s) {v : (T).Val} {frame : List Byte}
    (h1 : .sent v frame ∈ log) (hl : frame.length ≤ K) : ∃ s', s.Step [.received frame .noErrors ((T).canon v)] s' := by
  obtain ⟨⟨_, g2, _, g4⟩, hlog⟩ := hr.good h h hN hK hm
  obtain ⟨x, hx, rfl, rfl⟩ := hlog _ h1
  obtain ⟨b, hb⟩ := ReadFixed.fill hK g4 hl
  obtain ⟨f1, f2⟩ := ReadFixed.Fill.spec hK g4 hl hb
  have hfit := ElemTy.fits_canon T _ (ElemTy.fits_abs T x (ElemTy.reach_inv T h hx))
  obtain ⟨b2, z2, k1, _, k3⟩ := decode_fresh fs os (ReadFixed.model K hK) _ _ b _ h (Or.inl rfl) hfit f1 f2
    (Nat.lt_succ_self _)
  have hs := Link.Step.receive (s := s) (g4.cap_eq.symm ▸ hl) hb
    ((ElemTy.base T h).clear _ (ElemTy.reach_inv T h g2)) k1
  rw [k3] at hs
  exact ⟨_, hs⟩

/-- **C86**: whatever arrives, filling the buffer, `clear()` and `deserialize` are not undefined. -/
theorem C86_defined (h : (T).WF) (hN : N < 2 ^ 31) (hK : K < 2 ^ 32) (hm : (T).maxLen < 2 ^ 32)
    {log : List (LinkEvent (T).Val (T).Val)} {s : Link fs os fs os} (hr : Link.Run N K log s) (frame : List Byte)
    (hl : frame.length ≤ K) :
    ∃ b y, s.inp.Fill frame b ∧ (T).cls.clear s.receiver = .ok y ∧ ∀ fuel, (T).cls.deserialize fuel b y ≠ .ub := by
  obtain ⟨⟨_, g2, _, g4⟩, _⟩ := hr.good h h hN hK hm
  obtain ⟨b, hb⟩ := ReadFixed.fill hK g4 hl
  obtain ⟨f1, f2⟩ := ReadFixed.Fill.spec hK g4 hl hb
  exact ⟨b, _, hb, (ElemTy.base T h).clear _ (ElemTy.reach_inv T h g2), fun fuel =>
    (C20_no_ub (ReadFixed.model K hK) fs os _ b fuel h .init f1).1⟩

end

/-! ## Examples -/

namespace LinkSample

abbrev fields : Fields := .plain 1 (.scalar .int32) .nil

/-- The sender receives `08 05` from somewhere, which sets the field to 5. -/
def source : Source :=
  ⟨ReadFixed, ReadFixed.model 8 (by omega), ReadFixed.holding 8 [0x08, 0x05], ReadFixed.holding_inv _ _ _ (by decide)⟩

abbrev val (n : BitVec 32) : (ElemTy.msg fields .nil).Val := ((n, ()), ())

/-- The field is set to 5 and the message sent as `08 05`.  `08` arrives, then `08 05`. -/
theorem run : ∃ s : Link fields .nil fields .nil, Link.Run (fs := fields) (os := .nil) (gs := fields) (ps := .nil) 8 8
    [.sent (val 5) [0x08, 0x05], .received [0x08] .endOfBuffer (val 0),
      .received [0x08, 0x05] .noErrors (val 5)] s := by
  have r0 : Link.Run (fs := fields) (os := .nil) (gs := fields) (ps := .nil) 8 8 []
      ⟨repElem 5, WriteFixed.new 8, ReadFixed.new 8, (ElemTy.msg fields .nil).cls.init⟩ :=
    .step .start (.edit (R := fun _ => False) (x := repElem 5)
      (f := fun x => ((oneScalar 1 .int32).cls.deserialize 9 source.buf x).object) (fun _ h => h.elim)
      (Or.inl (Or.inr (Or.inr (Or.inr (Or.inl ⟨source, 9, rfl⟩))))) rfl)
  have r1 := r0.step (.send (w := ⟨8, [0x08, 0x05, 0, 0, 0, 0, 0, 0], 2⟩) rfl)
  have r2 := r1.step (.receive (frame := [0x08]) (b := ⟨8, [0x08, 0, 0, 0, 0, 0, 0, 0], 1, 0⟩) (fuel := 9)
    (e := .endOfBuffer) (b' := ⟨8, [0x08, 0, 0, 0, 0, 0, 0, 0], 1, 1⟩) (z := repElem 0) (y := repElem 0)
    (by decide) (Or.inl ⟨_, rfl⟩) rfl rfl)
  have r3 := r2.step (.receive (frame := [0x08, 0x05]) (b := ⟨8, [0x08, 0x05, 0, 0, 0, 0, 0, 0], 2, 0⟩) (fuel := 9)
    (e := .noErrors) (b' := ⟨8, [0x08, 0x05, 0, 0, 0, 0, 0, 0], 2, 2⟩) (z := repElem 5) (y := repElem 0)
    (by decide) (Or.inr ⟨_, rfl⟩) rfl rfl)
  exact ⟨_, r3⟩

/-- The hypotheses on the declaration. -/
example : (ElemTy.msg fields .nil).WF ∧ (ElemTy.msg fields .nil).maxLen < 8 := ⟨oneScalar_wf .int32, by decide +kernel⟩

end LinkSample

/-- C21: the bytes `08 05` need more than one iteration; the outcome is the same for all bounds from two on. -/
example : (oneScalar 1 .int32).cls.deserialize 1 (ReadFixed.holding 8 [0x08, 0x05]) (repElem 0) = .diverge ∧
    (oneScalar 1 .int32).cls.deserialize 2 (ReadFixed.holding 8 [0x08, 0x05]) (repElem 0) =
      .ok (.noErrors, ⟨8, [0x08, 0x05, 0, 0, 0, 0, 0, 0], 2, 2⟩, repElem 5) := ⟨rfl, rfl⟩

end EP
