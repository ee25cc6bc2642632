import Verif.Proof.Bisim
import Verif.Props.Link
import Verif.Props.Evolution

/-!
# What is received depends on the bytes only: C88; two versions of a declaration on a network: C89
-/

namespace EP
open Spec

/-! ## C88 -/

section
variable {gs : Fields} {ps : Oneofs}
local notation "S" => ElemTy.msg gs ps

/-- **C88**, any buffers: if two buffers, of one class or of two, answer alike from now on, then decoding from them gives
the same error and object, or is undefined or endless for both; and they answer alike afterwards.  This is so for every
declaration, every object (also corrupted ones) and all bytes. -/
theorem C88_interface (t : ElemTy) {β γ : Type} [ReadBuffer β] [ReadBuffer γ] (B : Bisim β γ) (fuel : Nat) (b : β) (c : γ)
    (x : t.Obj) (h : B.R b c) : Res.Alike B.Out (t.cls.deserialize fuel b x) (t.cls.deserialize fuel c x) :=
  t.opaque.des B fuel x h

/-- **C88**: two receivers with objects and buffers of whatever history, also with buffers of different sizes, get the same
bytes, in either of the two ways; both clear their object and decode.  Whatever the bytes are, this gives both the same
error and the same object, or is endless for both. -/
theorem C88_reception (h : (S).WF) {K K' : Nat} (hK : K < 2 ^ 32) (hK' : K' < 2 ^ 32) {b b1 c c1 : ReadFixed}
    (hb : b.Sane K) (hc : c.Sane K') {frame : List Byte} (hl : frame.length ≤ K) (hl' : frame.length ≤ K')
    (hb1 : b.Fill frame b1) (hc1 : c.Fill frame c1) {x y x1 y1 : (S).Obj} (hx : (S).Reach x) (hy : (S).Reach y)
    (hx1 : (S).cls.clear x = .ok x1) (hy1 : (S).cls.clear y = .ok y1) (fuel : Nat) :
    Res.Alike (fun p q => p.1 = q.1 ∧ p.2.2 = q.2.2) ((S).cls.deserialize fuel b1 x1) ((S).cls.deserialize fuel c1 y1) := by
  rw [(ElemTy.base S h).clear _ (ElemTy.reach_inv S h hx)] at hx1
  rw [(ElemTy.base S h).clear _ (ElemTy.reach_inv S h hy)] at hy1
  cases hx1
  cases hy1
  obtain ⟨p1, p2, p3⟩ := hb1.index hK hb hl
  obtain ⟨q1, q2, q3⟩ := hc1.index hK' hc hl'
  have := C88_interface S ReadFixed.bisim fuel b1 c1 (S).cls.init ⟨p1.trans q1.symm, p2.trans q2.symm, p3.trans q3.symm⟩
  generalize (S).cls.deserialize fuel b1 (S).cls.init = r at this ⊢
  generalize (S).cls.deserialize fuel c1 (S).cls.init = r' at this ⊢
  match r, r', this with
  | .ok _, .ok _, h => exact ⟨h.1, h.2.2⟩
  | .ub, .ub, _ => trivial
  | .diverge, .diverge, _ => trivial

/-- **C88**, in the setting of C86: whenever the same bytes are received by programs with the same class, in one history or
in two, whatever was sent and received before, wherever the bytes come from, and whatever the sizes of the buffers are, the
return values and the values received are the same. -/
theorem C88_same {fs fs' : Fields} {os os' : Oneofs} (h1 : (ElemTy.msg fs os).WF) (h1' : (ElemTy.msg fs' os').WF)
    (h : (S).WF) {N N' K K' : Nat} (hN : N < 2 ^ 31) (hN' : N' < 2 ^ 31) (hK : K < 2 ^ 32) (hK' : K' < 2 ^ 32)
    (hm : (ElemTy.msg fs os).maxLen < 2 ^ 32) (hm' : (ElemTy.msg fs' os').maxLen < 2 ^ 32)
    {log : List (LinkEvent (ElemTy.msg fs os).Val (S).Val)} {s : Link fs os gs ps} (hr : Link.Run N K log s)
    {log' : List (LinkEvent (ElemTy.msg fs' os').Val (S).Val)} {s' : Link fs' os' gs ps} (hr' : Link.Run N' K' log' s')
    {frame : List Byte} {e e' : Error} {u u' : (S).Val} (hu : .received frame e u ∈ log)
    (hu' : .received frame e' u' ∈ log') : e = e' ∧ u = u' := by
  obtain ⟨_, fuel, b, b', z, _, _, ⟨p1, p2, p3⟩, g3, rfl⟩ := (hr.good h1 h hN hK hm).2 _ hu
  obtain ⟨_, fuel', c, c', z', _, _, ⟨q1, q2, q3⟩, k3, rfl⟩ := (hr'.good h1' h hN' hK' hm').2 _ hu'
  have a := C88_interface S ReadFixed.bisim (max fuel fuel') b c (S).cls.init
    ⟨p1.trans q1.symm, p2.trans q2.symm, p3.trans q3.symm⟩
  rw [C21_bound S b _ fuel (by rw [g3]; exact nofun) _ (Nat.le_max_left _ _), g3,
    C21_bound S c _ fuel' (by rw [k3]; exact nofun) _ (Nat.le_max_right _ _), k3] at a
  obtain ⟨a1, _, a2⟩ := a
  exact ⟨a1, congrArg (S).abs a2⟩

end

/-! ## C89 -/

section
variable {fs : Fields} {os : Oneofs} (f : fs.Older) (o : os.Older) {N K : Nat}
local notation "T" => ElemTy.msg fs os
local notation "S" => ElemTy.msg f.old o.old
local notation "M" => ElemTy.Older.msg f o

/-- **C89**: the sender has a newer declaration.  Whenever the bytes of a message that was sent are received, and what the
receiver knows of it fits its class, `deserialize` returned `NO_ERRORS` and the object had the values of the fields that
the receiver knows. -/
theorem C89_older_receiver (h : (T).WF) (h' : (S).WF) (hN : N < 2 ^ 31) (hK : K < 2 ^ 32) (hm : (T).maxLen < 2 ^ 32)
    {log : List (LinkEvent (T).Val (S).Val)} {s : Link fs os f.old o.old} (hr : Link.Run N K log s) {v : (T).Val}
    {u : (S).Val} {frame : List Byte} {e : Error} (h1 : .sent v frame ∈ log) (h2 : .received frame e u ∈ log)
    (hfit : (S).Fits ((M).shown ((T).canon v))) : e = .noErrors ∧ u = (M).shown ((T).canon v) := by
  obtain ⟨_, hl⟩ := hr.good h h' hN hK hm
  obtain ⟨x, hx, rfl, rfl⟩ := hl _ h1
  obtain ⟨_, fuel, b, b', z, g1, g2, _, g3, rfl⟩ := hl _ h2
  have hlen := (T).encode_maxLen _ (ElemTy.fits_canon T _ (ElemTy.fits_abs T x (ElemTy.reach_inv T h hx)))
  have hrec := records_older readable_enc h f o ((T).canon ((T).abs x)) hfit (by exact Nat.lt_of_le_of_lt hlen hm)
  have hi : (S).abs (S).cls.init = (S).dflt := (ElemTy.base S h').init_abs
  obtain ⟨b2, z2, k1, _, k3⟩ := C19_records_partial (ReadFixed.model K hK) f.old o.old (S).cls.init _ b _ h' (Or.inr .init)
    g1 (by rw [g2, hi]; exact hrec) (Nat.lt_succ_self _)
  have e := ElemTy.deserialize_same S g3 k1
  cases e
  exact ⟨rfl, k3⟩

/-- **C89**: the sender has an older declaration.  Whenever the bytes of a message that was sent are received, and it fits
the class of the receiver, `deserialize` returned `NO_ERRORS`, the object had the values sent, and nothing that was added
to the declaration was set. -/
theorem C89_newer_receiver (h : (T).WF) (h' : (S).WF) (hN : N < 2 ^ 31) (hK : K < 2 ^ 32) (hm : (S).maxLen < 2 ^ 32)
    {log : List (LinkEvent (S).Val (T).Val)} {s : Link f.old o.old fs os} (hr : Link.Run N K log s) {v : (S).Val}
    {u : (T).Val} {frame : List Byte} {e : Error} (h1 : .sent v frame ∈ log) (h2 : .received frame e u ∈ log)
    (hfit : (T).Fits ((M).lifted ((S).canon v))) : e = .noErrors ∧ u = (M).lifted ((S).canon v) := by
  obtain ⟨_, hl⟩ := hr.good h' h hN hK hm
  obtain ⟨x, hx, rfl, rfl⟩ := hl _ h1
  obtain ⟨_, fuel, b, b', z, g1, g2, _, g3, rfl⟩ := hl _ h2
  have e : (T).encode ((M).lifted ((S).canon ((S).abs x))) = (S).encode ((S).canon ((S).abs x)) := (M).encode_lifted _
  obtain ⟨b2, z2, k1, _, k3⟩ := decode_fresh fs os (ReadFixed.model K hK) ((M).lifted ((S).canon ((S).abs x))) _ b _ h
    (Or.inl rfl) hfit g1 (g2.trans e.symm) (Nat.lt_succ_self _)
  have e := ElemTy.deserialize_same T g3 k1
  cases e
  exact ⟨rfl, k3⟩

end

/-- **C89**, any two declarations, related or not: whatever arrives, filling the buffer, `clear()` and `deserialize` are not
undefined. -/
theorem C89_defined {fs gs : Fields} {os ps : Oneofs} (h : (ElemTy.msg fs os).WF) (h' : (ElemTy.msg gs ps).WF) {N K : Nat}
    (hN : N < 2 ^ 31) (hK : K < 2 ^ 32) (hm : (ElemTy.msg fs os).maxLen < 2 ^ 32)
    {log : List (LinkEvent (ElemTy.msg fs os).Val (ElemTy.msg gs ps).Val)} {s : Link fs os gs ps} (hr : Link.Run N K log s)
    (frame : List Byte) (hl : frame.length ≤ K) :
    ∃ b y, s.inp.Fill frame b ∧ (ElemTy.msg gs ps).cls.clear s.receiver = .ok y ∧
      ∀ fuel, (ElemTy.msg gs ps).cls.deserialize fuel b y ≠ .ub := by
  obtain ⟨⟨_, g2, _, g4⟩, _⟩ := hr.good h h' hN hK hm
  obtain ⟨b, hb⟩ := ReadFixed.fill hK g4 hl
  obtain ⟨f1, f2⟩ := ReadFixed.Fill.spec hK g4 hl hb
  exact ⟨b, _, hb, (ElemTy.base _ h').clear _ (ElemTy.reach_inv _ h' g2), fun fuel =>
    (C20_no_ub (ReadFixed.model K hK) gs ps _ b fuel h' .init f1).1⟩

/-! ## Examples -/

/-- C88: buffers of 2 and 8 bytes, one with a leftover, that hold the same bytes are related. -/
example : ReadFixed.bisim.R ⟨2, [0x08, 0x05], 2, 0⟩ ⟨8, [0x08, 0x05, 1, 2, 3, 4, 5, 6], 2, 0⟩ := ⟨rfl, rfl, rfl⟩

namespace LinkVersionsSample

/-- A second field was added. -/
abbrev newer : Fields := .plain 1 (.scalar .int32) (.plain 2 (.scalar .uint32) .nil)
abbrev toOld : newer.Older := .plain 1 (.scalar .int32) (.newPlain 2 (.scalar .uint32) .nil)

example : toOld.old = LinkSample.fields := rfl

abbrev val (n k : BitVec 32) : (ElemTy.msg newer .nil).Val := ((n, k, ()), ())

def obj (n k : BitVec 32) : (ElemTy.msg newer .nil).Obj := ⟨[], (n, k, ()), ()⟩

/-- The sender receives `08 05 10 07` from somewhere. -/
def source : Source :=
  ⟨ReadFixed, ReadFixed.model 8 (by omega), ReadFixed.holding 8 [0x08, 0x05, 0x10, 0x07],
    ReadFixed.holding_inv _ _ _ (by decide)⟩

/-- The newer program sends 5 and 7; the older one receives the 5. -/
theorem down : ∃ s : Link newer .nil LinkSample.fields .nil,
    Link.Run (fs := newer) (os := .nil) (gs := LinkSample.fields) (ps := .nil) 8 16
    [.sent (val 5 7) [0x08, 0x05, 0x10, 0x07], .received [0x08, 0x05, 0x10, 0x07] .noErrors (LinkSample.val 5)] s := by
  have r0 : Link.Run (fs := newer) (os := .nil) (gs := LinkSample.fields) (ps := .nil) 8 16 []
      ⟨obj 5 7, WriteFixed.new 8, ReadFixed.new 16, (ElemTy.msg LinkSample.fields .nil).cls.init⟩ :=
    .step .start (.edit (R := fun _ => False) (x := obj 5 7)
      (f := fun x => ((ElemTy.msg newer .nil).cls.deserialize 9 source.buf x).object) (fun _ h => h.elim)
      (Or.inl (Or.inr (Or.inr (Or.inr (Or.inl ⟨source, 9, rfl⟩))))) rfl)
  have r1 := r0.step (.send (w := ⟨8, [0x08, 0x05, 0x10, 0x07, 0, 0, 0, 0], 4⟩) rfl)
  have r2 := r1.step (.receive (frame := [0x08, 0x05, 0x10, 0x07])
    (b := ⟨16, [0x08, 0x05, 0x10, 0x07, 0, 0, 0, 0, 0, 0, 0, 0, 0, 0, 0, 0], 4, 0⟩) (fuel := 9)
    (e := .noErrors) (b' := ⟨16, [0x08, 0x05, 0x10, 0x07, 0, 0, 0, 0, 0, 0, 0, 0, 0, 0, 0, 0], 4, 4⟩) (z := repElem 5)
    (y := repElem 0) (by decide) (Or.inl ⟨_, rfl⟩) rfl rfl)
  exact ⟨_, r2⟩

/-- The older program sends 5; the newer one receives it. -/
theorem up : ∃ s : Link LinkSample.fields .nil newer .nil,
    Link.Run (fs := LinkSample.fields) (os := .nil) (gs := newer) (ps := .nil) 8 8
    [.sent (LinkSample.val 5) [0x08, 0x05], .received [0x08, 0x05] .noErrors (val 5 0)] s := by
  have r0 : Link.Run (fs := LinkSample.fields) (os := .nil) (gs := newer) (ps := .nil) 8 8 []
      ⟨repElem 5, WriteFixed.new 8, ReadFixed.new 8, (ElemTy.msg newer .nil).cls.init⟩ :=
    .step .start (.edit (R := fun _ => False) (x := repElem 5)
      (f := fun x => ((oneScalar 1 .int32).cls.deserialize 9 LinkSample.source.buf x).object) (fun _ h => h.elim)
      (Or.inl (Or.inr (Or.inr (Or.inr (Or.inl ⟨LinkSample.source, 9, rfl⟩))))) rfl)
  have r1 := r0.step (.send (w := ⟨8, [0x08, 0x05, 0, 0, 0, 0, 0, 0], 2⟩) rfl)
  have r2 := r1.step (.receive (frame := [0x08, 0x05]) (b := ⟨8, [0x08, 0x05, 0, 0, 0, 0, 0, 0], 2, 0⟩) (fuel := 9)
    (e := .noErrors) (b' := ⟨8, [0x08, 0x05, 0, 0, 0, 0, 0, 0], 2, 2⟩) (z := obj 5 0)
    (y := obj 0 0) (by decide) (Or.inr ⟨_, rfl⟩) rfl rfl)
  exact ⟨_, r2⟩

/-- What C89 says of these values. -/
example : (ElemTy.Older.msg toOld Oneofs.Older.nil).shown ((ElemTy.msg newer .nil).canon (val 5 7)) = LinkSample.val 5 ∧
    (ElemTy.Older.msg toOld Oneofs.Older.nil).lifted (LinkSample.val 5) = val 5 0 := ⟨rfl, rfl⟩

/-- The hypotheses on the newer declaration. -/
example : (ElemTy.msg newer .nil).WF ∧ (ElemTy.msg newer .nil).maxLen < 2 ^ 32 :=
  ⟨by simp [ElemTy.WF, Fields.WF, Oneofs.WF, Fields.numbers, Oneofs.numbers], by decide +kernel⟩

end LinkVersionsSample

end EP
