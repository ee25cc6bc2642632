import Verif.Spec.Link
import Verif.Proof.BufferHistory
import Verif.Proof.LoopBound
import Verif.Props.Size
import Verif.Props.Safety

/-!
# Two programs that exchange messages: what holds after every history
-/

namespace EP
open Spec

/-- The contract of a `WriteBufferFixedSize<N>`. -/
def WriteFixed.modelOf (N : Nat) : WriteModel WriteFixed where
  Rep w c room := WriteFixed.model.Rep w c room ∧ w.cap = N
  full w := WriteFixed.model.full w
  slack := 1
  avail w c room h := WriteFixed.model.avail w c room h.1
  push_ok w c room x h hf := by
    obtain ⟨w', h1, h2⟩ := WriteFixed.model.push_ok w c room x h.1 hf
    obtain ⟨w2, h3, h4, _⟩ := WriteFixed.push_rep w c room x h.1
    have h3' : WriteBuffer.push w x = .ok _ := h3
    rw [h1] at h3'
    injection h3' with h3'
    injection h3' with _ h3'
    exact ⟨w', h1, h2, by rw [h3', h4, h.2]⟩
  push_full w c room x h hf := WriteFixed.model.push_full w c room x h.1 hf
  pushBytes w c room bs h hl := by
    rcases WriteFixed.model.pushBytes w c room bs h.1 hl with ⟨w', h1, h2⟩ | h1
    · obtain ⟨w2, h3, h4, _⟩ := WriteFixed.pushBytes_rep w c room bs h.1 hl
      have h3' : WriteBuffer.pushBytes w bs = .ok _ := h3
      rw [h1] at h3'
      injection h3' with h3'
      injection h3' with _ h3'
      exact Or.inl ⟨w', h1, h2, by rw [h3', h4, h.2]⟩
    · exact Or.inr h1

theorem WriteFixed.clear_rep {N : Nat} {w : WriteFixed} {c : List Byte} {room : Nat}
    (h : (WriteFixed.modelOf N).Rep w c room) : (WriteFixed.modelOf N).Rep w.clear [] N := by
  obtain ⟨⟨h1, h2, h3, h4, h5⟩, h6⟩ := h
  exact ⟨⟨h1, Nat.zero_le _, h3, rfl, h6.symm⟩, h6⟩

theorem Queue.run_push (cap : Nat) : ∀ (bs : List Byte) (q : Queue), q.stored.length + bs.length ≤ cap →
    (Queue.run cap (bs.map .push) q).2 = ⟨q.stored ++ bs, q.unread ++ bs⟩
  | [], q, _ => by simp [Queue.run]
  | x :: xs, q, h => by
    rw [List.length_cons] at h
    simp only [List.map_cons, Queue.run, Queue.step]
    rw [if_pos (by omega)]
    dsimp only
    rw [Queue.run_push cap xs _ (by simp; omega)]
    simp

/-- However the frame gets into the buffer, it is what is there to be read. -/
theorem ReadFixed.Fill.queue {K : Nat} {b b' : ReadFixed} {frame : List Byte} (hK : K < 4294967296) (h : b.Sane K)
    (hl : frame.length ≤ K) (hf : b.Fill frame b') : b'.IsQueue K ⟨frame, frame⟩ := by
  have hq : b.clear.IsQueue K ⟨[], []⟩ :=
    ⟨⟨h.cap_eq, h.length_eq.trans h.cap_eq.symm, Nat.le_refl _, Nat.zero_le _⟩, rfl, rfl⟩
  rcases hf with ⟨o, hf⟩ | ⟨o, hf⟩
  · obtain ⟨b2, h1, h2⟩ := ReadFixed.qstep_queue K hK (.load frame) b.clear _ hl hq
    have e : b.clear.qstep (.load frame) = b.qstep (.load frame) := rfl
    rw [e, hf] at h1
    injection h1 with h1
    injection h1 with _ h1
    subst h1
    exact h2
  · obtain ⟨b2, h1, h2⟩ := ReadFixed.qrun_queue K hK (frame.map .push) b.clear _ (by simp) hq
    rw [ReadFixed.qrun] at hf
    change (ReadFixed.qrun (frame.map .push) b.clear >>= fun r => pure (.none :: r.1, r.2)) = _ at hf
    rw [h1, Res.ok_bind] at hf
    injection hf with hf
    injection hf with _ hf
    subst hf
    rw [Queue.run_push K frame _ (by simpa using hl)] at h2
    exact h2

theorem ReadFixed.Fill.spec {K : Nat} {b b' : ReadFixed} {frame : List Byte} (hK : K < 4294967296) (h : b.Sane K)
    (hl : frame.length ≤ K) (hf : b.Fill frame b') : b'.WF K ∧ b'.unread = frame :=
  ⟨(hf.queue hK h hl).wf, (hf.queue hK h hl).unread⟩

/-- It is at the beginning, and there is nothing else. -/
theorem ReadFixed.Fill.index {K : Nat} {b b' : ReadFixed} {frame : List Byte} (hK : K < 4294967296) (h : b.Sane K)
    (hl : frame.length ≤ K) (hf : b.Fill frame b') :
    b'.write = frame.length ∧ b'.read = 0 ∧ b'.data.take b'.write = frame := by
  obtain ⟨h1, h2, h3⟩ := hf.queue hK h hl
  have h4 := h1.unread_length
  have h5 := h1.read_le
  have h6 : (b'.data.take b'.write).length = b'.write := by
    have := h1.write_le; have := h1.length_eq; have := h1.cap_eq; simp; omega
  rw [h2] at h6
  rw [h3] at h4
  dsimp only at h4 h6
  exact ⟨h6.symm, by omega, h2⟩

theorem ReadFixed.fill {K : Nat} {b : ReadFixed} {frame : List Byte} (hK : K < 4294967296) (h : b.Sane K)
    (hl : frame.length ≤ K) : ∃ b', b.Fill frame b' := by
  obtain ⟨r, b', h1, _⟩ := ReadFixed.rstep_sane K hK (.q (.load frame)) b hl h
  exact ⟨b', Or.inl ⟨_, h1⟩⟩

theorem ReadFixed.WF.sane {K : Nat} {b : ReadFixed} (h : b.WF K) : b.Sane K :=
  ⟨h.cap_eq, h.length_eq.trans h.cap_eq, h.cap_eq ▸ h.write_le, h.cap_eq ▸ Nat.le_trans h.read_le h.write_le⟩

namespace Link
variable {fs : Fields} {os : Oneofs} {gs : Fields} {ps : Oneofs}
local notation "T" => ElemTy.msg fs os
local notation "S" => ElemTy.msg gs ps

/-- What holds of the two programs at any time. -/
structure Good (N K : Nat) (s : Link fs os gs ps) : Prop where
  sender : (T).Reach s.sender
  receiver : (S).Reach s.receiver
  out : ∃ c room, (WriteFixed.modelOf N).Rep s.out c room
  inp : s.inp.Sane K

/-- What holds of what was seen. -/
def Seen (K : Nat) (hK : K < 4294967296) : LinkEvent (T).Val (S).Val → Prop
  | .sent v f => ∃ x, (T).Reach x ∧ v = (T).abs x ∧ f = (T).encode ((T).canon v)
  | .received f e u => f.length ≤ K ∧ ∃ fuel b b' z, (ReadFixed.model K hK).Inv b ∧ (ReadFixed.model K hK).view b = f ∧
      (b.write = f.length ∧ b.read = 0 ∧ b.data.take b.write = f) ∧ (S).cls.deserialize fuel b (S).cls.init = .ok (e, b', z) ∧ u = (S).abs z

variable {N K : Nat}

theorem Step.good (h : (T).WF) (h' : (S).WF) (hK : K < 4294967296) (hm : (T).maxLen < 2 ^ 32) {s s' : Link fs os gs ps}
    {es : List (LinkEvent (T).Val (S).Val)} (hs : Step s es s') (hg : Good N K s) :
    Good N K s' ∧ ∀ e ∈ es, Seen K hK e := by
  have hlen := (T).encode_maxLen _ (ElemTy.fits_canon T _ (ElemTy.fits_abs T s.sender (ElemTy.reach_inv T h hg.sender)))
  obtain ⟨g1, g2, ⟨c, room, g3⟩, g4⟩ := hg
  cases hs with
  | edit hR hf he => exact ⟨⟨.step hR hf g1 he, g2, ⟨c, room, g3⟩, g4⟩, fun _ h => nomatch h⟩
  | use hR hf he => exact ⟨⟨g1, .step hR hf g2 he, ⟨c, room, g3⟩, g4⟩, fun _ h => nomatch h⟩
  | scribble hb he =>
    rename_i op r w
    obtain ⟨rs, w', h1, h2, _, h3⟩ := WriteFixed.run_log s.out.cap [op] s.out c room rfl g3.1
      (fun bs hbs => hb bs (List.mem_singleton.mp hbs).symm)
    rw [he] at h1
    injection h1 with h1
    injection h1 with _ h1
    subst h1
    exact ⟨⟨g1, g2, ⟨_, _, h3, h2.trans g3.2⟩, g4⟩, fun _ h => nomatch h⟩
  | send he =>
    rename_i w
    have ha := C13_serialize_partial (WriteFixed.modelOf N) fs os s.sender s.out.clear [] N h g1 (WriteFixed.clear_rep g3)
      (by omega)
    rw [he] at ha
    rcases ha with ⟨_, ha⟩ | ⟨ha, _⟩
    · refine ⟨⟨g1, g2, ⟨_, _, ha⟩, g4⟩, fun e hm => ?_⟩
      rw [List.mem_singleton.mp hm]
      exact ⟨s.sender, g1, rfl, by simpa using ha.1.2.2.2.1⟩
    · exact nomatch ha
  | fail hn he =>
    rename_i e w
    have ha := C13_serialize_partial (WriteFixed.modelOf N) fs os s.sender s.out.clear [] N h g1 (WriteFixed.clear_rep g3)
      (by omega)
    rw [he] at ha
    rcases ha with ⟨ha, _⟩ | ⟨_, _, k, room', _, ha⟩
    · exact absurd ha hn
    · exact ⟨⟨g1, g2, ⟨_, _, ha⟩, g4⟩, fun _ h => nomatch h⟩
  | fiddle hl he =>
    rename_i op r b
    obtain ⟨_, _, h1, h2⟩ := ReadFixed.rstep_sane K hK op s.inp (g4.cap_eq ▸ hl) g4
    rw [he] at h1
    injection h1 with h1
    injection h1 with _ h1
    subst h1
    exact ⟨⟨g1, g2, ⟨c, room, g3⟩, h2⟩, fun _ h => nomatch h⟩
  | receive hl hf hc hd =>
    rename_i frame b b' y z fuel e
    rw [g4.cap_eq] at hl
    obtain ⟨f1, f2⟩ := ReadFixed.Fill.spec hK g4 hl hf
    rw [(ElemTy.base S h').clear _ (ElemTy.reach_inv S h' g2)] at hc
    cases hc
    have hs := ElemTy.msg_safe gs ps h' (ReadFixed.model K hK) fuel b (S).cls.init f1 (ElemTy.reach_inv S h' .init)
    rw [hd] at hs
    refine ⟨⟨g1, (S).reach_decoded ⟨ReadFixed, ReadFixed.model K hK, _, f1⟩ _ .init hd, ⟨c, room, g3⟩, hs.1.sane⟩,
      fun e hm => ?_⟩
    rw [List.mem_singleton.mp hm]
    exact ⟨hl, fuel, b, b', z, f1, f2, hf.index hK g4 hl, hd, rfl⟩

theorem Run.good (h : (T).WF) (h' : (S).WF) (hN : N < 2147483648) (hK : K < 4294967296) (hm : (T).maxLen < 2 ^ 32)
    {log : List (LinkEvent (T).Val (S).Val)} {s : Link fs os gs ps} (hr : Run N K log s) :
    Good N K s ∧ ∀ e ∈ log, Seen K hK e := by
  induction hr with
  | start =>
    refine ⟨⟨.init, .init, ⟨_, _, WriteFixed.new_rep N hN, rfl⟩, ?_⟩, fun _ h => nomatch h⟩
    exact ⟨rfl, by simp [ReadFixed.new], Nat.zero_le _, Nat.zero_le _⟩
  | step _ hs ih =>
    obtain ⟨h1, h2⟩ := hs.good h h' hK hm ih.1
    refine ⟨h1, fun e he => ?_⟩
    rcases List.mem_append.mp he with he | he
    · exact ih.2 e he
    · exact h2 e he

end Link

/-- Two runs of `deserialize` that return, with whatever bounds, return the same. -/
theorem ElemTy.deserialize_same (t : ElemTy) {β : Type} [ReadBuffer β] {m n : Nat} {b : β} {x : t.Obj}
    {r r' : Error × β × t.Obj} (h : t.cls.deserialize m b x = .ok r) (h' : t.cls.deserialize n b x = .ok r') : r = r' := by
  rcases Nat.le_total m n with hl | hl
  · rcases t.steady.des hl b x with e | e
    · rw [h] at e; cases e
    · rw [h, h'] at e; injection e
  · rcases t.steady.des hl b x with e | e
    · rw [h'] at e; cases e
    · rw [h, h'] at e; injection e with e; exact e.symm

end EP
